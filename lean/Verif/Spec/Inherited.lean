import Verif.Spec.Bases
import Verif.Spec.Superclasses

/-!
# Members of generic base classes (specification)
-/

namespace Paradigm.Spec

/-- `b` is a base of the class `c`, or may become one when `c` is specialised: another class has a base
`v[w]` where `v` means `c` (or it is not known what it means), and the parameters of `c` are replaced
by the arguments in `w`. -/
inductive MayBeBase (n : Nat) (s : ParseState) : QPath → Expr → Prop where
  | own {c : QPath} {bases : List Expr} {b : Expr} (h : s.classesBases.lookup c = some bases) (hb : b ∈ bases) :
      MayBeBase n s c b
  | specialised {c d : QPath} {v w v' w' v2 w2 : Expr} {l l2 : Bool} {params : List Path}
      (h : MayBeBase n s c (.subscript v w l)) (hg : s.generics.lookup c = some params)
      (hd : MayBeBase n s d (.subscript v2 w2 l2)) (hm : ∀ q, BaseMeans n s d v2 q → q = c)
      (hv : PlainAttributes (fun p => (params.zip (bracketed w2)).lookup p) v →
        v' = subst (fun p => (params.zip (bracketed w2)).lookup p) v)
      (hw : PlainAttributes (fun p => (params.zip (bracketed w2)).lookup p) w →
        w' = subst (fun p => (params.zip (bracketed w2)).lookup p) w) :
      MayBeBase n s c (.subscript v' w' l)

/-- Bases with this identifier mean the class `g` with the arguments `args`, wherever they stand. -/
def IdentifiesOnly (identifier : Expr → Option String) (n : Nat) (s : ParseState) (name : String) (g : QPath)
    (args : List Expr) : Prop :=
  ∀ c v w l, MayBeBase n s c (.subscript v w l) → identifier (.subscript v w l) = some name →
    bracketed w = args ∧ BaseMeans n s c v g

end Paradigm.Spec
