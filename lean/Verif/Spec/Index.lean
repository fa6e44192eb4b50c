import Verif.Model.Index

/-!
# What an index lists
-/

namespace Paradigm.Spec

/-- The locations listed under a qualified path. -/
def listed (index : Index) (q : QPath) : List QPath :=
  (((index.lookup q.1).getD []).lookup q.2).getD []

/-- Following `path` from a module or class leads to `v`, by way of the given classes (`v` included if
it is one). -/
inductive Leads (W : World) : Nat → Path → Value → List Nat → Prop
  | other {ns : Nat} {name : String} {id : Nat} :
    (name, .other id) ∈ W.vars ns → Leads W ns [name] (.other id) []
  | cls {ns : Nat} {name : String} {id : Nat} :
    (name, .cls id) ∈ W.vars ns → Leads W ns [name] (.cls id) [id]
  | inside {ns : Nat} {name : String} {id : Nat} {path : Path} {v : Value} {via : List Nat} :
    (name, .cls id) ∈ W.vars ns → Leads W id path v via → Leads W ns (name :: path) v (id :: via)

/-- The names in a namespace are distinct, as in any dictionary. -/
def DistinctNames (W : World) : Prop := ∀ ns, ((W.vars ns).map Prod.fst).Nodup

/-- All classes found in the module or in one of the classes are among the classes. -/
def ClosedUnder (W : World) (ns : Nat) (classes : List Nat) : Prop :=
  ∀ x, x = ns ∨ x ∈ classes → ∀ name id, (name, .cls id) ∈ W.vars x → id ∈ classes

end Paradigm.Spec
