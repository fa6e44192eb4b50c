import Verif.Spec.Scoping

/-!
# Method resolution orders (specification)
-/

namespace Paradigm.Spec

/-- `builtins.object`. -/
def objectClass : QPath := (["builtins"], ["object"])

/-- The bases of a class as Python sees them: the recorded ones, or `object` if there are none. -/
def runtimeBases (T : Tables) (c : QPath) : List QPath :=
  match ((T.superclasses.lookup c.1).getD []).lookup c.2 with
  | some (b :: bs) => b :: bs
  | _ => if c = objectClass then [] else [objectClass]

/-- `h` taken away from the front. -/
def dropHead (h : QPath) : List QPath → List QPath
  | [] => []
  | x :: xs => if x = h then xs else x :: xs

/-- Python's merge of linearisations: again and again the first head that is in no tail. -/
inductive Merge : List (List QPath) → List QPath → Prop where
  | done {ls : List (List QPath)} (h : ∀ l ∈ ls, l = []) : Merge ls []
  | step {pre post : List (List QPath)} {h : QPath} {t rest : List QPath}
      (blocked : ∀ x xs, (x :: xs) ∈ pre → ∃ m ∈ pre ++ (h :: t) :: post, x ∈ m.tail)
      (free : ∀ m ∈ pre ++ (h :: t) :: post, h ∉ m.tail)
      (next : Merge ((pre ++ (h :: t) :: post).map (dropHead h)) rest) :
      Merge (pre ++ (h :: t) :: post) (h :: rest)

/-- `order` is the method resolution order (`__mro__`) of the class `c`. -/
inductive Mro (bases : QPath → List QPath) : QPath → List QPath → Prop where
  | mk {c : QPath} {orders : QPath → List QPath} {rest : List QPath}
      (above : ∀ b ∈ bases c, Mro bases b (orders b))
      (merged : Merge ((bases c).map orders ++ [bases c]) rest) : Mro bases c (c :: rest)

/-- `d` is `c` or one of its ancestors. -/
inductive Above (bases : QPath → List QPath) : QPath → QPath → Prop where
  | refl (c : QPath) : Above bases c c
  | step {c b d : QPath} (h : b ∈ bases c) (hb : Above bases b d) : Above bases c d

/-- `d` is `c` or an ancestor that is reached without `q`. -/
inductive Around (bases : QPath → List QPath) (q : QPath) : QPath → QPath → Prop where
  | refl {c : QPath} (h : c ≠ q) : Around bases q c c
  | step {c b d : QPath} (hc : c ≠ q) (h : b ∈ bases c) (hb : Around bases q b d) : Around bases q c d

/-- The class defines the member itself. -/
def HasMember (T : Tables) (x : String) (c : QPath) : Prop := DefinedIn T c.1 (c.2 ++ [x])

/-- The ancestors of `c` are known classes, and `object` is the only one of its name. -/
structure Hierarchy (T : Tables) (c : QPath) : Prop where
  known : ∀ d, Above (runtimeBases T) c d → d.2 ≠ [] ∧ DefinedIn T d.1 d.2
  named : ∀ d, Above (runtimeBases T) c d → d.2.head? = some "object" → d = objectClass
  object : runtimeBases T objectClass = []

/-- No class but `object` is an ancestor in two ways, and `object` is a base on its own only. -/
def Branching (bases : QPath → List QPath) (c : QPath) : Prop :=
  ∀ d, Above bases c d → (objectClass ∈ bases d → bases d = [objectClass]) ∧
    (bases d).Pairwise fun a b => ∀ e, Above bases a e → Above bases b e → e = objectClass

/-- `q` is the first class in the order of `c` that has the member, and one of two things holds: all ways to
other classes with the member go through `q`, or no class but `object` is inherited in two ways (and `object`
does not have the member, or there is no multiple inheritance). -/
inductive Decided (bases : QPath → List QPath) (T : Tables) (x : String) (c : QPath) (order : List QPath) (q : QPath) : Prop where
  | through (above : Above bases c q) (has : HasMember T x q)
      (way : ∀ e, Around bases q c e → ¬ HasMember T x e)
  | branching (branching : Branching bases c) (has : HasMember T x q)
      (simple : ¬ HasMember T x objectClass ∨ ∀ d, Above bases c d → (bases d).length ≤ 1)
      (pre post : List QPath) (split : order = pre ++ q :: post) (first : ∀ p ∈ pre, ¬ HasMember T x p)

end Paradigm.Spec
