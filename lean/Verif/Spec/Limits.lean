import Verif.Spec.Data

/-!
# Values that can be written within the limits of the tokenizer (specification)
-/

namespace Paradigm.Spec

mutual

/-- How many brackets are open at once when the value is written. -/
def bracketsOf : Data → Nat
  | .int _ => 0
  | .str _ => 0
  | .tuple xs => bracketsIn xs + 1
  | .list xs => bracketsIn xs + 1
  | .set xs => bracketsIn xs + 1
  | .dict es => bracketsInEntries es + 1

def bracketsIn : List Data → Nat
  | [] => 0
  | x :: xs => max (bracketsOf x) (bracketsIn xs)

def bracketsInEntries : List (Data × Data) → Nat
  | [] => 0
  | (k, v) :: es => max (max (bracketsOf k) (bracketsOf v)) (bracketsInEntries es)

end

/-- Every number within has at most `mostDigits` digits. -/
inductive ShortNumbers : Data → Prop
  | int {i : Int} : i.natAbs < 10 ^ mostDigits → ShortNumbers (.int i)
  | str {s : Text} : ShortNumbers (.str s)
  | tuple {xs : List Data} : (∀ x ∈ xs, ShortNumbers x) → ShortNumbers (.tuple xs)
  | list {xs : List Data} : (∀ x ∈ xs, ShortNumbers x) → ShortNumbers (.list xs)
  | set {xs : List Data} : (∀ x ∈ xs, ShortNumbers x) → ShortNumbers (.set xs)
  | dict {es : List (Data × Data)} : (∀ e ∈ es, ShortNumbers e.1) → (∀ e ∈ es, ShortNumbers e.2) →
    ShortNumbers (.dict es)

end Paradigm.Spec
