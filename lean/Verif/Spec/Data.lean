import Verif.Spec.Literals

/-!
# Equality of cached values (specification)
-/

namespace Paradigm.Spec

/-- Two lists of one length whose elements are related one by one. -/
inductive Rel2 {α β : Type} (R : α → β → Prop) : List α → List β → Prop
  | nil : Rel2 R [] []
  | cons {a : α} {b : β} {as : List α} {bs : List β} : R a b → Rel2 R as bs → Rel2 R (a :: as) (b :: bs)

/-- Python's `==`: the order of sets and dictionaries does not matter. -/
inductive Equal : Data → Data → Prop
  | int {i : Int} : Equal (.int i) (.int i)
  | str {s : Text} : Equal (.str s) (.str s)
  | tuple {xs ys : List Data} : Rel2 Equal xs ys → Equal (.tuple xs) (.tuple ys)
  | list {xs ys : List Data} : Rel2 Equal xs ys → Equal (.list xs) (.list ys)
  | set {xs ys zs : List Data} : xs.Perm ys → Rel2 Equal ys zs → Equal (.set xs) (.set zs)
  | dict {es fs gs : List (Data × Data)} : es.Perm fs →
    Rel2 Equal (fs.map Prod.fst) (gs.map Prod.fst) → Rel2 Equal (fs.map Prod.snd) (gs.map Prod.snd) →
    Equal (.dict es) (.dict gs)

/-- A value that exists in Python: keys of dictionaries and elements of sets are hashable and not
repeated. -/
inductive Proper : Data → Prop
  | int {i : Int} : Proper (.int i)
  | str {s : Text} : Proper (.str s)
  | tuple {xs : List Data} : (∀ x ∈ xs, Proper x) → Proper (.tuple xs)
  | list {xs : List Data} : (∀ x ∈ xs, Proper x) → Proper (.list xs)
  | set {xs : List Data} : (∀ x ∈ xs, Proper x) → (∀ x ∈ xs, hashable x = true) → xs.Nodup →
    Proper (.set xs)
  | dict {es : List (Data × Data)} : (∀ e ∈ es, Proper e.1) → (∀ e ∈ es, Proper e.2) →
    (∀ e ∈ es, hashable e.1 = true) → (es.map Prod.fst).Nodup → Proper (.dict es)

/-- No set anywhere within. -/
inductive SetFree : Data → Prop
  | int {i : Int} : SetFree (.int i)
  | str {s : Text} : SetFree (.str s)
  | tuple {xs : List Data} : (∀ x ∈ xs, SetFree x) → SetFree (.tuple xs)
  | list {xs : List Data} : (∀ x ∈ xs, SetFree x) → SetFree (.list xs)
  | dict {es : List (Data × Data)} : (∀ e ∈ es, SetFree e.1) → (∀ e ∈ es, SetFree e.2) →
    SetFree (.dict es)

end Paradigm.Spec
