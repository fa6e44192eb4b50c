import Verif.Model.Caching
import Verif.Spec.Data

/-!
# What a cache is (specification)
-/

namespace Paradigm.Spec

/-- Names usable for fields of a cache. -/
def IsFieldName (name : Text) : Prop :=
  name ≠ [] ∧ (∀ c ∈ name, c.isAlphanum = true ∨ c = '_') ∧ ∀ c ∈ name.head?, c.isDigit = false

/-- Tables that can be saved together with the version. -/
structure IsTables (tables : Fields) : Prop where
  names : ∀ f ∈ tables, IsFieldName f.1
  distinct : (tables.map Prod.fst).Nodup
  noVersion : versionName ∉ tables.map Prod.fst
  proper : ∀ f ∈ tables, Proper f.2

end Paradigm.Spec
