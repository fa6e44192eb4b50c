import Verif.Lemmas.Imports
import Verif.Model.Catalog

/-!
# Lemmas about qualified paths of live objects
-/

namespace Paradigm

theorem pathFromString_ne_nil (value : String) : pathFromString value ≠ [] := by
  unfold pathFromString
  intro h
  exact splitDots_ne_nil _ (List.map_eq_nil_iff.1 h)

theorem pathFromAttr_error {a : TextAttr} {e : PyErr} (h : pathFromAttr a = .error e) :
    e = .assertionError ∧ ∀ value, a ≠ .text value := by
  cases a with
  | text value => cases h
  | none => cases h; exact ⟨rfl, by simp⟩
  | other => cases h; exact ⟨rfl, by simp⟩

theorem pathFromAttr_ok {a : TextAttr} {p : Path} (h : pathFromAttr a = .ok p) :
    ∃ value, a = .text value ∧ p = pathFromString value := by
  cases a with
  | text value => cases h; exact ⟨value, rfl, rfl⟩
  | none => cases h
  | other => cases h

theorem attr_bind_error {a : TextAttr} {q : Path} {e : PyErr}
    (h : (do let m ← pathFromAttr a; return (m, q) : Except PyErr QPath) = .error e) :
    pathFromAttr a = .error e := by
  cases ha : pathFromAttr a with
  | error e' => rw [ha] at h; cases h; rfl
  | ok p => rw [ha] at h; cases h

theorem attr_bind_ok {a : TextAttr} {q : Path} {r : QPath}
    (h : (do let m ← pathFromAttr a; return (m, q) : Except PyErr QPath) = .ok r) :
    ∃ value, a = .text value ∧ r = (pathFromString value, q) := by
  cases ha : pathFromAttr a with
  | error e' => rw [ha] at h; cases h
  | ok p =>
    rw [ha] at h
    obtain ⟨value, h1, h2⟩ := pathFromAttr_ok ha
    cases h
    exact ⟨value, h1, by rw [h2]⟩

theorem qualifiedPathFrom_error {v : Named} {e : PyErr} (h : qualifiedPathFrom v = .error e) :
    e = .assertionError := by
  unfold qualifiedPathFrom at h
  split at h
  · split at h
    · exact (pathFromAttr_error (attr_bind_error h)).1
    · cases h
    · cases h
    · cases h
  · split at h
    · cases h
    · exact (pathFromAttr_error (attr_bind_error h)).1
  · exact (pathFromAttr_error (attr_bind_error h)).1
  · exact (pathFromAttr_error (attr_bind_error h)).1
  · cases h

/-- Objects with a module have a name. -/
theorem qualifiedPathFrom_object {v : Named} {q : QPath} (h : qualifiedPathFrom v = .ok q)
    (hm : q.1 ≠ []) : q.2 ≠ [] := by
  unfold qualifiedPathFrom at h
  split at h
  · split at h
    · obtain ⟨_, _, rfl⟩ := attr_bind_ok h; exact pathFromString_ne_nil _
    · cases h; exact pathFromString_ne_nil _
    · cases h; exact pathFromString_ne_nil _
    · cases h; exact absurd rfl hm
  · split at h
    · cases h; exact pathFromString_ne_nil _
    · obtain ⟨_, _, rfl⟩ := attr_bind_ok h; exact pathFromString_ne_nil _
  · obtain ⟨_, _, rfl⟩ := attr_bind_ok h; exact pathFromString_ne_nil _
  · obtain ⟨_, _, rfl⟩ := attr_bind_ok h; exact pathFromString_ne_nil _
  · cases h; exact absurd rfl hm

end Paradigm
