import Verif.Model.Caching
import Verif.Lemmas.Underscores

/-!
# The name of the cache file determines the environment
-/

namespace Paradigm

theorem underscore_notMem_toDigits (n : Nat) : '_' ∉ Nat.toDigits 10 n := by
  intro h
  have := Nat.isDigit_of_mem_toDigits (by decide) (by decide) h
  exact absurd this (by decide)

/-- The text is split at its dots. -/
theorem dots_split : ∀ t : Text, '_' ∉ t → ∃ parts : List Text, parts ≠ [] ∧ (∀ p ∈ parts, '_' ∉ p)
    ∧ t = ['.'].intercalate parts ∧ replaceDots t = ['_'].intercalate parts
  | [], _ => ⟨[[]], by simp, by simp, rfl, rfl⟩
  | c :: t, h => by
    obtain ⟨parts, h1, h2, h3, h4⟩ := dots_split t fun e => h (List.mem_cons_of_mem _ e)
    have hr : replaceDots (c :: t) = (if c = '.' then '_' else c) :: replaceDots t := rfl
    by_cases hc : c = '.'
    · refine ⟨[] :: parts, by simp, ?_, ?_, ?_⟩
      · intro p hp
        rcases List.mem_cons.1 hp with rfl | hp
        · simp
        · exact h2 p hp
      · match parts, h1 with
        | p :: parts, _ => rw [h3, hc]; simp [List.intercalate]
      · match parts, h1 with
        | p :: parts, _ => rw [hr, h4, hc]; simp [List.intercalate]
    · match parts, h1 with
      | p :: parts, _ =>
        refine ⟨(c :: p) :: parts, by simp, ?_, ?_, ?_⟩
        · intro q hq
          rcases List.mem_cons.1 hq with rfl | hq
          · intro e
            rcases List.mem_cons.1 e with e | e
            · exact h (by rw [e]; exact List.mem_cons_self)
            · exact h2 p List.mem_cons_self e
          · exact h2 q (List.mem_cons_of_mem _ hq)
        · cases parts <;> simp [h3, List.intercalate]
        · rw [hr, h4, if_neg hc]
          cases parts <;> simp [List.intercalate]

theorem intercalate_append (xs ys : List Text) (hx : xs ≠ []) (hy : ys ≠ []) :
    ['_'].intercalate (xs ++ ys) = ['_'].intercalate xs ++ '_' :: ['_'].intercalate ys := by
  induction xs with
  | nil => exact absurd rfl hx
  | cons x xs ih =>
    cases xs with
    | nil =>
      cases ys with
      | nil => exact absurd rfl hy
      | cons y ys => simp [List.intercalate]
    | cons x' xs =>
      have := ih (by simp)
      simp only [List.intercalate, List.cons_append, List.intersperse_cons_cons, List.flatten_cons] at this ⊢
      simp only [List.append_assoc]
      rw [this]
      simp

/-- The components in the name of the cache file. -/
def nameParts (file : Text) (e : Environment) : List Text :=
  [e.platform, e.implementation, Nat.toDigits 10 e.major, Nat.toDigits 10 e.minor,
    Nat.toDigits 10 e.micro, e.level, Nat.toDigits 10 e.serial, file]

theorem cacheName_eq (file : Text) (e : Environment) : cacheName file e
    = ['_', 'm', 'y', 'p', 'y', '_'] ++ (replaceDots e.mypyVersion
      ++ '_' :: ['_'].intercalate (nameParts file e)) := by
  unfold cacheName nameParts
  simp [List.intercalate, join]

theorem toDigits_injective {m n : Nat} (h : Nat.toDigits 10 m = Nat.toDigits 10 n) : m = n := by
  have := congrArg (fun t => Nat.ofDigitChars 10 t 0) h
  simpa [Nat.ofDigitChars_ten_toDigits] using this

theorem cacheName_suffix (file : Text) (e : Environment) : ∃ t, cacheName file e = t ++ file :=
  ⟨'_' :: 'm' :: 'y' :: 'p' :: 'y' :: '_' :: (replaceDots e.mypyVersion
    ++ '_' :: (e.platform
    ++ '_' :: (e.implementation
    ++ '_' :: (join ['_'] [Nat.toDigits 10 e.major, Nat.toDigits 10 e.minor, Nat.toDigits 10 e.micro,
        e.level, Nat.toDigits 10 e.serial]
    ++ ['_'])))), by unfold cacheName; simp⟩

end Paradigm
