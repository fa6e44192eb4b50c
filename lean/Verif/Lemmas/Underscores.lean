/-!
# Joining names with underscores
-/

namespace Paradigm

theorem split_underscore {a b x y : List Char} (ha : '_' ∉ a) (hb : '_' ∉ b)
    (h : a ++ '_' :: x = b ++ '_' :: y) : a = b ∧ x = y := by
  induction a generalizing b with
  | nil =>
    cases b with
    | nil => simpa using h
    | cons c b =>
      simp only [List.nil_append, List.cons_append, List.cons.injEq] at h
      exact absurd h.1 (fun e => hb (by rw [e]; exact List.mem_cons_self))
  | cons c a ih =>
    cases b with
    | nil =>
      simp only [List.nil_append, List.cons_append, List.cons.injEq] at h
      exact absurd h.1 (fun e => ha (by rw [e]; exact List.mem_cons_self))
    | cons d b =>
      simp only [List.cons_append, List.cons.injEq] at h
      obtain ⟨h1, h2⟩ := ih (fun e => ha (List.mem_cons_of_mem _ e))
        (fun e => hb (List.mem_cons_of_mem _ e)) h.2
      exact ⟨by rw [h.1, h1], h2⟩

theorem join_underscore : ∀ {as bs : List (List Char)}, as ≠ [] → bs ≠ [] →
    (∀ a ∈ as, '_' ∉ a) → (∀ b ∈ bs, '_' ∉ b) →
    ['_'].intercalate as = ['_'].intercalate bs → as = bs
  | [], _, h, _, _, _, _ => absurd rfl h
  | _, [], _, h, _, _, _ => absurd rfl h
  | [a], [b], _, _, _, _, h => by simpa [List.intercalate] using h
  | [a], b :: c :: bs, _, _, ha, _, h => by
    have : '_' ∈ a := by
      have e : a = b ++ '_' :: ['_'].intercalate (c :: bs) := by simpa [List.intercalate] using h
      rw [e]; simp
    exact absurd this (ha a List.mem_cons_self)
  | a :: c :: as, [b], _, _, _, hb, h => by
    have : '_' ∈ b := by
      have e : a ++ '_' :: ['_'].intercalate (c :: as) = b := by simpa [List.intercalate] using h
      rw [← e]; simp
    exact absurd this (hb b List.mem_cons_self)
  | a :: a' :: as, b :: b' :: bs, _, _, ha, hb, h => by
    have h' : a ++ '_' :: ['_'].intercalate (a' :: as) = b ++ '_' :: ['_'].intercalate (b' :: bs) := by
      simpa [List.intercalate] using h
    obtain ⟨h1, h2⟩ := split_underscore (ha a List.mem_cons_self) (hb b List.mem_cons_self) h'
    rw [h1, join_underscore (by simp) (by simp) (fun x hx => ha x (List.mem_cons_of_mem _ hx))
      (fun x hx => hb x (List.mem_cons_of_mem _ hx)) h2]

end Paradigm
