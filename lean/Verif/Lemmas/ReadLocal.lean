import Verif.Lemmas.Pretty

/-!
# Reading depends on the text that is read only
-/

namespace Paradigm

open Spec

theorem readHex_local (s : Text) : ∀ {k acc : Nat} {t : Text} {m : Nat} {r : Text},
    readHex k acc t = some (m, r) → readHex k acc (t ++ s) = some (m, r ++ s)
  | 0, _, _, _, _, h => by cases h; rfl
  | _ + 1, _, [], _, _, h => by cases h
  | k + 1, acc, c :: t, m, r, h => by
    rw [readHex] at h
    rw [List.cons_append, readHex]
    split at h
    · cases h
    · exact readHex_local s h

theorem readCode_local (s : Text) {k : Nat} {t : Text} {x : Char} {r : Text}
    (h : readCode k t = some (x, r)) : readCode k (t ++ s) = some (x, r ++ s) := by
  unfold readCode at h ⊢
  split at h
  · cases h
  · rename_i m t' e
    rw [readHex_local s e]
    simp only
    split at h
    · cases h
      rw [if_pos (by assumption)]
    · cases h

theorem readEscape_local (s : Text) {t : Text} {x : Char} {r : Text}
    (h : readEscape t = some (x, r)) : readEscape (t ++ s) = some (x, r ++ s) := by
  cases t with
  | nil => cases h
  | cons c t =>
    rw [List.cons_append]
    rw [readEscape] at h ⊢
    by_cases g1 : c = '\\' ∨ c = '\'' ∨ c = '"'
    · rw [if_pos g1] at h ⊢; cases h; rfl
    rw [if_neg g1] at h ⊢
    by_cases g2 : c = 't'
    · rw [if_pos g2] at h ⊢; cases h; rfl
    rw [if_neg g2] at h ⊢
    by_cases g3 : c = 'n'
    · rw [if_pos g3] at h ⊢; cases h; rfl
    rw [if_neg g3] at h ⊢
    by_cases g4 : c = 'r'
    · rw [if_pos g4] at h ⊢; cases h; rfl
    rw [if_neg g4] at h ⊢
    by_cases g5 : c = 'x'
    · rw [if_pos g5] at h ⊢; exact readCode_local s h
    rw [if_neg g5] at h ⊢
    by_cases g6 : c = 'u'
    · rw [if_pos g6] at h ⊢; exact readCode_local s h
    rw [if_neg g6] at h ⊢
    by_cases g7 : c = 'U'
    · rw [if_pos g7] at h ⊢; exact readCode_local s h
    rw [if_neg g7] at h
    cases h

theorem readString_local (s : Text) : ∀ {n m : Nat} {q : Char} {t x r : Text}, n ≤ m →
    readString n q t = some (x, r) → readString m q (t ++ s) = some (x, r ++ s)
  | 0, _, _, _, _, _, _, h => by cases h
  | _ + 1, _, _, [], _, _, _, h => by cases h
  | n + 1, m + 1, q, c :: t, x, r, hm, h => by
    have hm := Nat.le_of_succ_le_succ hm
    rw [List.cons_append]
    rw [readString] at h ⊢
    by_cases g1 : c = q
    · rw [if_pos g1] at h ⊢; cases h; rfl
    rw [if_neg g1] at h ⊢
    by_cases g2 : c = '\n'
    · rw [if_pos g2] at h; cases h
    rw [if_neg g2] at h ⊢
    by_cases g3 : c = '\\'
    · rw [if_pos g3] at h ⊢
      cases e : readEscape t with
      | none => rw [e] at h; cases h
      | some y =>
        rw [e] at h
        rw [readEscape_local s e]
        simp only at h ⊢
        cases e' : readString n q y.2 with
        | none => rw [e'] at h; cases h
        | some z =>
          rw [e'] at h
          rw [readString_local s hm e']
          cases h
          rfl
    · rw [if_neg g3] at h ⊢
      cases e' : readString n q t with
      | none => rw [e'] at h; cases h
      | some z =>
        rw [e'] at h
        rw [readString_local s hm e']
        cases h
        rfl

theorem takeWhile_local {p : Char → Bool} (s : Text) : ∀ {t : Text}, t.dropWhile p ≠ [] →
    (t ++ s).takeWhile p = t.takeWhile p ∧ (t ++ s).dropWhile p = t.dropWhile p ++ s
  | [], h => absurd rfl h
  | c :: t, h => by
    rw [List.cons_append]
    cases hc : p c with
    | false => simp [List.takeWhile_cons, List.dropWhile_cons, hc]
    | true =>
      rw [List.dropWhile_cons, hc] at h
      obtain ⟨h1, h2⟩ := takeWhile_local s (t := t) h
      simp [List.takeWhile_cons, List.dropWhile_cons, hc, h1, h2]

theorem readNat_local (s : Text) {t r : Text} {k : Nat} (h : readNat t = some (k, r))
    (hr : s = [] ∨ r ≠ []) : readNat (t ++ s) = some (k, r ++ s) := by
  rcases hr with rfl | hr
  · rw [List.append_nil, List.append_nil]; exact h
  · unfold readNat at h ⊢
    split at h
    · cases h
    · cases h
      obtain ⟨h1, h2⟩ := takeWhile_local s hr
      rw [h1, h2, if_neg (by assumption)]

theorem skipBlank_local (s : Text) {t u : Text} {c : Char} (h : skipBlank t = c :: u) :
    skipBlank (t ++ s) = c :: (u ++ s) := by
  unfold skipBlank at h ⊢
  rw [(takeWhile_local s (by rw [h]; simp)).2, h]
  rfl

theorem ne_nil_of_skipBlank {t u : Text} {c : Char} (h : skipBlank t = c :: u) : t ≠ [] := by
  rintro rfl
  cases h

theorem readEmptySet_local (s : Text) {t r : Text} {v : Data} (h : readEmptySet t = some (v, r)) :
    readEmptySet (t ++ s) = some (v, r ++ s) := by
  unfold readEmptySet at h
  split at h
  · cases h; rfl
  · cases h

/-- The text does not begin with a number. -/
def NotNumber (t : Text) : Prop := ∀ c u, t = c :: u → c ≠ '-' ∧ c.isDigit = false

/-- Text that follows, and more nesting, do not change what was read. -/
theorem read_local (s : Text) : ∀ n m : Nat, n ≤ m →
    (∀ t v r, readValue n t = some (v, r) → (s = [] ∨ r ≠ []) ∨ NotNumber t →
      readValue m (t ++ s) = some (v, r ++ s))
    ∧ (∀ close t xs z r, readItems n close t = some (xs, z, r) →
      readItems m close (t ++ s) = some (xs, z, r ++ s))
    ∧ (∀ t es r, readEntries n t = some (es, r) → readEntries m (t ++ s) = some (es, r ++ s))
    ∧ (∀ t v r, readBraces n t = some (v, r) → readBraces m (t ++ s) = some (v, r ++ s))
  | 0, _, _ => ⟨fun _ _ _ h => (by cases h), fun _ _ _ _ _ h => (by cases h),
      fun _ _ _ h => (by cases h), fun _ _ _ h => (by cases h)⟩
  | n + 1, m + 1, hm => by
    have hm := Nat.le_of_succ_le_succ hm
    obtain ⟨ihv, ihi, ihe, ihb⟩ := read_local s n m hm
    have value : ∀ {c c' : Char} {t u t' : Text} {v : Data}, readValue n (c :: t) = some (v, t') →
        skipBlank t' = c' :: u → readValue m (c :: (t ++ s)) = some (v, t' ++ s) :=
      fun h1 h2 => ihv _ _ _ h1 (.inl (.inr (ne_nil_of_skipBlank h2)))
    refine ⟨fun t v r h hr => ?_, fun close t xs z r h => ?_, fun t es r h => ?_, fun t v r h => ?_⟩
    · cases t with
      | nil => cases h
      | cons c t =>
        rw [List.cons_append]
        rw [readValue] at h ⊢
        by_cases g1 : c = '\'' ∨ c = '"'
        · rw [if_pos g1] at h ⊢
          cases e : readString n c t with
          | none => rw [e] at h; cases h
          | some y => rw [e] at h; rw [readString_local s hm e]; cases h; rfl
        rw [if_neg g1] at h ⊢
        by_cases g2 : c = '['
        · rw [if_pos g2] at h ⊢
          cases e : readItems n ']' t with
          | none => rw [e] at h; cases h
          | some y => rw [e] at h; rw [ihi _ _ _ _ _ e]; cases h; rfl
        rw [if_neg g2] at h ⊢
        by_cases g3 : c = '('
        · rw [if_pos g3] at h ⊢
          cases e : readItems n ')' t with
          | none => rw [e] at h; cases h
          | some y =>
            rw [e] at h
            rw [ihi _ _ _ _ _ e]
            match y, h with
            | ([], false, _), h => cases h; rfl
            | ([_], false, _), h => cases h; rfl
            | (_ :: _ :: _, false, _), h => cases h; rfl
            | ([], true, _), h => cases h; rfl
            | ([_], true, _), h => cases h; rfl
            | (_ :: _ :: _, true, _), h => cases h; rfl
        rw [if_neg g3] at h ⊢
        by_cases g4 : c = '{'
        · rw [if_pos g4] at h ⊢
          exact ihb _ _ _ h
        rw [if_neg g4] at h ⊢
        by_cases g5 : c = '-'
        · rw [if_pos g5] at h ⊢
          cases e : readNat t with
          | none => rw [e] at h; cases h
          | some y =>
            rw [e] at h
            cases h
            rw [readNat_local s e (hr.resolve_right fun h => (h _ _ rfl).1 g5)]
        rw [if_neg g5] at h ⊢
        by_cases g6 : c.isDigit = true
        · rw [if_pos g6] at h ⊢
          cases e : readNat (c :: t) with
          | none => rw [e] at h; cases h
          | some y =>
            rw [e] at h
            cases h
            have := readNat_local s e (hr.resolve_right fun h => by
              have := (h _ _ rfl).2
              rw [g6] at this
              cases this)
            rw [List.cons_append] at this
            rw [this]
        rw [if_neg g6] at h ⊢
        by_cases g7 : c = 's'
        · rw [if_pos g7] at h ⊢
          exact readEmptySet_local s h
        · rw [if_neg g7] at h
          cases h
    · rw [readItems] at h ⊢
      cases e1 : skipBlank t with
      | nil => rw [e1] at h; cases h
      | cons c t1 =>
        rw [e1] at h
        rw [skipBlank_local s e1]
        simp only at h ⊢
        by_cases g1 : c = close
        · rw [if_pos g1] at h ⊢; cases h; rfl
        rw [if_neg g1] at h ⊢
        cases e2 : readValue n (c :: t1) with
        | none => rw [e2] at h; cases h
        | some y =>
          rw [e2] at h
          simp only at h
          cases e3 : skipBlank y.2 with
          | nil => rw [e3] at h; cases h
          | cons c' t2 =>
            rw [e3] at h
            rw [value e2 e3]
            simp only
            rw [skipBlank_local s e3]
            simp only at h ⊢
            by_cases g2 : c' = close
            · rw [if_pos g2] at h ⊢; cases h; rfl
            rw [if_neg g2] at h ⊢
            by_cases g3 : c' = ','
            · rw [if_pos g3] at h ⊢
              cases e4 : readItems n close t2 with
              | none => rw [e4] at h; cases h
              | some y => rw [e4] at h; rw [ihi _ _ _ _ _ e4]; cases h; rfl
            · rw [if_neg g3] at h; cases h
    · rw [readEntries] at h ⊢
      cases e1 : skipBlank t with
      | nil => rw [e1] at h; cases h
      | cons c t1 =>
        rw [e1] at h
        rw [skipBlank_local s e1]
        simp only at h ⊢
        by_cases g1 : c = '}'
        · rw [if_pos g1] at h ⊢; cases h; rfl
        rw [if_neg g1] at h ⊢
        cases e2 : readValue n (c :: t1) with
        | none => rw [e2] at h; cases h
        | some y =>
          rw [e2] at h
          simp only at h
          cases e3 : skipBlank y.2 with
          | nil => rw [e3] at h; cases h
          | cons c' t2 =>
            rw [e3] at h
            rw [value e2 e3]
            simp only
            rw [skipBlank_local s e3]
            simp only at h ⊢
            by_cases g2 : c' = ':'
            · rw [if_pos g2] at h ⊢
              cases e4 : skipBlank t2 with
              | nil => rw [e4] at h; cases n <;> cases h
              | cons c'' t3 =>
                rw [e4] at h
                rw [skipBlank_local s e4]
                cases e5 : readValue n (c'' :: t3) with
                | none => rw [e5] at h; cases h
                | some w =>
                  rw [e5] at h
                  simp only at h
                  cases e6 : skipBlank w.2 with
                  | nil => rw [e6] at h; cases h
                  | cons c3 t4 =>
                    rw [e6] at h
                    rw [value e5 e6]
                    simp only
                    rw [skipBlank_local s e6]
                    simp only at h ⊢
                    by_cases g3 : c3 = '}'
                    · rw [if_pos g3] at h ⊢; cases h; rfl
                    rw [if_neg g3] at h ⊢
                    by_cases g4 : c3 = ','
                    · rw [if_pos g4] at h ⊢
                      cases e7 : readEntries n t4 with
                      | none => rw [e7] at h; cases h
                      | some y => rw [e7] at h; rw [ihe _ _ _ e7]; cases h; rfl
                    · rw [if_neg g4] at h; cases h
            · rw [if_neg g2] at h; cases h
    · rw [readBraces] at h ⊢
      cases e1 : skipBlank t with
      | nil => rw [e1] at h; cases h
      | cons c t1 =>
        rw [e1] at h
        rw [skipBlank_local s e1]
        simp only at h ⊢
        by_cases g1 : c = '}'
        · rw [if_pos g1] at h ⊢; cases h; rfl
        rw [if_neg g1] at h ⊢
        cases e2 : readValue n (c :: t1) with
        | none => rw [e2] at h; cases h
        | some y =>
          rw [e2] at h
          simp only at h
          cases e3 : skipBlank y.2 with
          | nil => rw [e3] at h; cases h
          | cons c' t2 =>
            rw [e3] at h
            rw [value e2 e3]
            simp only
            rw [skipBlank_local s e3]
            simp only at h ⊢
            by_cases g2 : c' = ':'
            · rw [if_pos g2] at h ⊢
              cases e4 : readEntries n (c :: t1) with
              | none => rw [e4] at h; cases h
              | some w =>
                rw [e4] at h
                have := ihe _ _ _ e4
                rw [List.cons_append] at this
                rw [this]
                simp only at h ⊢
                cases e5 : dictOf w.1 with
                | none => rw [e5] at h; cases h
                | some d => rw [e5] at h; cases h; rfl
            rw [if_neg g2] at h ⊢
            by_cases g3 : c' = '}'
            · rw [if_pos g3] at h ⊢
              cases e5 : setOf [y.1] with
              | none => rw [e5] at h; cases h
              | some d => rw [e5] at h; cases h; rfl
            rw [if_neg g3] at h ⊢
            by_cases g4 : c' = ','
            · rw [if_pos g4] at h ⊢
              cases e4 : readItems n '}' t2 with
              | none => rw [e4] at h; cases h
              | some w =>
                rw [e4] at h
                rw [ihi _ _ _ _ _ e4]
                simp only at h ⊢
                cases e5 : setOf (y.1 :: w.1) with
                | none => rw [e5] at h; cases h
                | some d => rw [e5] at h; cases h; rfl
            · rw [if_neg g4] at h; cases h

end Paradigm
