import Verif.Spec.Literals

/-!
# Lemmas about reading string and number literals
-/

namespace Paradigm

open Spec

theorem readHex_succ : ∀ {k acc : Nat} {u : Text} {m : Nat} {c : Char} {r : Text} {d : Nat},
    readHex k acc u = some (m, c :: r) → hexValue c = some d →
    readHex (k + 1) acc u = some (16 * m + d, r)
  | 0, acc, u, m, c, r, d, h, hd => by
    cases h
    simp [readHex, hd]
  | k + 1, acc, [], m, c, r, d, h, hd => by cases h
  | k + 1, acc, x :: u, m, c, r, d, h, hd => by
    rw [readHex] at h ⊢
    cases hx : hexValue x with
    | none => rw [hx] at h; cases h
    | some e => rw [hx] at h; exact readHex_succ h hd

theorem hexValue_digitChar {n : Nat} (h : n < 16) : hexValue (Nat.digitChar n) = some n := by
  have : ∀ i : Fin 16, hexValue (Nat.digitChar i.val) = some i.val := by decide
  exact this ⟨n, h⟩

theorem readHex_hexDigits : ∀ (k n acc : Nat) (r : Text),
    readHex k acc (hexDigits k n ++ r) = some (16 ^ k * acc + n % 16 ^ k, r)
  | 0, n, acc, r => by simp [hexDigits, readHex, Nat.mod_one]
  | k + 1, n, acc, r => by
    rw [hexDigits, List.append_assoc, List.singleton_append]
    rw [readHex_succ (readHex_hexDigits k (n / 16) acc _)
      (hexValue_digitChar (Nat.mod_lt n (by decide)))]
    have h1 : n % 16 ^ (k + 1) = 16 * (n / 16 % 16 ^ k) + n % 16 := by
      rw [Nat.pow_succ, Nat.mul_comm (16 ^ k), Nat.mod_mul]
      omega
    rw [h1, Nat.pow_succ, Nat.mul_add]
    congr 2
    rw [Nat.mul_comm (16 ^ k) 16, Nat.mul_assoc]
    omega

theorem readCode_hexDigits (k : Nat) (c : Char) (h : c.toNat < 16 ^ k) (r : Text) :
    readCode k (hexDigits k c.toNat ++ r) = some (c, r) := by
  unfold readCode
  rw [readHex_hexDigits, Nat.mul_zero, Nat.zero_add, Nat.mod_eq_of_lt h]
  simp only
  rw [if_pos (show c.toNat.isValidChar from c.valid), Char.ofNat_toNat]

/-- The quotes. -/
def IsQuote (q : Char) : Prop := q = '\'' ∨ q = '"'

theorem readString_escape {n : Nat} {q x : Char} {u t : Text} (hq : IsQuote q)
    (h : readEscape u = some (x, t)) : readString (n + 1) q ('\\' :: u) =
      (readString n q t).map fun y => (x :: y.1, y.2) := by
  have h1 : '\\' ≠ q := by rcases hq with rfl | rfl <;> decide
  rw [readString, if_neg h1, if_neg (by decide), if_pos rfl, h]
  simp only
  cases readString n q t <;> rfl

theorem readString_plain {n : Nat} {q c : Char} {t : Text} (h1 : c ≠ q) (h2 : c ≠ '\n')
    (h3 : c ≠ '\\') : readString (n + 1) q (c :: t) =
      (readString n q t).map fun y => (c :: y.1, y.2) := by
  rw [readString, if_neg h1, if_neg h2, if_neg h3]
  cases readString n q t <;> rfl

theorem toNat_lt_2_32 (c : Char) : c.toNat < 16 ^ 8 := by
  have := c.val.toNat_lt
  exact this

theorem readString_charRepr (printable : Char → Bool) {n : Nat} {q : Char} (c : Char) (t : Text)
    (hq : IsQuote q) : readString (n + 1) q (charRepr printable q c ++ t) =
      (readString n q t).map fun y => (c :: y.1, y.2) := by
  unfold charRepr
  split
  · rename_i h
    refine readString_escape hq ?_
    show readEscape (c :: t) = some (c, t)
    rw [readEscape, if_pos]
    rcases h with h | h
    · rcases hq with e | e
      · exact .inr (.inl (h.trans e))
      · exact .inr (.inr (h.trans e))
    · exact .inl h
  · rename_i hn
    have hcq : c ≠ q := fun e => hn (.inl e)
    have hcb : c ≠ '\\' := fun e => hn (.inr e)
    split
    · rename_i h; subst h; exact readString_escape hq rfl
    · split
      · rename_i h; subst h; exact readString_escape hq rfl
      · rename_i hnl
        split
        · rename_i h; subst h; exact readString_escape hq rfl
        · split
          · rename_i h
            refine readString_escape hq ?_
            exact readCode_hexDigits 2 c (by
              rcases h with h | h
              · exact Nat.lt_trans h (by decide)
              · rw [h]; decide) t
          · split
            · exact readString_plain hcq hnl hcb
            · split
              · exact readString_plain hcq hnl hcb
              · split
                · rename_i h
                  exact readString_escape hq
                    (readCode_hexDigits 2 c (Nat.lt_of_le_of_lt h (by decide)) t)
                · split
                  · rename_i h
                    exact readString_escape hq
                      (readCode_hexDigits 4 c (Nat.lt_of_le_of_lt h (by decide)) t)
                  · exact readString_escape hq (readCode_hexDigits 8 c (toNat_lt_2_32 c) t)

theorem readString_flatMap (printable : Char → Bool) {q : Char} (hq : IsQuote q) (r : Text) :
    ∀ (s : Text) {n : Nat}, s.length < n →
    readString n q (s.flatMap (charRepr printable q) ++ q :: r) = some (s, r)
  | [], n + 1, _ => by simp [readString]
  | c :: s, n + 1, h => by
    rw [List.flatMap_cons, List.append_assoc, readString_charRepr printable c _ hq,
      readString_flatMap printable hq r s (by simp at h; omega)]
    rfl

theorem isQuote_quoteFor (s : Text) : IsQuote (quoteFor s) := by
  unfold quoteFor
  split
  · exact .inr rfl
  · exact .inl rfl

theorem one_le_charRepr (printable : Char → Bool) (q c : Char) :
    1 ≤ (charRepr printable q c).length := by
  unfold charRepr
  repeat' split
  all_goals simp

theorem length_flatMap_charRepr (printable : Char → Bool) (q : Char) :
    ∀ s : Text, s.length ≤ (s.flatMap (charRepr printable q)).length
  | [] => Nat.zero_le _
  | c :: s => by
    rw [List.flatMap_cons, List.length_append, List.length_cons]
    have := one_le_charRepr printable q c
    have := length_flatMap_charRepr printable q s
    omega

/-- The rest of the text does not prolong a number. -/
def NoDigit (r : Text) : Prop := ∀ c u, r = c :: u → c.isDigit = false

theorem readNat_toDigits (k : Nat) (r : Text) (hr : NoDigit r) :
    readNat (Nat.toDigits 10 k ++ r) = some (k, r) := by
  have hall : ∀ c ∈ Nat.toDigits 10 k, c.isDigit = true := fun c hc =>
    Nat.isDigit_of_mem_toDigits (by decide) (by decide) hc
  have hr1 : r.takeWhile Char.isDigit = [] := by
    cases r with
    | nil => rfl
    | cons c u => rw [List.takeWhile_cons, hr c u rfl]; rfl
  have hr2 : r.dropWhile Char.isDigit = r := by
    cases r with
    | nil => rfl
    | cons c u => rw [List.dropWhile_cons, hr c u rfl]; rfl
  unfold readNat
  rw [List.takeWhile_append_of_pos hall, List.dropWhile_append_of_pos hall, hr1, hr2, List.append_nil,
    Nat.ofDigitChars_ten_toDigits, if_neg]
  rw [List.isEmpty_iff]
  exact Nat.toDigits_ne_nil

end Paradigm
