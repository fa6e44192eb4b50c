import Verif.Lemmas.Pretty
import Verif.Spec.Limits
import Verif.Spec.Caching

/-!
# Lemmas about the limits of the tokenizer
-/

namespace Paradigm

open Spec

theorem tokenize_append (s : TokenState) : ∀ (t u : Text),
    tokenize s (t ++ u) = (tokenize s t).bind fun s' => tokenize s' u
  | [], u => rfl
  | c :: t, u => by
    rw [List.cons_append, tokenize, tokenize]
    cases s.step c with
    | none => rfl
    | some s' => exact tokenize_append s' t u

theorem tokenize_cons (s : TokenState) (c : Char) (t : Text) :
    tokenize s (c :: t) = (s.step c).bind fun s' => tokenize s' t := by
  rw [tokenize]; cases s.step c <;> rfl

/-- Nothing but `d` brackets is open, perhaps after the digits of a number. -/
structure SettledAt (d : Nat) (s : TokenState) : Prop where
  brackets : s.brackets = d
  quote : s.quote = none
  escaped : s.escaped = false
  name : s.name = false

/-- The state between two tokens. -/
def settledState (d : Nat) : TokenState := ⟨d, none, false, 0, false⟩

theorem settledAt_settledState (d : Nat) : SettledAt d (settledState d) := ⟨rfl, rfl, rfl, rfl⟩

/-- Characters between tokens. -/
def IsSeparator (c : Char) : Prop := c = ',' ∨ c = '\n' ∨ c = ' ' ∨ c = ':' ∨ c = '=' ∨ c = '-'

theorem step_separator {d : Nat} {s : TokenState} (h : SettledAt d s) {c : Char} (hc : IsSeparator c) :
    s.step c = some (settledState d) := by
  obtain ⟨b, q, e, k, n⟩ := s
  obtain ⟨rfl, rfl, rfl, rfl⟩ := h
  rcases hc with rfl | rfl | rfl | rfl | rfl | rfl <;> rfl

theorem step_close {d : Nat} {s : TokenState} (h : SettledAt (d + 1) s) {c : Char}
    (hc : c = ')' ∨ c = ']' ∨ c = '}') : s.step c = some (settledState d) := by
  obtain ⟨b, q, e, k, n⟩ := s
  obtain ⟨rfl, rfl, rfl, rfl⟩ := h
  rcases hc with rfl | rfl | rfl <;> rfl

theorem step_open {d : Nat} {c : Char} (hc : c = '(' ∨ c = '[' ∨ c = '{') :
    (settledState d).step c = if d < mostBrackets then some (settledState (d + 1)) else none := by
  rcases hc with rfl | rfl | rfl <;> rfl

/-- The text is accepted after `d` brackets just when `P` holds; then the brackets are balanced. -/
def TokenizesIf (d : Nat) (P : Prop) (t : Text) : Prop :=
  (P → ∃ s, tokenize (settledState d) t = some s ∧ SettledAt d s) ∧
    (¬ P → tokenize (settledState d) t = none)

theorem tokenize_blank {d : Nat} : ∀ {s : TokenState}, SettledAt d s → ∀ (n : Nat),
    tokenize s (List.replicate n ' ') = some s ∨
      tokenize s (List.replicate n ' ') = some (settledState d)
  | s, _, 0 => .inl rfl
  | s, hs, n + 1 => by
    rw [List.replicate_succ, tokenize_cons, step_separator hs (.inr (.inr (.inl rfl)))]
    rcases tokenize_blank (settledAt_settledState d) n with h | h
    · exact .inr h
    · exact .inr h

theorem tokenize_padding (d indent depth : Nat) (t : Text) :
    tokenize (settledState d) (padding indent depth ++ t) = tokenize (settledState d) t := by
  rw [tokenize_append, padding]
  rcases tokenize_blank (settledAt_settledState d) (indent * depth) with h | h <;> rw [h] <;> rfl

/-- Digits. -/
theorem tokenize_digits {d : Nat} : ∀ {t : Text} {s : TokenState}, SettledAt d s →
    (∀ c ∈ t, c.isDigit = true) →
    if s.digits + t.length ≤ mostDigits then
      ∃ s', tokenize s t = some s' ∧ SettledAt d s'
    else s.digits ≤ mostDigits → tokenize s t = none
  | [], s, hs, _ => by
    split
    · exact ⟨s, rfl, hs⟩
    · rename_i h
      intro h'
      exact absurd h' h
  | c :: t, s, hs, ht => by
    have hc := ht c List.mem_cons_self
    have e : s.step c = if s.digits < mostDigits then some { s with digits := s.digits + 1 } else none := by
      unfold TokenState.step
      rw [if_neg (by rintro rfl; exact absurd hc (by decide)), hs.quote]
      simp only
      rw [if_neg, if_neg, if_neg, if_pos]
      · rw [hc, hs.name]; rfl
      · rintro (rfl | rfl | rfl) <;> exact absurd hc (by decide)
      · rintro (rfl | rfl | rfl) <;> exact absurd hc (by decide)
      · rintro (rfl | rfl) <;> exact absurd hc (by decide)
    rw [tokenize_cons, e]
    by_cases hk : s.digits < mostDigits
    · rw [if_pos hk]
      have ih := tokenize_digits (d := d) (t := t) (s := { s with digits := s.digits + 1 })
        ⟨hs.brackets, hs.quote, hs.escaped, hs.name⟩ (fun c hc => ht c (List.mem_cons_of_mem _ hc))
      simp only at ih
      rw [List.length_cons, ← Nat.add_assoc, Nat.add_right_comm]
      split
      · rename_i h
        rw [if_pos h] at ih
        exact ih
      · rename_i h
        rw [if_neg h] at ih
        intro _
        exact ih hk
    · rw [if_neg hk, if_neg (by rw [List.length_cons]; omega)]
      intro _
      rfl

theorem tokenizesIf_int (d : Nat) (i : Int) :
    TokenizesIf d (i.natAbs < 10 ^ mostDigits) (intRepr i) := by
  have key : ∀ n : Nat, TokenizesIf d (n < 10 ^ mostDigits) (Nat.toDigits 10 n) := by
    intro n
    have h := tokenize_digits (settledAt_settledState d) (t := Nat.toDigits 10 n) fun c hc =>
      Nat.isDigit_of_mem_toDigits (by decide) (by decide) hc
    have hl := Nat.length_toDigits_le_iff (b := 10) (n := n) (k := mostDigits) (by decide) (by decide)
    have e : (settledState d).digits + (Nat.toDigits 10 n).length = (Nat.toDigits 10 n).length :=
      Nat.zero_add _
    rw [e] at h
    constructor
    · intro hn
      rw [if_pos (hl.2 hn)] at h
      exact h
    · intro hn
      rw [if_neg fun h' => hn (hl.1 h')] at h
      exact h (Nat.zero_le _)
  cases i with
  | ofNat n => exact key n
  | negSucc n =>
    have := key (n + 1)
    unfold TokenizesIf at this ⊢
    rw [intRepr, tokenize_cons, step_separator (settledAt_settledState d) (by simp [IsSeparator])]
    exact this

/-- Within a string literal. -/
def inQuotes (d : Nat) (q : Char) : TokenState := ⟨d, some q, false, 0, false⟩

theorem step_within {d : Nat} {q c : Char} (hq : c ≠ q) (hb : c ≠ '\\') (h0 : c ≠ '\x00') :
    (inQuotes d q).step c = some (inQuotes d q) := by
  unfold TokenState.step inQuotes
  simp only
  rw [if_neg h0, if_neg (by decide), if_neg hb, if_neg hq]

theorem tokenize_escape (d : Nat) (q c : Char) (h0 : c ≠ '\x00') (t : Text) :
    tokenize (inQuotes d q) ('\\' :: c :: t) = tokenize (inQuotes d q) t := by
  have : (⟨d, some q, true, 0, false⟩ : TokenState).step c = some (inQuotes d q) := if_neg h0
  rw [tokenize_cons, show (inQuotes d q).step '\\' = some ⟨d, some q, true, 0, false⟩ from rfl,
    Option.bind_some, tokenize_cons, this]
  rfl

theorem tokenize_within {d : Nat} {q : Char} : ∀ {t : Text}, (∀ c ∈ t, c ≠ q ∧ c ≠ '\\' ∧ c ≠ '\x00') →
    tokenize (inQuotes d q) t = some (inQuotes d q)
  | [], _ => rfl
  | c :: t, h => by
    have hc := h c List.mem_cons_self
    rw [tokenize_cons, step_within hc.1 hc.2.1 hc.2.2]
    exact tokenize_within fun x hx => h x (List.mem_cons_of_mem _ hx)

theorem digitChar_plain {q : Char} (hq : IsQuote q) (n : Nat) (hn : n < 16) :
    Nat.digitChar n ≠ q ∧ Nat.digitChar n ≠ '\\' ∧ Nat.digitChar n ≠ '\x00' := by
  rcases hq with rfl | rfl <;> revert n <;> decide

theorem hexDigits_plain {q : Char} (hq : IsQuote q) : ∀ (k n : Nat), ∀ c ∈ hexDigits k n,
    c ≠ q ∧ c ≠ '\\' ∧ c ≠ '\x00'
  | 0, _, c, h => by cases h
  | k + 1, n, c, h => by
    rw [hexDigits] at h
    rcases List.mem_append.1 h with h | h
    · exact hexDigits_plain hq k _ c h
    · simp only [List.mem_singleton] at h
      subst h
      exact digitChar_plain hq _ (Nat.mod_lt _ (by decide))

theorem tokenize_charRepr (printable : Char → Bool) {d : Nat} {q : Char} (hq : IsQuote q) (c : Char) :
    tokenize (inQuotes d q) (charRepr printable q c) = some (inQuotes d q) := by
  unfold charRepr
  by_cases h : c = q ∨ c = '\\'
  · rw [if_pos h, tokenize_escape _ _ _ (by
      rintro rfl
      rcases h with rfl | h
      · rcases hq with h | h <;> cases h
      · cases h)]
    rfl
  · rw [if_neg h]
    have hplain : c ≠ '\x00' → tokenize (inQuotes d q) [c] = some (inQuotes d q) := fun h0 => tokenize_within (by
      intro x hx
      simp only [List.mem_singleton] at hx
      subst hx
      exact ⟨fun e => h (.inl e), fun e => h (.inr e), h0⟩)
    repeat' split
    all_goals first
      | (exact hplain (by rintro rfl; simp_all))
      | (rw [tokenize_escape _ _ _ (by decide)]; rfl)
      | (rw [tokenize_escape _ _ _ (by decide)]; exact tokenize_within (hexDigits_plain hq _ _))

theorem tokenizesIf_str (printable : Char → Bool) (d : Nat) (s : Text) :
    TokenizesIf d True (strRepr printable s) := by
  refine ⟨fun _ => ⟨settledState d, ?_, settledAt_settledState d⟩, fun h => absurd trivial h⟩
  have hq := isQuote_quoteFor s
  unfold strRepr
  generalize quoteFor s = q at hq
  have e : (settledState d).step q = some (inQuotes d q) := by rcases hq with rfl | rfl <;> rfl
  have e' : (inQuotes d q).step q = some (settledState d) := by rcases hq with rfl | rfl <;> rfl
  rw [tokenize_cons, e, Option.bind_some, tokenize_append]
  have : tokenize (inQuotes d q) (s.flatMap (charRepr printable q)) = some (inQuotes d q) := by
    induction s with
    | nil => rfl
    | cons c s ih =>
      rw [List.flatMap_cons, tokenize_append, tokenize_charRepr printable hq]
      exact ih
  rw [this, Option.bind_some, tokenize_cons, e']
  rfl

theorem TokenizesIf.congr {d : Nat} {P Q : Prop} {t : Text} (h : TokenizesIf d P t) (e : P ↔ Q) :
    TokenizesIf d Q t := ⟨fun q => h.1 (e.2 q), fun q => h.2 fun p => q (e.1 p)⟩

theorem tokenizesIf_padding {d : Nat} {P : Prop} {t : Text} (indent depth : Nat) (h : TokenizesIf d P t) :
    TokenizesIf d P (padding indent depth ++ t) := by
  unfold TokenizesIf at h ⊢
  rw [tokenize_padding]
  exact h

/-- A separator, then another token. -/
theorem TokenizesIf.append {d : Nat} {P Q : Prop} {t u : Text} {c : Char} (hc : IsSeparator c)
    (ht : TokenizesIf d P t) (hu : TokenizesIf d Q u) : TokenizesIf d (P ∧ Q) (t ++ c :: u) := by
  constructor
  · rintro ⟨p, q⟩
    obtain ⟨s, h1, h2⟩ := ht.1 p
    rw [tokenize_append, h1, Option.bind_some, tokenize_cons, step_separator h2 hc]
    exact hu.1 q
  · intro h
    rw [tokenize_append]
    by_cases p : P
    · obtain ⟨s, h1, h2⟩ := ht.1 p
      rw [h1, Option.bind_some, tokenize_cons, step_separator h2 hc]
      exact hu.2 fun q => h ⟨p, q⟩
    · rw [ht.2 p]
      rfl

theorem TokenizesIf.separator {d : Nat} {Q : Prop} {u : Text} {c : Char} (hc : IsSeparator c)
    (hu : TokenizesIf d Q u) : TokenizesIf d Q (c :: u) := by
  unfold TokenizesIf
  rw [tokenize_cons, step_separator (settledAt_settledState d) hc]
  exact hu

/-- Brackets around a text. -/
theorem TokenizesIf.enclose {d : Nat} {P : Prop} {t : Text} {c c' : Char}
    (hc : c = '(' ∨ c = '[' ∨ c = '{') (hc' : c' = ')' ∨ c' = ']' ∨ c' = '}')
    (h : d < mostBrackets → TokenizesIf (d + 1) P t) :
    TokenizesIf d (d < mostBrackets ∧ P) (c :: (t ++ [c'])) := by
  unfold TokenizesIf
  rw [tokenize_cons, step_open hc]
  by_cases hd : d < mostBrackets
  · rw [if_pos hd, Option.bind_some, tokenize_append]
    have h := h hd
    constructor
    · rintro ⟨_, p⟩
      obtain ⟨s, h1, h2⟩ := h.1 p
      rw [h1, Option.bind_some, tokenize_cons, step_close h2 hc']
      exact ⟨_, rfl, settledAt_settledState d⟩
    · intro hn
      rw [h.2 fun p => hn ⟨hd, p⟩]
      rfl
  · rw [if_neg hd]
    exact ⟨fun h => absurd h.1 hd, fun _ => rfl⟩

theorem tokenizesIf_nil (d : Nat) : TokenizesIf d True [] :=
  ⟨fun _ => ⟨_, rfl, settledAt_settledState d⟩, fun h => absurd trivial h⟩

theorem tokenizesIf_blank (d indent depth : Nat) : TokenizesIf d True (padding indent depth) := by
  have := tokenizesIf_padding indent depth (tokenizesIf_nil d)
  rw [List.append_nil] at this
  exact this

/-- Lines separated by commas. -/
theorem tokenizesIf_join {d : Nat} {P : Text → Prop} : ∀ {ts : List Text},
    (∀ t ∈ ts, TokenizesIf d (P t) t) → TokenizesIf d (∀ t ∈ ts, P t) (join [',', '\n'] ts)
  | [], _ => (tokenizesIf_nil d).congr (by simp)
  | [t], h => by
    rw [join]
    exact (h t List.mem_cons_self).congr (by simp)
  | t :: u :: ts, h => by
    have e : join [',', '\n'] (t :: u :: ts) = t ++ ',' :: '\n' :: join [',', '\n'] (u :: ts) := by
      rw [join, List.append_assoc]
      · rfl
      · intro h
        cases h
    rw [e]
    have ih := tokenizesIf_join (ts := u :: ts) fun x hx => h x (List.mem_cons_of_mem _ hx)
    have := (h t List.mem_cons_self).append (c := ',') (.inl rfl) (ih.separator (c := '\n') (.inr (.inl rfl)))
    exact this.congr (List.forall_mem_cons (p := P)).symm

/-- The text is accepted after `d` brackets. -/
def TokenizesAt (d : Nat) (t : Text) : Prop := (tokenize (settledState d) t).isSome = true

theorem TokenizesIf.iff {d : Nat} {P : Prop} {t : Text} (h : TokenizesIf d P t) : TokenizesAt d t ↔ P := by
  unfold TokenizesAt
  by_cases p : P
  · obtain ⟨s, h1, _⟩ := h.1 p
    rw [h1]
    exact ⟨fun _ => p, fun _ => rfl⟩
  · rw [h.2 p]
    exact ⟨fun h => (nomatch h), fun h => absurd h p⟩

theorem TokenizesIf.self {d : Nat} {P : Prop} {t : Text} (h : TokenizesIf d P t) :
    TokenizesIf d (TokenizesAt d t) t := h.congr h.iff.symm

/-- The lines of a collection. -/
theorem tokenizesIf_lines {d : Nat} {P : Text → Prop} {ts : List Text} {c c' : Char} (indent depth : Nat)
    (hc : c = '(' ∨ c = '[' ∨ c = '{') (hc' : c' = ')' ∨ c' = ']' ∨ c' = '}')
    (h : d < mostBrackets → ∀ t ∈ ts, TokenizesIf (d + 1) (P t) t) :
    TokenizesIf d (d < mostBrackets ∧ ∀ t ∈ ts, P t)
      (c :: '\n' :: (join [',', '\n'] ts ++ '\n' :: (padding indent depth ++ [c']))) := by
  have h2 := TokenizesIf.enclose hc hc' fun hd =>
    ((tokenizesIf_join (h hd)).append (c := '\n') (.inr (.inl rfl))
      (tokenizesIf_blank (d + 1) indent depth)).separator (c := '\n') (.inr (.inl rfl))
  rw [List.cons_append, List.append_assoc, List.cons_append] at h2
  exact h2.congr (by rw [and_true])

/-- What can be written after `d` brackets. -/
def FitsAt (d : Nat) (v : Data) : Prop := d + bracketsOf v ≤ mostBrackets ∧ ShortNumbers v

theorem bracketsIn_le {k : Nat} : ∀ {xs : List Data}, bracketsIn xs ≤ k ↔ ∀ x ∈ xs, bracketsOf x ≤ k
  | [] => by simp [bracketsIn]
  | x :: xs => by rw [bracketsIn, Nat.max_le, bracketsIn_le, List.forall_mem_cons]

theorem bracketsInEntries_le {k : Nat} : ∀ {es : List (Data × Data)},
    bracketsInEntries es ≤ k ↔ ∀ e ∈ es, bracketsOf e.1 ≤ k ∧ bracketsOf e.2 ≤ k
  | [] => by simp [bracketsInEntries]
  | (a, b) :: es => by
    rw [bracketsInEntries, Nat.max_le, Nat.max_le, bracketsInEntries_le, List.forall_mem_cons]

theorem collection_fits {d : Nat} {xs : List Data} {S : Prop} (hS : S ↔ ∀ x ∈ xs, ShortNumbers x) :
    (d < mostBrackets ∧ ∀ x ∈ xs, FitsAt (d + 1) x) ↔ d + (bracketsIn xs + 1) ≤ mostBrackets ∧ S := by
  rw [hS]
  constructor
  · rintro ⟨h1, h2⟩
    have : bracketsIn xs ≤ mostBrackets - (d + 1) := bracketsIn_le.2 fun x hx => by
      have := (h2 x hx).1
      omega
    exact ⟨by omega, fun x hx => (h2 x hx).2⟩
  · rintro ⟨h1, h2⟩
    refine ⟨by omega, fun x hx => ⟨?_, h2 x hx⟩⟩
    have := (bracketsIn_le (k := bracketsIn xs)).1 (Nat.le_refl _) x hx
    omega

theorem mem_elementsReprs {printable : Char → Bool} {indent depth : Nat} {P : Text → Prop} :
    ∀ {xs : List Data}, (∀ t ∈ elementsReprs printable indent depth xs, P t) ↔
      ∀ x ∈ xs, P (padding indent depth ++ reprFrom printable indent depth x)
  | [] => by simp [elementsReprs]
  | x :: xs => by rw [elementsReprs, List.forall_mem_cons, List.forall_mem_cons, mem_elementsReprs]

theorem mem_entriesReprs {printable : Char → Bool} {indent depth : Nat} {P : Text → Prop} :
    ∀ {es : List (Data × Data)}, (∀ t ∈ entriesReprs printable indent depth es, P t) ↔
      ∀ e ∈ es, P (padding indent depth ++ (reprFrom printable indent depth e.1
        ++ ':' :: ' ' :: reprFrom printable indent depth e.2))
  | [] => by simp [entriesReprs]
  | (a, b) :: es => by rw [entriesReprs, List.forall_mem_cons, List.forall_mem_cons, mem_entriesReprs]

/-- The lines of elements. -/
theorem tokenizesIf_elements {printable : Char → Bool} {indent d depth : Nat} {xs : List Data} {c c' : Char}
    (hc : c = '(' ∨ c = '[' ∨ c = '{') (hc' : c' = ')' ∨ c' = ']' ∨ c' = '}')
    (h : ∀ x ∈ xs, ∀ d depth, d ≤ mostBrackets →
      TokenizesIf d (FitsAt d x) (reprFrom printable indent depth x)) :
    TokenizesIf d (d < mostBrackets ∧ ∀ x ∈ xs, FitsAt (d + 1) x)
      (c :: '\n' :: (join [',', '\n'] (elementsReprs printable indent (depth + 1) xs)
        ++ '\n' :: (padding indent depth ++ [c']))) := by
  have key : d < mostBrackets → ∀ x ∈ xs, TokenizesIf (d + 1) (FitsAt (d + 1) x)
      (padding indent (depth + 1) ++ reprFrom printable indent (depth + 1) x) :=
    fun hd x hx => tokenizesIf_padding _ _ (h x hx _ _ hd)
  have := tokenizesIf_lines (P := TokenizesAt (d + 1)) indent depth hc hc'
    fun hd => mem_elementsReprs.2 fun x hx => (key hd x hx).self
  refine this.congr (and_congr_right fun hd => ?_)
  rw [mem_elementsReprs]
  exact forall_congr' fun x => forall_congr' fun hx => (key hd x hx).iff

theorem mem_sortTexts {ts : List Text} {t : Text} : t ∈ sortTexts ts ↔ t ∈ ts := List.mem_mergeSort

/-- The lines of entries. -/
theorem tokenizesIf_entries {printable : Char → Bool} {indent d depth : Nat} {es : List (Data × Data)}
    (h : ∀ e ∈ es, ∀ d depth, d ≤ mostBrackets →
      TokenizesIf d (FitsAt d e.1) (reprFrom printable indent depth e.1)
      ∧ TokenizesIf d (FitsAt d e.2) (reprFrom printable indent depth e.2)) :
    TokenizesIf d (d < mostBrackets ∧ ∀ e ∈ es, FitsAt (d + 1) e.1 ∧ FitsAt (d + 1) e.2)
      ('{' :: '\n' :: (join [',', '\n'] (sortTexts (entriesReprs printable indent (depth + 1) es))
        ++ '\n' :: (padding indent depth ++ ['}']))) := by
  have key : d < mostBrackets → ∀ e ∈ es, TokenizesIf (d + 1) (FitsAt (d + 1) e.1 ∧ FitsAt (d + 1) e.2)
      (padding indent (depth + 1) ++ (reprFrom printable indent (depth + 1) e.1
        ++ ':' :: ' ' :: reprFrom printable indent (depth + 1) e.2)) :=
    fun hd e he => tokenizesIf_padding _ _ ((h e he _ _ hd).1.append (.inr (.inr (.inr (.inl rfl))))
      ((h e he _ _ hd).2.separator (.inr (.inr (.inl rfl)))))
  have := tokenizesIf_lines (ts := sortTexts (entriesReprs printable indent (depth + 1) es))
    (P := TokenizesAt (d + 1)) indent depth (c := '{') (c' := '}') (by simp) (by simp)
    fun hd t ht => (mem_entriesReprs (P := fun t => TokenizesIf (d + 1) (TokenizesAt (d + 1) t) t)).2
      (fun e he => (key hd e he).self) t (mem_sortTexts.1 ht)
  refine this.congr (and_congr_right fun hd => ?_)
  rw [show (∀ t ∈ sortTexts (entriesReprs printable indent (depth + 1) es), TokenizesAt (d + 1) t)
    ↔ ∀ t ∈ entriesReprs printable indent (depth + 1) es, TokenizesAt (d + 1) t from
    forall_congr' fun t => by rw [mem_sortTexts], mem_entriesReprs]
  exact forall_congr' fun x => forall_congr' fun hx => (key hd x hx).iff

/-- A value is written within the limits just when its nesting and its numbers are. -/
theorem tokenizesIf_reprFrom (printable : Char → Bool) (indent : Nat) : ∀ (v : Data) (d depth : Nat),
    d ≤ mostBrackets → TokenizesIf d (FitsAt d v) (reprFrom printable indent depth v) := by
  have hempty : ∀ {d : Nat} {c c' : Char}, (c = '(' ∨ c = '[' ∨ c = '{') → (c' = ')' ∨ c' = ']' ∨ c' = '}') →
      TokenizesIf d (d < mostBrackets ∧ ∀ x ∈ ([] : List Data), FitsAt (d + 1) x) [c, c'] :=
    fun hc hc' => (TokenizesIf.enclose hc hc' fun _ => tokenizesIf_nil _).congr (by simp)
  refine Data.ind ?_ ?_ ?_ ?_ ?_ ?_
  · intro i d depth hd
    rw [reprFrom]
    exact (tokenizesIf_int d i).congr ⟨fun h => ⟨hd, .int h⟩, fun h => by cases h.2; assumption⟩
  · intro s d depth hd
    rw [reprFrom]
    exact (tokenizesIf_str printable d s).congr ⟨fun h => ⟨hd, .str⟩, fun _ => trivial⟩
  · intro xs ih d depth hd
    have e : (d < mostBrackets ∧ ∀ x ∈ xs, FitsAt (d + 1) x) ↔ FitsAt d (.tuple xs) := by
      unfold FitsAt
      rw [bracketsOf]
      exact collection_fits ⟨fun h => by cases h; assumption, .tuple⟩
    refine TokenizesIf.congr ?_ e
    match xs, ih with
    | [], _ => rw [reprFrom]; exact hempty (by simp) (by simp)
    | [x], ih =>
      rw [reprFrom]
      have := TokenizesIf.enclose (d := d) (c := '(') (c' := ')') (by simp) (by simp) fun hd =>
        (ih x List.mem_cons_self (d + 1) depth hd).append (c := ',') (.inl rfl) (tokenizesIf_nil _)
      rw [List.append_assoc] at this
      exact this.congr (by simp)
    | x :: y :: xs, ih => rw [reprFrom]; exact tokenizesIf_elements (by simp) (by simp) ih
  · intro xs ih d depth hd
    have e : (d < mostBrackets ∧ ∀ x ∈ xs, FitsAt (d + 1) x) ↔ FitsAt d (.list xs) := by
      unfold FitsAt
      rw [bracketsOf]
      exact collection_fits ⟨fun h => by cases h; assumption, .list⟩
    refine TokenizesIf.congr ?_ e
    match xs, ih with
    | [], _ => rw [reprFrom]; exact hempty (by simp) (by simp)
    | x :: xs, ih => rw [reprFrom]; exact tokenizesIf_elements (by simp) (by simp) ih
  · intro xs ih d depth hd
    have e : (d < mostBrackets ∧ ∀ x ∈ xs, FitsAt (d + 1) x) ↔ FitsAt d (.set xs) := by
      unfold FitsAt
      rw [bracketsOf]
      exact collection_fits ⟨fun h => by cases h; assumption, .set⟩
    refine TokenizesIf.congr ?_ e
    match xs, ih with
    | [], _ =>
      rw [reprFrom]
      have := hempty (d := d) (c := '(') (c' := ')') (by simp) (by simp)
      unfold TokenizesIf at this ⊢
      exact this
    | x :: xs, ih => rw [reprFrom]; exact tokenizesIf_elements (by simp) (by simp) ih
  · intro es ih d depth hd
    have e : (d < mostBrackets ∧ ∀ e ∈ es, FitsAt (d + 1) e.1 ∧ FitsAt (d + 1) e.2)
        ↔ FitsAt d (.dict es) := by
      unfold FitsAt
      rw [bracketsOf]
      constructor
      · rintro ⟨h1, h2⟩
        have : bracketsInEntries es ≤ mostBrackets - (d + 1) := bracketsInEntries_le.2 fun x hx => by
          have := (h2 x hx).1.1
          have := (h2 x hx).2.1
          omega
        exact ⟨by omega, .dict (fun x hx => (h2 x hx).1.2) fun x hx => (h2 x hx).2.2⟩
      · rintro ⟨h1, h2⟩
        cases h2 with
        | dict h2 h3 =>
          refine ⟨by omega, fun x hx => ?_⟩
          have := (bracketsInEntries_le (k := bracketsInEntries es)).1 (Nat.le_refl _) x hx
          exact ⟨⟨by omega, h2 x hx⟩, ⟨by omega, h3 x hx⟩⟩
    refine TokenizesIf.congr ?_ e
    match es, ih with
    | [], _ =>
      rw [reprFrom]
      exact (TokenizesIf.enclose (by simp) (by simp) fun _ => tokenizesIf_nil _).congr (by simp)
    | x :: es, ih =>
      rw [reprFrom]
      exact tokenizesIf_entries fun e he d depth hd => ⟨(ih e he).1 d depth hd, (ih e he).2 d depth hd⟩

/-- A value is written within the limits just when it has at most 200 nested brackets
and no numbers of more than 4300 digits. -/
theorem withinLimits_reprFrom (printable : Char → Bool) (indent depth : Nat) (v : Data) :
    withinLimits (reprFrom printable indent depth v) = true
      ↔ bracketsOf v ≤ mostBrackets ∧ ShortNumbers v := by
  have := (tokenizesIf_reprFrom printable indent v 0 depth (Nat.zero_le _)).iff
  unfold FitsAt at this
  rw [Nat.zero_add] at this
  exact this

/-- Within a name. -/
def inName (d : Nat) : TokenState := ⟨d, none, false, 0, true⟩

theorem step_inName {d : Nat} {c : Char} (h : c.isAlphanum = true ∨ c = '_') :
    (inName d).step c = some (inName d) := by
  unfold TokenState.step inName
  rw [if_neg (by
    rintro rfl
    rcases h with h | h
    · exact absurd h (by decide)
    · cases h)]
  simp only
  rw [if_neg, if_neg, if_neg, if_neg]
  · rcases h with h | rfl
    · simp only [Char.isAlphanum, Bool.or_eq_true] at h
      rcases h with h | h <;> simp [h]
    · rfl
  · simp
  all_goals
    intro h'
    rcases h with h | rfl
    · rcases h' with rfl | rfl | rfl <;> exact absurd h (by decide)
    · revert h'
      decide

theorem tokenize_inName {d : Nat} : ∀ {name : Text}, (∀ c ∈ name, c.isAlphanum = true ∨ c = '_') →
    ∀ (u : Text), tokenize (inName d) (name ++ ' ' :: u) = tokenize (settledState d) u
  | [], _, u => rfl
  | c :: name, h, u => by
    rw [List.cons_append, tokenize_cons, step_inName (h c List.mem_cons_self)]
    exact tokenize_inName (fun x hx => h x (List.mem_cons_of_mem _ hx)) u

theorem tokenize_name {d : Nat} {name : Text} (h : IsFieldName name) (u : Text) :
    tokenize (settledState d) (name ++ ' ' :: u) = tokenize (settledState d) u := by
  obtain ⟨h1, h2, h3⟩ := h
  match name, h1 with
  | c :: name, _ =>
    have hc := h2 c List.mem_cons_self
    have hd : c.isDigit = false := h3 c rfl
    have e : (settledState d).step c = some (inName d) := by
      unfold TokenState.step settledState
      rw [if_neg (by
        rintro rfl
        rcases hc with h | h
        · exact absurd h (by decide)
        · cases h)]
      simp only
      rw [if_neg, if_neg, if_neg, if_neg]
      · rcases hc with h | rfl
        · simp only [Char.isAlphanum, Bool.or_eq_true, hd] at h
          rcases h with h | h
          · simp [h, inName]
          · cases h
        · rfl
      · simp [hd]
      all_goals
        intro h'
        rcases hc with h | rfl
        · rcases h' with rfl | rfl | rfl <;> exact absurd h (by decide)
        · revert h'
          decide
    rw [List.cons_append, tokenize_cons, e]
    exact tokenize_inName (fun x hx => h2 x (List.mem_cons_of_mem _ hx)) u

/-- A file is written within the limits just when its values are. -/
theorem tokenizesIf_saveText (printable : Char → Bool) : ∀ {fields : Fields},
    (∀ f ∈ fields, IsFieldName f.1) →
    TokenizesIf 0 (∀ f ∈ fields, FitsAt 0 f.2) (saveText printable fields)
  | [], _ => (tokenizesIf_nil 0).congr (by simp)
  | (name, v) :: fields, h => by
    have ih := tokenizesIf_saveText printable fun f hf => h f (List.mem_cons_of_mem _ hf)
    have hv := (tokenizesIf_reprFrom printable 4 v 0 0 (Nat.zero_le _)).append (c := '\n')
      (.inr (.inl rfl)) ih
    have hu := (hv.separator (c := ' ') (by simp [IsSeparator])).separator (c := '=') (by simp [IsSeparator])
    rw [List.forall_mem_cons]
    unfold TokenizesIf at hu ⊢
    rw [saveText, tokenize_name (h _ List.mem_cons_self)]
    exact hu

theorem withinLimits_saveText (printable : Char → Bool) {fields : Fields}
    (h : ∀ f ∈ fields, IsFieldName f.1) :
    withinLimits (saveText printable fields) = true ↔
      ∀ f ∈ fields, bracketsOf f.2 ≤ mostBrackets ∧ ShortNumbers f.2 := by
  have := (tokenizesIf_saveText printable h).iff
  unfold FitsAt at this
  simp only [Nat.zero_add] at this
  exact this

/-- Texts with null characters are rejected. -/
theorem withinLimits_nul {t : Text} (h : '\x00' ∈ t) : withinLimits t = false := by
  have key : ∀ (t : Text) (s : TokenState), '\x00' ∈ t → tokenize s t = none := by
    intro t
    induction t with
    | nil => intro _ h; cases h
    | cons c t ih =>
      intro s h
      rw [tokenize_cons]
      rcases List.mem_cons.1 h with h | h
      · rw [show s.step c = none from if_pos h.symm]; rfl
      · cases s.step c with
        | none => rfl
        | some s' => exact ih s' h
  rw [withinLimits, key t _ h]
  rfl

end Paradigm
