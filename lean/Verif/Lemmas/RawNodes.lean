import Verif.Lemmas.Literals
import Verif.Lemmas.Star
import Verif.Model.RawNodes

/-!
# Lemmas about stored syntax trees
-/

namespace Paradigm

open Spec

theorem readShortNat_toDigits (k : Nat) (r : Text) (hr : NoDigit r) :
    readShortNat (Nat.toDigits 10 k ++ r) = if k < 10 ^ mostDigits then some (k, r) else none := by
  have hall : ∀ c ∈ Nat.toDigits 10 k, c.isDigit = true := fun c hc =>
    Nat.isDigit_of_mem_toDigits (by decide) (by decide) hc
  have hr1 : r.takeWhile Char.isDigit = [] := by
    cases r with
    | nil => rfl
    | cons c u => rw [List.takeWhile_cons, hr c u rfl]; rfl
  have hl := Nat.length_toDigits_le_iff (b := 10) (n := k) (k := mostDigits) (by decide) (by decide)
  unfold readShortNat
  rw [List.takeWhile_append_of_pos hall, hr1, List.append_nil, readNat_toDigits k r hr]
  by_cases h : k < 10 ^ mostDigits
  · rw [if_pos h, if_pos (hl.2 h)]
  · rw [if_neg h, if_neg fun h' => h (hl.1 h')]

/-- The text ends or goes on with a comma or a closing bracket. -/
def Delim (r : Text) : Prop := r = [] ∨ ∃ c r', r = c :: r' ∧ (c = ',' ∨ c = ')' ∨ c = ']')

theorem Delim.comma (r : Text) : Delim (',' :: r) := .inr ⟨_, _, rfl, .inl rfl⟩
theorem Delim.round (r : Text) : Delim (')' :: r) := .inr ⟨_, _, rfl, .inr (.inl rfl)⟩
theorem Delim.square (r : Text) : Delim (']' :: r) := .inr ⟨_, _, rfl, .inr (.inr rfl)⟩

theorem Delim.noDigit {r : Text} (h : Delim r) : NoDigit r := by
  rcases h with rfl | ⟨c, r', rfl, h⟩
  · intro c u h; cases h
  · intro x u hx
    cases hx
    rcases h with rfl | rfl | rfl <;> rfl

theorem dropWhile_delim {r : Text} (h : Delim r) : r.dropWhile isWordChar = r := by
  rcases h with rfl | ⟨c, r', rfl, h⟩
  · rfl
  · rcases h with rfl | rfl | rfl <;> rfl

theorem takeWhile_delim {r : Text} (h : Delim r) : r.takeWhile isWordChar = [] := by
  rcases h with rfl | ⟨c, r', rfl, h⟩
  · rfl
  · rcases h with rfl | rfl | rfl <;> rfl

theorem takeWhile_word {w : Text} (hw : w.all isWordChar = true) (r : Text) :
    (w ++ r).takeWhile isWordChar = w ++ r.takeWhile isWordChar :=
  List.takeWhile_append_of_pos (fun c hc => List.all_eq_true.1 hw c hc)

theorem dropWhile_word {w : Text} (hw : w.all isWordChar = true) (r : Text) :
    (w ++ r).dropWhile isWordChar = r.dropWhile isWordChar :=
  List.dropWhile_append_of_pos (fun c hc => List.all_eq_true.1 hw c hc)

/-- Characters a name can begin with. -/
theorem wordStart {c : Char} (h : c.isAlpha = true ∨ c = '_') :
    ¬ (c = '\'' ∨ c = '"') ∧ c ≠ '-' ∧ c.isDigit = false ∧ c ≠ '[' ∧ c ≠ ' ' ∧ c ≠ '\n' ∧ c ≠ ']' ∧
      c ≠ ')' := by
  rcases h with h | rfl
  · have hd : c.isDigit = false := by
      simp only [Char.isAlpha, Char.isUpper, Char.isLower, Bool.or_eq_true, decide_eq_true_eq,
        Bool.and_eq_true, GE.ge, UInt32.le_iff_toNat_le] at h
      simp only [Char.isDigit, Bool.and_eq_false_iff, decide_eq_false_iff_not, GE.ge,
        UInt32.le_iff_toNat_le]
      have e : ∀ n : Nat, n < 200 → (UInt32.ofNat n).toNat = n := by
        intro n hn
        exact UInt32.toNat_ofNat_of_lt' (by show n < 2 ^ 32; omega)
      have e57 := e 57 (by decide)
      have e65 := e 65 (by decide)
      have e97 := e 97 (by decide)
      right
      intro g
      rcases h with ⟨h, -⟩ | ⟨h, -⟩
      · have h' := Nat.le_trans h g
        exact absurd h' (by decide)
      · have h' := Nat.le_trans h g
        exact absurd h' (by decide)
    refine ⟨?_, ?_, hd, ?_, ?_, ?_, ?_, ?_⟩ <;> (intro g; revert h) <;>
      first
      | (rcases g with rfl | rfl <;> decide)
      | (subst g; decide)
  · decide

theorem skip_none {c : Char} (h1 : c ≠ ' ') (h2 : c ≠ '\n') (t : Text) :
    skipBlank (c :: t) = c :: t := by
  unfold skipBlank
  rw [List.dropWhile_cons, if_neg]
  simp [h1, h2]

theorem skip_space (t : Text) : skipBlank (' ' :: t) = skipBlank t := rfl

/-- The first character of a text that stands for an expression. -/
def StartsWell (t : Text) : Prop :=
  ∃ c u, t = c :: u ∧ c ≠ ' ' ∧ c ≠ '\n' ∧ c ≠ ']' ∧ c ≠ ')'

theorem StartsWell.append {t : Text} (h : StartsWell t) (r : Text) : StartsWell (t ++ r) := by
  obtain ⟨c, u, rfl, h⟩ := h
  exact ⟨c, u ++ r, rfl, h⟩

theorem StartsWell.skip {t : Text} (h : StartsWell t) : skipBlank t = t := by
  obtain ⟨c, u, rfl, h1, h2, -, -⟩ := h
  exact skip_none h1 h2 u

theorem IsWord.starts {w : Text} (h : IsWord w) : StartsWell w := by
  obtain ⟨⟨c, u, rfl, hc⟩, -⟩ := h
  obtain ⟨-, -, -, -, h1, h2, h3, h4⟩ := wordStart hc
  exact ⟨c, u, rfl, h1, h2, h3, h4⟩

theorem strRepr_eq (printable : Char → Bool) (s : Text) : ∃ q u, IsQuote q ∧
    strRepr printable s = q :: (u ++ [q]) ∧ s.length ≤ u.length ∧
    ∀ r n, s.length < n → readString n q (u ++ q :: r) = some (s, r) := by
  refine ⟨quoteFor s, s.flatMap (charRepr printable (quoteFor s)), isQuote_quoteFor s, rfl,
    length_flatMap_charRepr _ _ _, fun r n hn => ?_⟩
  exact readString_flatMap printable (isQuote_quoteFor s) r s hn

theorem digit_start {c : Char} (h : c.isDigit = true) : ¬ (c = '\'' ∨ c = '"') ∧ c ≠ '-' ∧ c ≠ ' ' ∧
    c ≠ '\n' ∧ c ≠ ']' ∧ c ≠ ')' := by
  refine ⟨?_, ?_, ?_, ?_, ?_, ?_⟩ <;> intro g <;> revert h <;>
    first
    | (rcases g with rfl | rfl <;> decide)
    | (subst g; decide)

theorem digits_first (k : Nat) : ∃ c u, Nat.toDigits 10 k = c :: u ∧ c.isDigit = true := by
  cases h : Nat.toDigits 10 k with
  | nil => exact absurd h Nat.toDigits_ne_nil
  | cons c u =>
    exact ⟨c, u, rfl, Nat.isDigit_of_mem_toDigits (b := 10) (n := k) (by decide) (by decide)
      (by rw [h]; exact List.mem_cons_self)⟩

theorem intRepr_starts (i : Int) : StartsWell (intRepr i) := by
  cases i with
  | ofNat k =>
    obtain ⟨c, u, h, hc⟩ := digits_first k
    obtain ⟨-, -, h1, h2, h3, h4⟩ := digit_start hc
    exact ⟨c, u, h, h1, h2, h3, h4⟩
  | negSucc k => exact ⟨'-', _, rfl, by decide, by decide, by decide, by decide⟩

section

variable {classes ns : AstClasses} {printable : Char → Bool}

theorem dumpTree_starts (hp : NamedProperly ns) {x : Tree} (h : OfClasses ns x) :
    StartsWell (dumpTree classes printable x) := by
  cases x with
  | node cls values =>
    rw [OfClasses] at h
    obtain ⟨fields, hl, -⟩ := h
    rw [dumpTree]
    exact (IsWord.starts (hp _ (lookup_mem hl)).1).append _
  | list items => rw [dumpTree]; exact ⟨'[', _, rfl, by decide, by decide, by decide, by decide⟩
  | str s =>
    obtain ⟨q, u, hq, he, -⟩ := strRepr_eq printable s
    rw [dumpTree, he]
    refine ⟨q, _, rfl, ?_⟩
    rcases hq with rfl | rfl <;> decide
  | bytes s => rw [dumpTree]; exact ⟨'b', _, rfl, by decide, by decide, by decide, by decide⟩
  | int i => rw [dumpTree]; exact intRepr_starts i
  | true_ => rw [dumpTree]; exact ⟨'T', _, rfl, by decide, by decide, by decide, by decide⟩
  | false_ => rw [dumpTree]; exact ⟨'F', _, rfl, by decide, by decide, by decide, by decide⟩
  | none_ => rw [dumpTree]; exact ⟨'N', _, rfl, by decide, by decide, by decide, by decide⟩
  | ellipsis => rw [dumpTree]; exact ⟨'E', _, rfl, by decide, by decide, by decide, by decide⟩
  | infinity => rw [dumpTree]; exact ⟨'i', _, rfl, by decide, by decide, by decide, by decide⟩
  | missing => rw [OfClasses] at h; exact h.elim

/-- No expression begins as `name=`. -/
theorem readKeyword_none {t : Text} (h : ∀ u, t.dropWhile isWordChar ≠ '=' :: u) :
    readKeyword t = none := by
  unfold readKeyword
  split
  · next rest hr => exact absurd hr (h rest)
  · rfl

theorem readKeyword_dump (hp : NamedProperly ns) {x : Tree} (h : OfClasses ns x) {r : Text} (hr : Delim r) :
    readKeyword (dumpTree classes printable x ++ r) = none := by
  have hdel : ∀ w : Text, w.all isWordChar = true → ∀ u, (w ++ r).dropWhile isWordChar ≠ '=' :: u := by
    intro w hw u
    rw [dropWhile_word hw, dropWhile_delim hr]
    rcases hr with rfl | ⟨c, r', rfl, hc⟩
    · intro h; cases h
    · intro h; cases h; revert hc; decide
  have hdig : ∀ k u, (Nat.toDigits 10 k ++ r).dropWhile isWordChar ≠ '=' :: u := by
    intro k
    refine hdel _ (List.all_eq_true.2 fun c hc => ?_)
    have := Nat.isDigit_of_mem_toDigits (b := 10) (by decide) (by decide) hc
    simp [isWordChar, Char.isAlphanum, this]
  apply readKeyword_none
  cases x with
  | node cls values =>
    rw [OfClasses] at h
    obtain ⟨fields, hl, -⟩ := h
    rw [dumpTree]
    intro u
    rw [List.append_assoc, dropWhile_word (hp _ (lookup_mem hl)).1.2.1]
    intro h
    cases h
  | list items => rw [dumpTree]; intro u h; cases h
  | str s =>
    obtain ⟨q, u, hq, he, -⟩ := strRepr_eq printable s
    rw [dumpTree, he]
    intro u h
    rcases hq with rfl | rfl <;> cases h
  | bytes s =>
    obtain ⟨q, u, hq, he, -⟩ := strRepr_eq (fun _ => false) s
    rw [dumpTree, he]
    intro u h
    rcases hq with rfl | rfl <;> cases h
  | int i =>
    rw [dumpTree]
    cases i with
    | ofNat k => exact hdig k
    | negSucc k => intro u h; cases h
  | true_ => rw [dumpTree]; exact hdel _ (by decide)
  | false_ => rw [dumpTree]; exact hdel _ (by decide)
  | none_ => rw [dumpTree]; exact hdel _ (by decide)
  | ellipsis => rw [dumpTree]; exact hdel _ (by decide)
  | infinity => rw [dumpTree]; exact hdel _ (by decide)
  | missing => rw [OfClasses] at h; exact h.elim

end

/-- The arguments that `ast.dump` writes: those given by position and those given by name. -/
def given : Bool → List (Text × Bool) → List Tree → List Tree × List (Text × Tree)
  | _, [], _ => ([], [])
  | _, _, [] => ([], [])
  | kw, f :: fs, v :: vs =>
    if leftOut f.2 v then given true fs vs
    else if kw then ((given kw fs vs).1, (f.1, v) :: (given kw fs vs).2)
    else (v :: (given kw fs vs).1, (given kw fs vs).2)

theorem given_true (fs : List (Text × Bool)) : ∀ vs, (given true fs vs).1 = [] := by
  induction fs with
  | nil => intro vs; rfl
  | cons f fs ih =>
    intro vs
    cases vs with
    | nil => rfl
    | cons v vs =>
      rw [given]
      split
      · exact ih vs
      · rw [if_pos rfl]; exact ih vs

theorem given_sublist (fs : List (Text × Bool)) : ∀ kw vs,
    ((given kw fs vs).2.map Prod.fst).Sublist ((fs.drop (given kw fs vs).1.length).map Prod.fst) := by
  induction fs with
  | nil => intro kw vs; exact .slnil
  | cons f fs ih =>
    intro kw vs
    cases vs with
    | nil => exact List.nil_sublist _
    | cons v vs =>
      rw [given]
      split
      · have h := ih true vs
        rw [given_true] at h ⊢
        exact .cons _ h
      · split
        · next hk =>
          subst hk
          have h := ih true vs
          rw [given_true] at h ⊢
          exact .cons_cons _ h
        · exact ih kw vs

theorem given_length (fs : List (Text × Bool)) : ∀ kw vs, (given kw fs vs).1.length ≤ fs.length := by
  induction fs with
  | nil => intro kw vs; exact Nat.le_refl 0
  | cons f fs ih =>
    intro kw vs
    cases vs with
    | nil => exact Nat.zero_le _
    | cons v vs =>
      rw [given]
      split
      · exact Nat.le_succ_of_le (ih true vs)
      · split
        · exact Nat.le_succ_of_le (ih kw vs)
        · exact Nat.succ_le_succ (ih kw vs)

theorem fieldValues_other {k : Text} {x : Tree} {kws : List (Text × Tree)} : ∀ {fs : List (Text × Bool)},
    k ∉ fs.map Prod.fst → fieldValues ((k, x) :: kws) fs [] = fieldValues kws fs []
  | [], _ => rfl
  | (name, optional) :: fs, h => by
    rw [List.map_cons, List.mem_cons, not_or] at h
    rw [fieldValues, fieldValues, fieldValues_other h.2, List.lookup_cons]
    have hne : (name == k) = false := by
      rw [beq_eq_false_iff_ne]
      exact fun e => h.1 e.symm
    rw [hne]

theorem fieldValues_given {ns : AstClasses} (fs : List (Text × Bool)) : ∀ kw vs,
    (fs.map Prod.fst).Nodup → OfFields ns fs vs →
    fieldValues (given kw fs vs).2 fs (given kw fs vs).1 = vs := by
  induction fs with
  | nil =>
    intro kw vs _ h
    cases vs with
    | nil => rfl
    | cons v vs => rw [OfFields] at h; exact h.elim; all_goals simp
  | cons f fs ih =>
    intro kw vs hn h
    obtain ⟨name, optional⟩ := f
    cases vs with
    | nil => rw [OfFields] at h; exact h.elim; all_goals simp
    | cons v vs =>
      rw [OfFields] at h
      rw [List.map_cons, List.nodup_cons] at hn
      rw [given]
      split
      · next hl =>
        have hg := ih true vs hn.2 h.2
        rw [given_true] at hg ⊢
        have hnone : (given true fs vs).2.lookup name = none := by
          refine lookup_none_of_not_mem fun hm => hn.1 ?_
          have := (given_sublist fs true vs).subset hm
          rw [given_true] at this
          exact this
        rw [fieldValues, hg, hnone]
        congr 1
        dsimp only at hl ⊢
        cases v with
        | missing =>
          rcases h.1 with h | h
          · rw [OfClasses] at h; exact h.elim
          · rw [h.2]; rfl
        | none_ =>
          have : optional = true := hl
          rw [this]; rfl
        | _ => cases hl
      · split
        · next hk =>
          subst hk
          have hg := ih true vs hn.2 h.2
          rw [given_true] at hg ⊢
          rw [fieldValues, List.lookup_cons, fieldValues_other hn.1, hg]
          simp
        · rw [fieldValues, ih kw vs hn.2 h.2]

theorem construct_given {ns : AstClasses} {cls : Text} {fs : List (Text × Bool)} {vs : List Tree}
    (hn : (fs.map Prod.fst).Nodup) (h : OfFields ns fs vs) :
    construct cls fs (given false fs vs).1 (given false fs vs).2 = some (.node cls vs) := by
  rw [construct, if_pos, fieldValues_given fs false vs hn h]
  have hs := given_sublist fs false vs
  refine ⟨given_length fs false vs, hs.nodup ?_, fun k hk => hs.subset hk⟩
  rw [List.map_drop]
  exact hn.sublist (List.drop_sublist _ _)

section

variable {classes ns : AstClasses} {printable : Char → Bool}

theorem given_nil (fs : List (Text × Bool)) : ∀ kw vs, dumpFields classes printable kw fs vs = [] →
    given kw fs vs = ([], []) := by
  induction fs with
  | nil => intro kw vs _; rfl
  | cons f fs ih =>
    intro kw vs h
    cases vs with
    | nil => rfl
    | cons v vs =>
      rw [dumpFields] at h
      rw [given]
      split at h
      · next hl => rw [if_pos hl]; exact ih true vs h
      · cases h

theorem readKeyword_name {name : Text} (hw : IsWord name) (t : Text) :
    readKeyword (name ++ '=' :: t) = some (name, t) := by
  unfold readKeyword
  rw [dropWhile_word hw.2.1, takeWhile_word hw.2.1]
  obtain ⟨⟨c, u, rfl, -⟩, -⟩ := hw
  have h1 : ('=' :: t).dropWhile isWordChar = '=' :: t := rfl
  have h2 : ('=' :: t).takeWhile isWordChar = [] := rfl
  rw [h1, h2]
  simp

theorem readTree_word {c : Char} {t : Text} (hc : c.isAlpha = true ∨ c = '_') (n level : Nat) :
    readTree ns (n + 1) level (c :: t) =
      (match (c :: t).dropWhile isWordChar with
      | '(' :: rest =>
        if level = 0 then none
        else
          match ns.lookup ((c :: t).takeWhile isWordChar) with
          | none => none
          | some fields =>
            match readArguments ns n (level - 1) rest with
            | none => none
            | some (positional, keywords, rest) =>
              match construct ((c :: t).takeWhile isWordChar) fields positional keywords with
              | none => none
              | some x => some (x, rest)
      | rest =>
        if c = 'b' ∧ (t.head? = some '\'' ∨ t.head? = some '"') then
          match readString (n + 1) (t.head?.getD ' ') (t.drop 1) with
          | none => none
          | some (s, t) => if s.all (fun x => x.toNat < 256) then some (.bytes s, t) else none
        else if (ns.lookup ((c :: t).takeWhile isWordChar)).isSome then none
        else
          match wordValue ((c :: t).takeWhile isWordChar) with
          | none => none
          | some x => some (x, rest)) := by
  obtain ⟨h1, h2, h3, h4, -⟩ := wordStart hc
  rw [readTree, if_neg h1, if_neg h2, if_neg (by rw [h3]; decide), if_neg h4] <;> rfl

/-- Constants. -/
theorem readTree_constant {c : Char} {w r : Text} (hc : c.isAlpha = true ∨ c = '_')
    (hw : (c :: w).all isWordChar = true) {x : Tree} (hv : wordValue (c :: w) = some x) (hb : c ≠ 'b')
    (hl : ns.lookup (c :: w) = none) (hr : Delim r) (n level : Nat) :
    readTree ns (n + 1) level (c :: w ++ r) = some (x, r) := by
  rw [List.cons_append, readTree_word hc]
  rw [← List.cons_append, dropWhile_word hw, takeWhile_word hw, dropWhile_delim hr, takeWhile_delim hr,
    List.append_nil]
  have he : (match r with
      | '(' :: rest => some rest
      | _ => none) = none := by
    rcases hr with rfl | ⟨d, r, rfl, rfl | rfl | rfl⟩ <;> rfl
  split
  · simp at he
  · rw [if_neg (by simp [hb]), hl, hv]
    simp

/-- Calls. -/
theorem readTree_call {cls r rest : Text} (hw : IsWord cls) {fields : List (Text × Bool)}
    (hl : ns.lookup cls = some fields) {n level : Nat} {positional : List Tree}
    {keywords : List (Text × Tree)} {x : Tree}
    (ha : readArguments ns n level r = some (positional, keywords, rest))
    (hx : construct cls fields positional keywords = some x) :
    readTree ns (n + 1) (level + 1) (cls ++ '(' :: r) = some (x, rest) := by
  have hall := hw.2.1
  obtain ⟨⟨c, u, rfl, hc⟩, -⟩ := hw
  rw [List.cons_append, readTree_word hc]
  rw [← List.cons_append, dropWhile_word hall, takeWhile_word hall]
  have h1 : ('(' :: r).dropWhile isWordChar = '(' :: r := rfl
  have h2 : ('(' :: r).takeWhile isWordChar = [] := rfl
  rw [h1, h2, List.append_nil]
  simp only
  rw [if_neg (by omega), hl]
  dsimp only
  rw [Nat.add_sub_cancel, ha]
  dsimp only
  rw [hx]

theorem wordValue_true : wordValue ['T', 'r', 'u', 'e'] = some .true_ := by
  rw [wordValue, if_pos (by decide +kernel)]
theorem wordValue_false : wordValue ['F', 'a', 'l', 's', 'e'] = some .false_ := by
  rw [wordValue, if_neg (by decide +kernel), if_pos (by decide +kernel)]
theorem wordValue_none : wordValue ['N', 'o', 'n', 'e'] = some .none_ := by
  rw [wordValue, if_neg (by decide +kernel), if_neg (by decide +kernel), if_pos (by decide +kernel)]
theorem wordValue_ellipsis : wordValue ['E', 'l', 'l', 'i', 'p', 's', 'i', 's'] = some .ellipsis := by
  rw [wordValue, if_neg (by decide +kernel), if_neg (by decide +kernel), if_neg (by decide +kernel), if_pos (by decide +kernel)]

theorem join_one {sep a : Text} : join sep [a] = a := rfl
theorem join_more {sep a b : Text} {l : List Text} :
    join sep (a :: b :: l) = a ++ sep ++ join sep (b :: l) := rfl

theorem readTrees_last {n level : Nat} {t u r : Text} {x : Tree} (hs : StartsWell t)
    (hu : skipBlank u = t) (h : readTree ns n level t = some (x, ']' :: r)) :
    readTrees ns (n + 1) level u = some ([x], r) := by
  obtain ⟨c, t', rfl, -, -, h3, -⟩ := hs
  rw [readTrees, hu]
  dsimp only
  rw [if_neg h3, h]
  rfl

theorem readTrees_next {n level : Nat} {t u r r' : Text} {x : Tree} {xs : List Tree} (hs : StartsWell t)
    (hu : skipBlank u = t) (h : readTree ns n level t = some (x, ',' :: r))
    (ht : readTrees ns n level r = some (xs, r')) :
    readTrees ns (n + 1) level u = some (x :: xs, r') := by
  obtain ⟨c, t', rfl, -, -, h3, -⟩ := hs
  rw [readTrees, hu]
  dsimp only
  rw [if_neg h3, h]
  have hc : skipBlank (',' :: r) = ',' :: r := rfl
  dsimp only
  rw [hc]
  dsimp only
  rw [if_neg (by decide), if_pos rfl, ht]

/-- What one argument adds. -/
def addArgument (name : Option Text) (x : Tree) (given : List Tree × List (Text × Tree)) :
    List Tree × List (Text × Tree) :=
  match name with
  | none => (x :: given.1, given.2)
  | some name => (given.1, (name, x) :: given.2)

theorem readArguments_last {n level : Nat} {t u v r : Text} {x : Tree} {name : Option Text}
    (hs : StartsWell t) (hu : skipBlank u = t)
    (hk : readKeyword t = name.map (fun k => (k, v))) (hv : name = none → v = t)
    (h : readTree ns n level v = some (x, ')' :: r)) :
    readArguments ns (n + 1) level u =
      some ((addArgument name x ([], [])).1, (addArgument name x ([], [])).2, r) := by
  obtain ⟨c, t', rfl, -, -, -, h4⟩ := hs
  rw [readArguments, hu]
  dsimp only
  have hv' : ((readKeyword (c :: t')).map Prod.snd).getD (c :: t') = v := by
    rw [hk]
    cases name with
    | none => exact (hv rfl).symm
    | some k => rfl
  rw [if_neg h4, hv', h]
  have hc : skipBlank (')' :: r) = ')' :: r := rfl
  dsimp only
  rw [hc]
  dsimp only
  rw [if_pos rfl, hk]
  cases name <;> rfl

theorem readArguments_next {n level : Nat} {t u v r r' : Text} {x : Tree} {name : Option Text}
    {g : List Tree × List (Text × Tree)}
    (hs : StartsWell t) (hu : skipBlank u = t)
    (hk : readKeyword t = name.map (fun k => (k, v))) (hv : name = none → v = t)
    (h : readTree ns n level v = some (x, ',' :: r))
    (ht : readArguments ns n level r = some (g.1, g.2, r')) (hg : name.isSome = true → g.1 = []) :
    readArguments ns (n + 1) level u =
      some ((addArgument name x g).1, (addArgument name x g).2, r') := by
  obtain ⟨c, t', rfl, -, -, -, h4⟩ := hs
  rw [readArguments, hu]
  dsimp only
  have hv' : ((readKeyword (c :: t')).map Prod.snd).getD (c :: t') = v := by
    rw [hk]
    cases name with
    | none => exact (hv rfl).symm
    | some k => rfl
  rw [if_neg h4, hv', h]
  have hc : skipBlank (',' :: r) = ',' :: r := rfl
  dsimp only
  rw [hc]
  dsimp only
  rw [if_neg (by decide), if_pos rfl, ht, hk]
  cases name with
  | none => rfl
  | some k =>
    dsimp only [Option.map, addArgument]
    rw [hg rfl]
    rfl

variable (hp : NamedProperly ns) (hsub : ∀ cls fields, ns.lookup cls = some fields →
  classes.lookup cls = some fields) (he : ns.lookup "Ellipsis".toList = none)

include hp in
theorem lookup_constant {w : Text} (h : w = "True".toList ∨ w = "False".toList ∨ w = "None".toList) :
    ns.lookup w = none := by
  refine lookup_none_of_not_mem fun hm => ?_
  obtain ⟨e, hm', rfl⟩ := List.mem_map.1 hm
  obtain ⟨-, -, h1, h2, h3⟩ := (hp e hm').1
  rcases h with h | h | h <;> contradiction

theorem StartsWell.join {sep a : Text} (h : StartsWell a) (l : List Text) :
    StartsWell (Paradigm.join sep (a :: l)) := by
  cases l with
  | nil => exact h
  | cons b l =>
    rw [join_more, List.append_assoc]
    exact h.append _

include hp in
theorem skip_trees {xs : List Tree} (h : AllOfClasses ns xs) (r : Text) :
    skipBlank (join [',', ' '] (dumpTrees classes printable xs) ++ ']' :: r) =
      join [',', ' '] (dumpTrees classes printable xs) ++ ']' :: r := by
  cases xs with
  | nil => rfl
  | cons x xs =>
    rw [AllOfClasses] at h
    rw [dumpTrees]
    exact (((dumpTree_starts hp h.1).join _).append _).skip

theorem ofClasses_given {optional : Bool} {v : Tree}
    (h : OfClasses ns v ∨ (v = .missing ∧ optional = false)) (hl : ¬ leftOut optional v = true) :
    OfClasses ns v := by
  rcases h with h | ⟨rfl, -⟩
  · exact h
  · exact absurd rfl hl

include hp in
theorem skip_fields (fields : List (Text × Bool)) : ∀ (kw : Bool) (values : List Tree) (r : Text),
    (∀ field ∈ fields, IsWord field.1) → OfFields ns fields values →
    skipBlank (join [',', ' '] (dumpFields classes printable kw fields values) ++ ')' :: r) =
      join [',', ' '] (dumpFields classes printable kw fields values) ++ ')' :: r := by
  induction fields with
  | nil =>
    intro kw values r _ h
    cases values with
    | nil => rw [dumpFields]; rfl
    | cons v vs => rw [dumpFields]; rfl
  | cons f fs ih =>
    intro kw values r hw h
    cases values with
    | nil => rw [dumpFields]; rfl
    | cons v vs =>
      rw [OfFields] at h
      rw [dumpFields]
      split
      · exact ih true vs r (fun f hf => hw f (List.mem_cons_of_mem _ hf)) h.2
      · next hl =>
        refine ((StartsWell.join ?_ _).append _).skip
        split
        · exact (IsWord.starts (hw f List.mem_cons_self)).append _
        · exact dumpTree_starts hp (ofClasses_given h.1 hl)

/-- If all fields are left out there is nothing that cannot be read. -/
theorem allFinite_of_leftOut (fields : List (Text × Bool)) : ∀ (kw : Bool) (values : List Tree),
    OfFields ns fields values → dumpFields classes printable kw fields values = [] → ∀ level,
    AllFinite values ∧ nestings values ≤ level := by
  induction fields with
  | nil =>
    intro kw values h _ level
    cases values with
    | nil => rw [AllFinite, nestings]; exact ⟨trivial, Nat.zero_le _⟩
    | cons v vs => rw [OfFields] at h; exact h.elim; all_goals simp
  | cons f fs ih =>
    intro kw values h hd level
    cases values with
    | nil => rw [AllFinite, nestings]; exact ⟨trivial, Nat.zero_le _⟩
    | cons v vs =>
      rw [OfFields] at h
      rw [dumpFields] at hd
      split at hd
      · next hlo =>
        have hv : Finite v ∧ nesting v = 0 := by
          cases v with
          | missing => exact ⟨by rw [Finite]; trivial; all_goals simp, by rw [nesting]; all_goals simp⟩
          | none_ => exact ⟨by rw [Finite]; trivial; all_goals simp, by rw [nesting]; all_goals simp⟩
          | _ => cases hlo
        have := ih true vs h.2 hd level
        rw [AllFinite, nestings]
        exact ⟨⟨hv.1, this.1⟩, by omega⟩
      · cases hd

include hp hsub he

mutual

theorem readTree_dump {r : Text} (hr : Delim r) : ∀ (x : Tree) (n level : Nat), OfClasses ns x → Finite x →
    nesting x ≤ level → 2 * (dumpTree classes printable x).length ≤ n →
    readTree ns n level (dumpTree classes printable x ++ r) = some (x, r)
  | .node cls values, n, level, h, hf, hl, hn => by
    rw [OfClasses] at h
    rw [Finite] at hf
    rw [nesting] at hl
    obtain ⟨fields, hlook, h⟩ := h
    have hw := hp _ (lookup_mem hlook)
    rw [dumpTree, hsub _ _ hlook, Option.getD_some] at hn ⊢
    obtain ⟨level, rfl⟩ : ∃ k, level = k + 1 := ⟨level - 1, by omega⟩
    simp only [List.length_append, List.length_cons, List.length_nil] at hn
    obtain ⟨n, rfl⟩ : ∃ k, n = k + 1 := ⟨n - 1, by omega⟩
    have ha := readArguments_dump fields values false n level
      (join [',', ' '] (dumpFields classes printable false fields values) ++ ')' :: r) r hw.2.1 h hf
      (by omega) (skip_fields hp fields false values r hw.2.1 h) (by omega)
    have := readTree_call hw.1 hlook ha (construct_given hw.2.2 h)
    simpa using this
  | .list items, n, level, h, hf, hl, hn => by
    rw [OfClasses] at h
    rw [Finite] at hf
    rw [nesting] at hl
    rw [dumpTree] at hn ⊢
    obtain ⟨level, rfl⟩ : ∃ k, level = k + 1 := ⟨level - 1, by omega⟩
    simp only [List.length_append, List.length_cons, List.length_nil] at hn
    obtain ⟨n, rfl⟩ : ∃ k, n = k + 1 := ⟨n - 1, by omega⟩
    have ha := readTrees_dump items n level
      (join [',', ' '] (dumpTrees classes printable items) ++ ']' :: r) r h hf (by omega)
      (skip_trees hp h r) (by omega)
    rw [List.cons_append, readTree, if_neg (by decide), if_neg (by decide), if_neg (by decide),
      if_pos rfl, if_neg (by omega), Nat.add_sub_cancel, List.append_assoc]
    have e : ([']'] : Text) ++ r = ']' :: r := rfl
    rw [e, ha]
  | .str s, n, level, h, hf, hl, hn => by
    obtain ⟨q, u, hq, hs, hlen, hread⟩ := strRepr_eq printable s
    rw [dumpTree, hs] at hn ⊢
    simp only [List.length_append, List.length_cons, List.length_nil] at hn
    obtain ⟨n, rfl⟩ : ∃ k, n = k + 1 := ⟨n - 1, by omega⟩
    rw [List.cons_append, readTree, if_pos (show q = '\'' ∨ q = '"' from hq), List.append_assoc]
    have e : ([q] : Text) ++ r = q :: r := rfl
    rw [e, hread r (n + 1) (by omega)]
  | .bytes s, n, level, h, hf, hl, hn => by
    obtain ⟨q, u, hq, hs, hlen, hread⟩ := strRepr_eq (fun _ => false) s
    rw [OfClasses] at h
    rw [dumpTree, hs] at hn ⊢
    simp only [List.length_append, List.length_cons, List.length_nil] at hn
    obtain ⟨n, rfl⟩ : ∃ k, n = k + 1 := ⟨n - 1, by omega⟩
    rw [List.cons_append, List.cons_append, List.append_assoc, readTree_word (.inl (by decide))]
    have e : ([q] : Text) ++ r = q :: r := rfl
    have hd : ('b' :: q :: (u ++ q :: r)).dropWhile isWordChar = q :: (u ++ q :: r) := by
      rcases hq with rfl | rfl <;> rfl
    rw [e, hd]
    have hh : (q :: (u ++ q :: r)).head? = some '\'' ∨ (q :: (u ++ q :: r)).head? = some '"' := by
      rcases hq with rfl | rfl <;> simp
    split
    · next heq => cases heq; rcases hq with hq | hq <;> exact absurd hq (by decide)
    · rw [if_pos ⟨rfl, hh⟩]
      have hg : (q :: (u ++ q :: r)).head?.getD ' ' = q := rfl
      have hdr : (q :: (u ++ q :: r)).drop 1 = u ++ q :: r := rfl
      rw [hg, hdr, hread r (n + 1) (by omega)]
      dsimp only
      rw [if_pos h]
  | .int i, n, level, h, hf, hl, hn => by
    rw [dumpTree] at hn ⊢
    cases i with
    | ofNat k =>
      obtain ⟨c, u, hd, hc⟩ := digits_first k
      have e : intRepr (Int.ofNat k) = Nat.toDigits 10 k := rfl
      have hk := readShortNat_toDigits k r hr.noDigit
      rw [if_pos (by rw [Finite] at hf; exact hf)] at hk
      rw [e, hd] at hn ⊢
      rw [hd] at hk
      obtain ⟨n, rfl⟩ : ∃ j, n = j + 1 := ⟨n - 1, by simp at hn; omega⟩
      obtain ⟨h1, h2, -⟩ := digit_start hc
      rw [List.cons_append, readTree, if_neg h1, if_neg h2, if_pos hc, ← List.cons_append, hk]
      rfl
    | negSucc k =>
      have e : intRepr (Int.negSucc k) = '-' :: Nat.toDigits 10 (k + 1) := rfl
      have hk := readShortNat_toDigits (k + 1) r hr.noDigit
      rw [if_pos (by rw [Finite] at hf; exact hf)] at hk
      rw [e] at hn ⊢
      obtain ⟨n, rfl⟩ : ∃ j, n = j + 1 := ⟨n - 1, by simp at hn; omega⟩
      rw [List.cons_append, readTree, if_neg (by decide), if_pos rfl, hk]
      rfl
  | .true_, n, level, h, hf, hl, hn => by
    rw [dumpTree] at hn ⊢
    obtain ⟨n, rfl⟩ : ∃ j, n = j + 1 := ⟨n - 1, by simp at hn; omega⟩
    exact readTree_constant (.inl (by decide)) (by decide) wordValue_true (by decide)
      (lookup_constant hp (.inl (by decide))) hr n level
  | .false_, n, level, h, hf, hl, hn => by
    rw [dumpTree] at hn ⊢
    obtain ⟨n, rfl⟩ : ∃ j, n = j + 1 := ⟨n - 1, by simp at hn; omega⟩
    exact readTree_constant (.inl (by decide)) (by decide) wordValue_false (by decide)
      (lookup_constant hp (.inr (.inl (by decide)))) hr n level
  | .none_, n, level, h, hf, hl, hn => by
    rw [dumpTree] at hn ⊢
    obtain ⟨n, rfl⟩ : ∃ j, n = j + 1 := ⟨n - 1, by simp at hn; omega⟩
    exact readTree_constant (.inl (by decide)) (by decide) wordValue_none (by decide)
      (lookup_constant hp (.inr (.inr (by decide)))) hr n level
  | .ellipsis, n, level, h, hf, hl, hn => by
    rw [dumpTree] at hn ⊢
    obtain ⟨n, rfl⟩ : ∃ j, n = j + 1 := ⟨n - 1, by simp at hn; omega⟩
    exact readTree_constant (.inl (by decide)) (by decide) wordValue_ellipsis (by decide) he hr n level
  | .infinity, n, level, h, hf, hl, hn => by rw [Finite] at hf; exact hf.elim
  | .missing, n, level, h, hf, hl, hn => by rw [OfClasses] at h; exact h.elim

theorem readTrees_dump : ∀ (xs : List Tree) (n level : Nat) (t r : Text), AllOfClasses ns xs →
    AllFinite xs → nestings xs ≤ level →
    skipBlank t = join [',', ' '] (dumpTrees classes printable xs) ++ ']' :: r →
    2 * (join [',', ' '] (dumpTrees classes printable xs)).length + 2 ≤ n →
    readTrees ns n level t = some (xs, r)
  | [], n, level, t, r, _, _, _, ht, hn => by
    obtain ⟨n, rfl⟩ : ∃ j, n = j + 1 := ⟨n - 1, by omega⟩
    rw [readTrees, ht]
    rfl
  | [x], n, level, t, r, h, hf, hl, ht, hn => by
    rw [AllOfClasses] at h
    rw [AllFinite] at hf
    rw [nestings] at hl
    rw [dumpTrees, dumpTrees, join_one] at ht hn
    obtain ⟨n, rfl⟩ : ∃ j, n = j + 1 := ⟨n - 1, by omega⟩
    exact readTrees_last ((dumpTree_starts hp h.1).append _) ht
      (readTree_dump (.square r) x n level h.1 hf.1 (by omega) (by omega))
  | x :: y :: xs, n, level, t, r, h, hf, hl, ht, hn => by
    rw [AllOfClasses] at h
    rw [AllFinite] at hf
    rw [nestings] at hl
    have hrest := readTrees_dump (y :: xs) (n - 1) level
      (' ' :: (join [',', ' '] (dumpTrees classes printable (y :: xs)) ++ ']' :: r)) r h.2 hf.2 (by omega)
      (by rw [skip_space]; exact skip_trees hp h.2 r)
    rw [dumpTrees, dumpTrees, join_more, ← dumpTrees] at ht hn
    simp only [List.append_assoc, List.cons_append, List.nil_append, List.length_append,
      List.length_cons, List.length_nil] at ht hn
    obtain ⟨n, rfl⟩ : ∃ j, n = j + 1 := ⟨n - 1, by omega⟩
    rw [Nat.add_sub_cancel] at hrest
    exact readTrees_next ((dumpTree_starts hp h.1).append _) ht
      (readTree_dump (.comma _) x n level h.1 hf.1 (by omega) (by omega)) (hrest (by omega))

theorem readArguments_dump : ∀ (fields : List (Text × Bool)) (values : List Tree) (kw : Bool)
    (n level : Nat) (t r : Text), (∀ field ∈ fields, IsWord field.1) → OfFields ns fields values →
    AllFinite values → nestings values ≤ level →
    skipBlank t = join [',', ' '] (dumpFields classes printable kw fields values) ++ ')' :: r →
    2 * (join [',', ' '] (dumpFields classes printable kw fields values)).length + 2 ≤ n →
    readArguments ns n level t = some ((given kw fields values).1, (given kw fields values).2, r)
  | [], [], kw, n, level, t, r, hw, h, hf, hl, ht, hn => by
    obtain ⟨n, rfl⟩ : ∃ j, n = j + 1 := ⟨n - 1, by omega⟩
    rw [dumpFields] at ht
    rw [readArguments, ht]
    rfl
  | _ :: _, [], kw, n, level, t, r, hw, h, hf, hl, ht, hn => by
    rw [OfFields] at h; exact h.elim; all_goals simp
  | [], _ :: _, kw, n, level, t, r, hw, h, hf, hl, ht, hn => by
    rw [OfFields] at h; exact h.elim; all_goals simp
  | field :: fields, v :: values, kw, n, level, t, r, hw, h, hf, hl, ht, hn => by
    rw [OfFields] at h
    rw [AllFinite] at hf
    rw [nestings] at hl
    rw [dumpFields] at ht hn
    have hw' : ∀ f ∈ fields, IsWord f.1 := fun f hf => hw f (List.mem_cons_of_mem _ hf)
    rw [given]
    by_cases hlo : leftOut field.2 v = true
    · rw [if_pos hlo] at ht hn ⊢
      exact readArguments_dump fields values true n level t r hw' h.2 hf.2 (by omega) ht hn
    · rw [if_neg hlo] at ht hn ⊢
      have hv := ofClasses_given h.1 hlo
      obtain ⟨n, rfl⟩ : ∃ j, n = j + 1 := ⟨n - 1, by omega⟩
      have hstart := dumpTree_starts (classes := classes) (printable := printable) hp hv
      cases hd : dumpFields classes printable kw fields values with
      | nil =>
        rw [hd, join_one] at ht hn
        have hg := given_nil fields kw values hd
        cases kw with
        | false =>
          rw [if_neg (by decide)] at ht hn ⊢
          rw [hg]
          exact readArguments_last (name := none) (hstart.append _) ht (readKeyword_dump hp hv (.round r))
            (fun _ => rfl) (readTree_dump (.round r) v n level hv hf.1 (by omega) (by omega))
        | true =>
          rw [if_pos rfl] at ht hn ⊢
          rw [hg]
          have hk := hw field List.mem_cons_self
          rw [List.append_assoc, List.cons_append] at ht
          rw [List.length_append, List.length_cons] at hn
          exact readArguments_last (name := some field.1) ((IsWord.starts hk).append _) ht
            (readKeyword_name hk _) (by intro h; cases h)
            (readTree_dump (.round r) v n level hv hf.1 (by omega) (by omega))
      | cons a l =>
        have hrest := readArguments_dump fields values kw n level
          (' ' :: (join [',', ' '] (dumpFields classes printable kw fields values) ++ ')' :: r)) r hw' h.2
          hf.2 (by omega) (by rw [skip_space]; exact skip_fields hp fields kw values r hw' h.2)
        rw [hd, join_more, List.append_assoc, List.append_assoc] at ht
        rw [hd, join_more] at hn
        rw [hd] at hrest
        simp only [List.length_append, List.length_cons, List.length_nil] at hn
        cases kw with
        | false =>
          rw [if_neg (by decide)] at ht hn ⊢
          exact readArguments_next (name := none) (hstart.append _) ht
            (readKeyword_dump hp hv (.comma _)) (fun _ => rfl)
            (readTree_dump (.comma _) v n level hv hf.1 (by omega) (by omega)) (hrest (by omega))
            (by intro h; cases h)
        | true =>
          rw [if_pos rfl] at ht hn ⊢
          have hk := hw field List.mem_cons_self
          rw [List.append_assoc, List.cons_append] at ht
          rw [List.length_append, List.length_cons] at hn
          exact readArguments_next (name := some field.1) (g := given true fields values)
            ((IsWord.starts hk).append _) ht
            (readKeyword_name hk _) (by intro h; cases h)
            (readTree_dump (.comma _) v n level hv hf.1 (by omega) (by omega)) (hrest (by omega))
            (fun _ => given_true fields values)

end

omit hp hsub he in
theorem readTrees_fail {n level : Nat} {t u : Text} (hs : StartsWell t) (hu : skipBlank u = t)
    (h : readTree ns n level t = none) : readTrees ns (n + 1) level u = none := by
  obtain ⟨c, t', rfl, -, -, h3, -⟩ := hs
  rw [readTrees, hu]
  dsimp only
  rw [if_neg h3, h]

omit hp hsub he in
theorem readTrees_fail_next {n level : Nat} {t u r : Text} {x : Tree} (hs : StartsWell t)
    (hu : skipBlank u = t) (h : readTree ns n level t = some (x, ',' :: r))
    (ht : readTrees ns n level r = none) : readTrees ns (n + 1) level u = none := by
  obtain ⟨c, t', rfl, -, -, h3, -⟩ := hs
  rw [readTrees, hu]
  dsimp only
  rw [if_neg h3, h]
  have hc : skipBlank (',' :: r) = ',' :: r := rfl
  dsimp only
  rw [hc]
  dsimp only
  rw [if_neg (by decide), if_pos rfl, ht]

omit hp hsub he in
theorem readArguments_fail {n level : Nat} {t u v : Text} {name : Option Text}
    (hs : StartsWell t) (hu : skipBlank u = t)
    (hk : readKeyword t = name.map (fun k => (k, v))) (hv : name = none → v = t)
    (h : readTree ns n level v = none) : readArguments ns (n + 1) level u = none := by
  obtain ⟨c, t', rfl, -, -, -, h4⟩ := hs
  rw [readArguments, hu]
  dsimp only
  have hv' : ((readKeyword (c :: t')).map Prod.snd).getD (c :: t') = v := by
    rw [hk]
    cases name with
    | none => exact (hv rfl).symm
    | some k => rfl
  rw [if_neg h4, hv', h]

omit hp hsub he in
theorem readArguments_fail_next {n level : Nat} {t u v r : Text} {x : Tree} {name : Option Text}
    (hs : StartsWell t) (hu : skipBlank u = t)
    (hk : readKeyword t = name.map (fun k => (k, v))) (hv : name = none → v = t)
    (h : readTree ns n level v = some (x, ',' :: r))
    (ht : readArguments ns n level r = none) : readArguments ns (n + 1) level u = none := by
  obtain ⟨c, t', rfl, -, -, -, h4⟩ := hs
  rw [readArguments, hu]
  dsimp only
  have hv' : ((readKeyword (c :: t')).map Prod.snd).getD (c :: t') = v := by
    rw [hk]
    cases name with
    | none => exact (hv rfl).symm
    | some k => rfl
  rw [if_neg h4, hv', h]
  have hc : skipBlank (',' :: r) = ',' :: r := rfl
  dsimp only
  rw [hc]
  dsimp only
  rw [if_neg (by decide), if_pos rfl, ht]

omit hp hsub he in
theorem readTree_call_fail {cls r : Text} (hw : IsWord cls) {n level : Nat}
    (ha : level ≠ 0 → readArguments ns n (level - 1) r = none) :
    readTree ns (n + 1) level (cls ++ '(' :: r) = none := by
  have hall := hw.2.1
  obtain ⟨⟨c, u, rfl, hc⟩, -⟩ := hw
  rw [List.cons_append, readTree_word hc]
  rw [← List.cons_append, dropWhile_word hall, takeWhile_word hall]
  have h1 : ('(' :: r).dropWhile isWordChar = '(' :: r := rfl
  have h2 : ('(' :: r).takeWhile isWordChar = [] := rfl
  rw [h1, h2, List.append_nil]
  simp only
  split
  · rfl
  · next hl =>
    rw [ha hl]
    cases List.lookup (c :: u) ns <;> rfl

omit hp hsub he in
theorem readTree_unknown {c : Char} {w r : Text} (hc : c.isAlpha = true ∨ c = '_')
    (hw : (c :: w).all isWordChar = true) (hv : wordValue (c :: w) = none) (hb : c ≠ 'b')
    (hr : Delim r) (n level : Nat) :
    readTree ns (n + 1) level (c :: w ++ r) = none := by
  rw [List.cons_append, readTree_word hc]
  rw [← List.cons_append, dropWhile_word hw, takeWhile_word hw, dropWhile_delim hr, takeWhile_delim hr,
    List.append_nil]
  have he : (match r with
      | '(' :: rest => some rest
      | _ => none) = none := by
    rcases hr with rfl | ⟨d, r, rfl, rfl | rfl | rfl⟩ <;> rfl
  split
  · simp at he
  · rw [if_neg (by simp [hb]), hv]
    simp

mutual

theorem readTree_refuses {r : Text} (hr : Delim r) : ∀ (x : Tree) (n level : Nat), OfClasses ns x →
    ¬ (Finite x ∧ nesting x ≤ level) → 2 * (dumpTree classes printable x).length ≤ n →
    readTree ns n level (dumpTree classes printable x ++ r) = none
  | .node cls values, n, level, h, hl, hn => by
    rw [OfClasses] at h
    rw [Finite, nesting] at hl
    obtain ⟨fields, hlook, h⟩ := h
    have hw := hp _ (lookup_mem hlook)
    rw [dumpTree, hsub _ _ hlook, Option.getD_some] at hn ⊢
    simp only [List.length_append, List.length_cons, List.length_nil] at hn
    obtain ⟨n, rfl⟩ : ∃ k, n = k + 1 := ⟨n - 1, by omega⟩
    have := readTree_call_fail (n := n) (level := level) (ns := ns) (r :=
      join [',', ' '] (dumpFields classes printable false fields values) ++ ')' :: r) hw.1 (fun hz =>
      readArguments_refuses fields values false n (level - 1) _ r hw.2.1 h
        (fun hc => hl ⟨hc.1, by omega⟩) (skip_fields hp fields false values r hw.2.1 h) (by omega))
    simpa using this
  | .list items, n, level, h, hl, hn => by
    rw [OfClasses] at h
    rw [Finite, nesting] at hl
    rw [dumpTree] at hn ⊢
    simp only [List.length_append, List.length_cons, List.length_nil] at hn
    obtain ⟨n, rfl⟩ : ∃ k, n = k + 1 := ⟨n - 1, by omega⟩
    rw [List.cons_append, readTree, if_neg (by decide), if_neg (by decide), if_neg (by decide),
      if_pos rfl, List.append_assoc]
    have e : ([']'] : Text) ++ r = ']' :: r := rfl
    split
    · rfl
    · rw [e, readTrees_refuses items n (level - 1) _ r h (fun hc => hl ⟨hc.1, by omega⟩)
        (skip_trees hp h r) (by omega)]
  | .infinity, n, level, h, hl, hn => by
    rw [dumpTree] at hn ⊢
    obtain ⟨n, rfl⟩ : ∃ j, n = j + 1 := ⟨n - 1, by simp at hn; omega⟩
    exact readTree_unknown (.inl (by decide)) (by decide)
      (by rw [wordValue, if_neg (by decide +kernel), if_neg (by decide +kernel),
        if_neg (by decide +kernel), if_neg (by decide +kernel)]) (by decide) hr n level
  | .missing, n, level, h, hl, hn => by rw [OfClasses] at h; exact h.elim
  | .str s, _, _, _, hl, _ => absurd ⟨by rw [Finite]; trivial; all_goals simp, by rw [nesting]; omega; all_goals simp⟩ hl
  | .bytes s, _, _, _, hl, _ => absurd ⟨by rw [Finite]; trivial; all_goals simp, by rw [nesting]; omega; all_goals simp⟩ hl
  | .int i, n, level, _, hl, hn => by
    rw [Finite] at hl
    have hl : ¬ i.natAbs < 10 ^ mostDigits := fun h => hl ⟨h, by rw [nesting]; omega; all_goals simp⟩
    rw [dumpTree] at hn ⊢
    cases i with
    | ofNat k =>
      obtain ⟨c, u, hd, hc⟩ := digits_first k
      have e : intRepr (Int.ofNat k) = Nat.toDigits 10 k := rfl
      have hk := readShortNat_toDigits k r hr.noDigit
      rw [if_neg (show ¬ k < 10 ^ mostDigits from hl)] at hk
      rw [e, hd] at hn ⊢
      rw [hd] at hk
      obtain ⟨n, rfl⟩ : ∃ j, n = j + 1 := ⟨n - 1, by simp at hn; omega⟩
      obtain ⟨h1, h2, -⟩ := digit_start hc
      rw [List.cons_append, readTree, if_neg h1, if_neg h2, if_pos hc, ← List.cons_append, hk]
    | negSucc k =>
      have e : intRepr (Int.negSucc k) = '-' :: Nat.toDigits 10 (k + 1) := rfl
      have hk := readShortNat_toDigits (k + 1) r hr.noDigit
      rw [if_neg (show ¬ k + 1 < 10 ^ mostDigits from hl)] at hk
      rw [e] at hn ⊢
      obtain ⟨n, rfl⟩ : ∃ j, n = j + 1 := ⟨n - 1, by simp at hn; omega⟩
      rw [List.cons_append, readTree, if_neg (by decide), if_pos rfl, hk]
  | .true_, _, _, _, hl, _ => absurd ⟨by rw [Finite]; trivial; all_goals simp, by rw [nesting]; omega; all_goals simp⟩ hl
  | .false_, _, _, _, hl, _ => absurd ⟨by rw [Finite]; trivial; all_goals simp, by rw [nesting]; omega; all_goals simp⟩ hl
  | .none_, _, _, _, hl, _ => absurd ⟨by rw [Finite]; trivial; all_goals simp, by rw [nesting]; omega; all_goals simp⟩ hl
  | .ellipsis, _, _, _, hl, _ => absurd ⟨by rw [Finite]; trivial; all_goals simp, by rw [nesting]; omega; all_goals simp⟩ hl

theorem readTrees_refuses : ∀ (xs : List Tree) (n level : Nat) (t r : Text), AllOfClasses ns xs →
    ¬ (AllFinite xs ∧ nestings xs ≤ level) →
    skipBlank t = join [',', ' '] (dumpTrees classes printable xs) ++ ']' :: r →
    2 * (join [',', ' '] (dumpTrees classes printable xs)).length + 2 ≤ n →
    readTrees ns n level t = none
  | [], n, level, t, r, _, hl, ht, hn => by
    rw [AllFinite, nestings] at hl
    exact absurd ⟨trivial, Nat.zero_le _⟩ hl
  | [x], n, level, t, r, h, hl, ht, hn => by
    rw [AllOfClasses] at h
    rw [AllFinite, AllFinite, nestings, nestings] at hl
    rw [dumpTrees, dumpTrees, join_one] at ht hn
    obtain ⟨n, rfl⟩ : ∃ j, n = j + 1 := ⟨n - 1, by omega⟩
    exact readTrees_fail ((dumpTree_starts hp h.1).append _) ht
      (readTree_refuses (.square r) x n level h.1 (fun hc => hl ⟨⟨hc.1, trivial⟩, by omega⟩) (by omega))
  | x :: y :: xs, n, level, t, r, h, hl, ht, hn => by
    rw [AllOfClasses] at h
    rw [AllFinite, nestings] at hl
    have hrest := readTrees_refuses (y :: xs) (n - 1) level
      (' ' :: (join [',', ' '] (dumpTrees classes printable (y :: xs)) ++ ']' :: r)) r h.2
    rw [dumpTrees, dumpTrees, join_more, ← dumpTrees] at ht hn
    simp only [List.append_assoc, List.cons_append, List.nil_append, List.length_append,
      List.length_cons, List.length_nil] at ht hn
    obtain ⟨n, rfl⟩ : ∃ j, n = j + 1 := ⟨n - 1, by omega⟩
    rw [Nat.add_sub_cancel] at hrest
    by_cases hx : Finite x ∧ nesting x ≤ level
    · exact readTrees_fail_next ((dumpTree_starts hp h.1).append _) ht
        (readTree_dump hp hsub he (.comma _) x n level h.1 hx.1 hx.2 (by omega))
        (hrest (fun hc => hl ⟨⟨hx.1, hc.1⟩, by omega⟩)
          (by rw [skip_space]; exact skip_trees hp h.2 r) (by omega))
    · exact readTrees_fail ((dumpTree_starts hp h.1).append _) ht
        (readTree_refuses (.comma _) x n level h.1 hx (by omega))

theorem readArguments_refuses : ∀ (fields : List (Text × Bool)) (values : List Tree) (kw : Bool)
    (n level : Nat) (t r : Text), (∀ field ∈ fields, IsWord field.1) → OfFields ns fields values →
    ¬ (AllFinite values ∧ nestings values ≤ level) →
    skipBlank t = join [',', ' '] (dumpFields classes printable kw fields values) ++ ')' :: r →
    2 * (join [',', ' '] (dumpFields classes printable kw fields values)).length + 2 ≤ n →
    readArguments ns n level t = none
  | fields, [], kw, n, level, t, r, hw, h, hl, ht, hn => by
    rw [AllFinite, nestings] at hl
    exact absurd ⟨trivial, Nat.zero_le _⟩ hl
  | [], _ :: _, kw, n, level, t, r, hw, h, hl, ht, hn => by
    rw [OfFields] at h; exact h.elim; all_goals simp
  | field :: fields, v :: values, kw, n, level, t, r, hw, h, hl, ht, hn => by
    rw [OfFields] at h
    rw [AllFinite, nestings] at hl
    rw [dumpFields] at ht hn
    have hw' : ∀ f ∈ fields, IsWord f.1 := fun f hf => hw f (List.mem_cons_of_mem _ hf)
    by_cases hlo : leftOut field.2 v = true
    · rw [if_pos hlo] at ht hn
      have hv : Finite v ∧ nesting v = 0 := by
        cases v with
        | missing => exact ⟨by rw [Finite]; trivial; all_goals simp, by rw [nesting]; all_goals simp⟩
        | none_ => exact ⟨by rw [Finite]; trivial; all_goals simp, by rw [nesting]; all_goals simp⟩
        | _ => cases hlo
      exact readArguments_refuses fields values true n level t r hw' h.2
        (fun hc => hl ⟨⟨hv.1, hc.1⟩, by omega⟩) ht hn
    · rw [if_neg hlo] at ht hn
      have hv := ofClasses_given h.1 hlo
      obtain ⟨n, rfl⟩ : ∃ j, n = j + 1 := ⟨n - 1, by omega⟩
      have hstart := dumpTree_starts (classes := classes) (printable := printable) hp hv
      have hk := hw field List.mem_cons_self
      cases hd : dumpFields classes printable kw fields values with
      | nil =>
        rw [hd, join_one] at ht hn
        have hrest : Finite v ∧ nesting v ≤ level → AllFinite values ∧ nestings values ≤ level :=
          fun _ => allFinite_of_leftOut fields kw values h.2 hd level
        have hbad : ¬ (Finite v ∧ nesting v ≤ level) :=
          fun hc => hl ⟨⟨hc.1, (hrest hc).1⟩, by have := (hrest hc).2; omega⟩
        cases kw with
        | false =>
          rw [if_neg (by decide)] at ht hn
          exact readArguments_fail (name := none) (hstart.append _) ht (readKeyword_dump hp hv (.round r))
            (fun _ => rfl) (readTree_refuses (.round r) v n level hv hbad (by omega))
        | true =>
          rw [if_pos rfl] at ht hn
          rw [List.append_assoc, List.cons_append] at ht
          rw [List.length_append, List.length_cons] at hn
          exact readArguments_fail (name := some field.1) ((IsWord.starts hk).append _) ht
            (readKeyword_name hk _) (by intro h; cases h)
            (readTree_refuses (.round r) v n level hv hbad (by omega))
      | cons a l =>
        have hrest := readArguments_refuses fields values kw n level
          (' ' :: (join [',', ' '] (dumpFields classes printable kw fields values) ++ ')' :: r)) r hw' h.2
        have hskip := skip_fields (classes := classes) (printable := printable) hp fields kw values r hw' h.2
        rw [hd, join_more, List.append_assoc, List.append_assoc] at ht
        rw [hd, join_more] at hn
        rw [hd] at hrest hskip
        simp only [List.length_append, List.length_cons, List.length_nil] at hn
        by_cases hx : Finite v ∧ nesting v ≤ level
        · have hrest' := hrest (fun hc => hl ⟨⟨hx.1, hc.1⟩, by omega⟩)
            (by rw [skip_space]; exact hskip) (by omega)
          cases kw with
          | false =>
            rw [if_neg (by decide)] at ht hn
            exact readArguments_fail_next (name := none) (hstart.append _) ht
              (readKeyword_dump hp hv (.comma _)) (fun _ => rfl)
              (readTree_dump hp hsub he (.comma _) v n level hv hx.1 hx.2 (by omega)) hrest'
          | true =>
            rw [if_pos rfl] at ht hn
            rw [List.append_assoc, List.cons_append] at ht
            rw [List.length_append, List.length_cons] at hn
            exact readArguments_fail_next (name := some field.1) ((IsWord.starts hk).append _) ht
              (readKeyword_name hk _) (by intro h; cases h)
              (readTree_dump hp hsub he (.comma _) v n level hv hx.1 hx.2 (by omega)) hrest'
        · cases kw with
          | false =>
            rw [if_neg (by decide)] at ht hn
            exact readArguments_fail (name := none) (hstart.append _) ht
              (readKeyword_dump hp hv (.comma _)) (fun _ => rfl)
              (readTree_refuses (.comma _) v n level hv hx (by omega))
          | true =>
            rw [if_pos rfl] at ht hn
            rw [List.append_assoc, List.cons_append] at ht
            rw [List.length_append, List.length_cons] at hn
            exact readArguments_fail (name := some field.1) ((IsWord.starts hk).append _) ht
              (readKeyword_name hk _) (by intro h; cases h)
              (readTree_refuses (.comma _) v n level hv hx (by omega))

end

end

theorem inUse_properly {classes : AstClasses} (h : NamedProperly classes) : NamedProperly (inUse classes) :=
  fun entry he => h entry (List.mem_filter.1 he).1

theorem lookup_dropped {β : Type} (w : Text) (l : List (Text × β)) :
    (l.filter fun entry => entry.1 ≠ w).lookup w = none := by
  refine lookup_none_of_not_mem fun hm => ?_
  obtain ⟨e, he, heq⟩ := List.mem_map.1 hm
  have := (List.mem_filter.1 he).2
  simp only [decide_eq_true_eq] at this
  exact this heq

theorem lookup_kept {β : Type} {w k : Text} {v : β} {l : List (Text × β)}
    (h : (l.filter fun entry => entry.1 ≠ w).lookup k = some v) : l.lookup k = some v := by
  have hne : k ≠ w := by
    intro e
    rw [e, lookup_dropped] at h
    cases h
  induction l with
  | nil => exact h
  | cons entry l ih =>
    obtain ⟨k', v'⟩ := entry
    rw [List.filter_cons] at h
    rw [List.lookup_cons]
    by_cases hk : k' = w
    · rw [if_neg (by simpa using hk)] at h
      have : (k == k') = false := by
        rw [beq_eq_false_iff_ne, hk]
        exact hne
      rw [this]
      exact ih h
    · rw [if_pos (by simpa using hk), List.lookup_cons] at h
      split at h
      · exact h
      · exact ih h

theorem inUse_ellipsis (classes : AstClasses) : (inUse classes).lookup "Ellipsis".toList = none :=
  lookup_dropped _ classes

theorem inUse_sub {classes : AstClasses} (cls : Text) (fields : List (Text × Bool))
    (h : (inUse classes).lookup cls = some fields) : classes.lookup cls = some fields :=
  lookup_kept h

theorem fromRaw_of {ns : AstClasses} {n level : Nat} {t : Text} {cls : Text} {values : List Tree}
    (h : readTree ns n level t = some (.node cls values, [])) :
    (match (match readTree ns n level t with
      | some (x, []) => some x
      | _ => none) with
    | some (.node cls values) => some (Tree.node cls values)
    | _ => none) = some (.node cls values) := by
  rw [h]

theorem fromRaw_error {ns : AstClasses} {n level : Nat} {t : Text}
    (h : readTree ns n level t = none) :
    (match (match readTree ns n level t with
      | some (x, []) => some x
      | _ => none) with
    | some (.node cls values) => some (Tree.node cls values)
    | _ => none) = none := by
  rw [h]

end Paradigm
