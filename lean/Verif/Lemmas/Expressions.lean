import Verif.Spec.Expressions
import Verif.Lemmas.Literals
import Verif.Model.Evaluation
import Verif.Lemmas.Pointwise

/-!
# Lemmas about the texts of annotations
-/

namespace Paradigm

open Spec

/-! ### More steps change nothing -/

/-- What is read is read with more steps, too. -/
def AtMost {α : Type} (a b : Option α) : Prop := ∀ v, a = some v → b = some v

theorem AtMost.rfl {α : Type} {a : Option α} : AtMost a a := fun _ h => h

theorem AtMost.none {α : Type} {b : Option α} : AtMost none b := fun _ h => by cases h

theorem AtMost.bind {α β : Type} {a b : Option α} {f g : α → Option β} (h : AtMost a b)
    (hf : ∀ x, AtMost (f x) (g x)) : AtMost (a.bind f) (b.bind g) := by
  intro v hv
  cases ha : a with
  | none => rw [ha] at hv; cases hv
  | some x =>
    rw [ha] at hv
    rw [h x ha]
    exact hf x v hv

theorem read_succ : ∀ n : Nat,
    (∀ level t, AtMost (readAt n level t) (readAt (n + 1) level t)) ∧
    (∀ level e t, AtMost (readMore n level e t) (readMore (n + 1) level e t)) ∧
    (∀ c t, AtMost (readAtom n c t) (readAtom (n + 1) c t)) ∧
    (∀ e t, AtMost (readTrailers n e t) (readTrailers (n + 1) e t)) ∧
    (∀ c t, AtMost (readElements n c t) (readElements (n + 1) c t))
  | 0 => by
    refine ⟨fun _ _ => ?_, fun _ _ _ => ?_, fun _ _ => ?_, fun _ _ => ?_, fun _ _ => ?_⟩
    · rw [readAt]; exact .none
    · rw [readMore]; exact .none
    · rw [readAtom]; exact .none
    · rw [readTrailers]; exact .none
    · rw [readElements]; exact .none
  | n + 1 => by
    obtain ⟨h1, h2, h3, h4, h5⟩ := read_succ n
    refine ⟨fun level t => ?_, fun level e t => ?_, fun c t => ?_, fun e t => ?_, fun c t => ?_⟩
    · rw [readAt, readAt]
      split
      · exact (h1 _ _).bind fun _ => h2 _ _ _
      · split
        · exact .none
        · split
          · exact (h1 _ _).bind fun _ => .rfl
          · split
            · exact (h1 _ _).bind fun _ => .rfl
            · exact (h3 _ _).bind fun _ => h4 _ _
    · rw [readMore, readMore]
      split
      · exact .rfl
      · split
        · exact (h1 _ _).bind fun _ => h2 _ _ _
        · exact .rfl
    · rw [readAtom, readAtom]
      split
      · exact (h5 _ _).bind fun _ => .rfl
      · split
        · exact (h5 _ _).bind fun _ => .rfl
        · exact .rfl
    · rw [readTrailers, readTrailers]
      split
      · exact .rfl
      · split
        · split
          · exact h4 _ _
          · exact .none
        · split
          · refine (h5 _ _).bind fun x => ?_
            split
            · exact .none
            · exact h4 _ _
          · exact .rfl
    · rw [readElements, readElements]
      split
      · exact .none
      · split
        · exact .rfl
        · refine (h1 _ _).bind fun x => ?_
          split
          · exact .none
          · split
            · exact .rfl
            · split
              · exact (h5 _ _).bind fun _ => .rfl
              · exact .none

theorem of_succ {α : Type} {f : Nat → Option α} (h : ∀ n, AtMost (f n) (f (n + 1))) {n m : Nat} {v : α}
    (hv : f n = some v) (hm : n ≤ m) : f m = some v := by
  induction m with
  | zero => rw [Nat.le_zero.1 hm] at hv; exact hv
  | succ m ih =>
    rcases Nat.lt_or_eq_of_le hm with hm | rfl
    · exact h m v (ih (by omega))
    · exact hv

theorem readAt_le {n m level : Nat} {t : Text} {v : Expr × Text} (h : readAt n level t = some v) (hm : n ≤ m) :
    readAt m level t = some v := of_succ (f := fun n => readAt n level t) (fun n => (read_succ n).1 _ _) h hm

theorem readMore_le {n m level : Nat} {e : Expr} {t : Text} {v : Expr × Text}
    (h : readMore n level e t = some v) (hm : n ≤ m) : readMore m level e t = some v :=
  of_succ (f := fun n => readMore n level e t) (fun n => (read_succ n).2.1 _ _ _) h hm

theorem readAtom_le {n m : Nat} {c : Char} {t : Text} {v : Expr × Text} (h : readAtom n c t = some v)
    (hm : n ≤ m) : readAtom m c t = some v :=
  of_succ (f := fun n => readAtom n c t) (fun n => (read_succ n).2.2.1 _ _) h hm

theorem readTrailers_le {n m : Nat} {e : Expr} {t : Text} {v : Expr × Text}
    (h : readTrailers n e t = some v) (hm : n ≤ m) : readTrailers m e t = some v :=
  of_succ (f := fun n => readTrailers n e t) (fun n => (read_succ n).2.2.2.1 _ _) h hm

theorem readElements_le {n m : Nat} {c : Char} {t : Text} {v : List Expr × Bool × Text}
    (h : readElements n c t = some v) (hm : n ≤ m) : readElements m c t = some v :=
  of_succ (f := fun n => readElements n c t) (fun n => (read_succ n).2.2.2.2 _ _) h hm

/-! ### Texts of annotations -/

mutual

/-- The text of an annotation. -/
def shown : Expr → Text
  | .name id _ => id.toList
  | .attribute value attr _ => shown value ++ '.' :: attr.toList
  | .subscript value slice _ => shown value ++ '[' :: (shown slice ++ [']'])
  | .tuple elts _ => '(' :: (shownMany elts ++ if elts.length = 1 then [',', ')'] else [')'])
  | .list elts => '[' :: (shownMany elts ++ [']'])
  | .call .. => []
  | .constant .none => "None".toList
  | .constant (.bool true) => "True".toList
  | .constant (.bool false) => "False".toList
  | .constant (.int i) => Nat.toDigits 10 i.toNat
  | .constant _ => []
  | .binOp left op right =>
    shown left ++ ' ' :: operatorSign (bindingLevel (.binOp left op right)) :: ' ' :: shown right
  | .other tag [operand] =>
    (if tag = "UnaryOp USub" then '-' else '+') :: '(' :: (shown operand ++ [')'])
  | .other _ _ => []

/-- The texts with commas in between. -/
def shownMany : List Expr → Text
  | [] => []
  | e :: es => shown e ++ if es.isEmpty then [] else ',' :: ' ' :: shownMany es

end

theorem skipBlank_of {c : Char} {t : Text} (h1 : c ≠ ' ') (h2 : c ≠ '\n') : skipBlank (c :: t) = c :: t := by
  unfold skipBlank
  rw [List.dropWhile_cons_of_neg]
  simp [h1, h2]

theorem skipBlank_space (t : Text) : skipBlank (' ' :: t) = skipBlank t := by
  unfold skipBlank
  rw [List.dropWhile_cons_of_pos]
  rfl

/-- A first character of an expression. -/
structure Opens (c : Char) : Prop where
  blank : c ≠ ' '
  line : c ≠ '\n'
  round : c ≠ ')'
  square : c ≠ ']'

theorem Opens.of_word {c : Char} (h : isWordChar c = true) : Opens c := by
  refine ⟨?_, ?_, ?_, ?_⟩ <;> rintro rfl <;> revert h <;> decide

theorem isPythonName_cons {w : String} (h : isPythonName w = true) :
    ∃ c t, w.toList = c :: t ∧ isWordChar c = true ∧ c.isDigit = false ∧ (∀ d ∈ t, isWordChar d = true)
      ∧ w ∉ pythonKeywords := by
  unfold isPythonName at h
  split at h
  · cases h
  · rename_i c t heq
    simp only [Bool.and_eq_true, Bool.not_eq_true', List.all_eq_true, List.contains_eq_mem,
      decide_eq_false_iff_not] at h
    exact ⟨c, t, heq, h.1.1.1, h.1.1.2, h.1.2, h.2⟩

theorem isWordChar_of_isDigit {c : Char} (h : c.isDigit = true) : isWordChar c = true := by
  simp [isWordChar, Char.isAlphanum, h]

theorem toDigits_cons (k : Nat) : ∃ c t, Nat.toDigits 10 k = c :: t ∧ c.isDigit = true := by
  cases h : Nat.toDigits 10 k with
  | nil =>
    have := Nat.toDigits_ne_nil (b := 10) (n := k)
    exact absurd h this
  | cons c t =>
    have hc : c ∈ Nat.toDigits 10 k := by rw [h]; simp
    exact ⟨c, t, rfl, Nat.isDigit_of_mem_toDigits (by decide) (by decide) hc⟩

/-- The expressions whose texts are read back. -/
def Good (e : Expr) : Prop := IsAnnotation e ∧ WithoutParentheses e

/-- All are. -/
def AllGood (es : List Expr) : Prop := AreAnnotations es ∧ AllWithoutParentheses es

theorem AllGood.head {e : Expr} {es : List Expr} (h : AllGood (e :: es)) : Good e := by
  obtain ⟨h1, h2⟩ := h
  rw [AreAnnotations] at h1
  rw [AllWithoutParentheses] at h2
  exact ⟨h1.1, h2.1⟩

theorem AllGood.tail {e : Expr} {es : List Expr} (h : AllGood (e :: es)) : AllGood es := by
  obtain ⟨h1, h2⟩ := h
  rw [AreAnnotations] at h1
  rw [AllWithoutParentheses] at h2
  exact ⟨h1.2, h2.2⟩

theorem Good.attribute {v : Expr} {a : String} {l : Bool} (h : Good (.attribute v a l)) :
    Good v ∧ isPythonName a = true ∧ l = true ∧ bindingLevel v = 4 ∧ ∀ i, v ≠ .constant (.int i) := by
  obtain ⟨h1, h2⟩ := h
  rw [IsAnnotation] at h1
  rw [WithoutParentheses] at h2
  exact ⟨⟨h1.1, h2.1⟩, h1.2.1, h1.2.2, h2.2.1, h2.2.2⟩

theorem Good.subscript {v w : Expr} {l : Bool} (h : Good (.subscript v w l)) :
    Good v ∧ bindingLevel v = 4 ∧ Good w ∧ l = true := by
  obtain ⟨h1, h2⟩ := h
  rw [IsAnnotation] at h1
  rw [WithoutParentheses] at h2
  exact ⟨⟨h1.1, h2.1⟩, h2.2.1, ⟨h1.2.1, h2.2.2⟩, h1.2.2⟩

theorem Good.binOp {l r : Expr} {op : String} (h : Good (.binOp l op r)) :
    Good l ∧ Good r ∧ op ∈ ["BitOr", "BitXor", "BitAnd"] ∧
      bindingLevel (.binOp l op r) ≤ bindingLevel l ∧ bindingLevel (.binOp l op r) < bindingLevel r := by
  obtain ⟨h1, h2⟩ := h
  rw [IsAnnotation] at h1
  rw [WithoutParentheses] at h2
  exact ⟨⟨h1.1, h2.1⟩, ⟨h1.2.2, h2.2.2.1⟩, h1.2.1, h2.2.1, h2.2.2.2⟩

theorem Good.other {tag : String} {e : Expr} (h : Good (.other tag [e])) :
    (tag = "UnaryOp USub" ∨ tag = "UnaryOp UAdd") ∧ Good e := by
  obtain ⟨h1, h2⟩ := h
  rw [IsAnnotation] at h1
  rw [WithoutParentheses, AllWithoutParentheses] at h2
  exact ⟨h1.1, h1.2, h2.1⟩

theorem good_tuple {es : List Expr} {l : Bool} (h : Good (.tuple es l)) : AllGood es ∧ l = true := by
  obtain ⟨h1, h2⟩ := h
  rw [IsAnnotation] at h1
  rw [WithoutParentheses] at h2
  exact ⟨⟨h1.1, h2⟩, h1.2⟩

theorem good_list {es : List Expr} (h : Good (.list es)) : AllGood es := by
  obtain ⟨h1, h2⟩ := h
  rw [IsAnnotation] at h1
  rw [WithoutParentheses] at h2
  exact ⟨h1, h2⟩

/-- Texts begin like expressions. -/
theorem shown_opens : ∀ e : Expr, Good e → ∃ c t, shown e = c :: t ∧ Opens c
  | .name id l, h => by
    have h1 := h.1
    rw [IsAnnotation] at h1
    obtain ⟨c, t, e, hc, -⟩ := isPythonName_cons h1.1
    exact ⟨c, t, by rw [shown, e], .of_word hc⟩
  | .attribute v a l, h => by
    obtain ⟨c, t, e, hc⟩ := shown_opens v h.attribute.1
    exact ⟨c, _, by rw [shown, e]; rfl, hc⟩
  | .subscript v w l, h => by
    obtain ⟨c, t, e, hc⟩ := shown_opens v h.subscript.1
    exact ⟨c, _, by rw [shown, e]; rfl, hc⟩
  | .tuple es l, h => ⟨'(', _, by rw [shown], ⟨by decide, by decide, by decide, by decide⟩⟩
  | .list es, h => ⟨'[', _, by rw [shown], ⟨by decide, by decide, by decide, by decide⟩⟩
  | .call .., h => by
    have h1 := h.1
    rw [IsAnnotation] at h1
    exact h1.elim
  | .constant a, h => by
    obtain ⟨h1, h2⟩ := h
    rw [WithoutParentheses] at h2
    cases a with
    | int i =>
      obtain ⟨c, t, e, hc⟩ := toDigits_cons i.toNat
      exact ⟨c, t, by rw [shown, e], .of_word (isWordChar_of_isDigit hc)⟩
    | none => exact ⟨'N', _, by rw [shown]; rfl, .of_word (by decide)⟩
    | bool b =>
      cases b
      · exact ⟨'F', _, by rw [shown]; rfl, .of_word (by decide)⟩
      · exact ⟨'T', _, by rw [shown]; rfl, .of_word (by decide)⟩
    | ellipsis => exact absurd rfl h2.1
    | str s => exact absurd rfl (h2.2 s)
    | _ =>
      rw [IsAnnotation] at h1
      · simp at h1
      · simp
  | .binOp l op r, h => by
    obtain ⟨c, t, e, hc⟩ := shown_opens l h.binOp.1
    exact ⟨c, _, by rw [shown, e]; rfl, hc⟩
  | .other tag [e], h => by
    refine ⟨_, _, by rw [shown], ?_⟩
    split <;> exact ⟨by decide, by decide, by decide, by decide⟩
  | .other tag [], h => by
    have h1 := h.1
    rw [IsAnnotation] at h1
    · exact h1.elim
    · simp
  | .other tag (a :: b :: es), h => by
    have h1 := h.1
    rw [IsAnnotation] at h1
    · exact h1.elim
    · simp

/-! ### Reading texts of annotations -/

/-- The text does not go on with the word before it. -/
def NoWord (r : Text) : Prop := ∀ c u, r = c :: u → isWordChar c = false

/-- Nothing in the text belongs to an expression of the level before it. -/
structure Halts (level : Nat) (r : Text) : Prop where
  word : NoWord r
  stop : ∀ c u, skipBlank r = c :: u → c ≠ '.' ∧ c ≠ '[' ∧ ∀ k, level ≤ k → k < 3 → c ≠ operatorSign k

theorem Halts.up {p q : Nat} {r : Text} (h : Halts p r) (hq : p ≤ q) : Halts q r :=
  ⟨h.word, fun c u e => ⟨(h.stop c u e).1, (h.stop c u e).2.1, fun k hk => (h.stop c u e).2.2 k (by omega)⟩⟩

/-- The expression is read from its text. -/
def ReadsAt (e : Expr) (level : Nat) : Prop :=
  ∀ r, Halts level r → ∃ n, readAt n level (shown e ++ r) = some (e, r)

/-- Operators of the level may follow the expression. -/
def Continues (e : Expr) (level : Nat) : Prop :=
  ∀ r v, Halts (level + 1) r → (∃ n, readMore n level e r = some v) → ∃ n, readAt n level (shown e ++ r) = some v

/-- Attributes and subscripts may follow the expression. -/
def Trails (e : Expr) : Prop :=
  ∀ r v, NoWord r → ((∃ i, e = .constant (.int i)) → r.head? ≠ some '.') →
    (∃ n, readTrailers n e r = some v) → ∃ n, readAt n 3 (shown e ++ r) = some v

theorem readTrailers_end {e : Expr} {r : Text} (h : Halts 3 r) : readTrailers 1 e r = some (e, r) := by
  rw [readTrailers]
  split
  · rfl
  · rename_i c u heq
    rw [if_neg (h.stop c u heq).1, if_neg (h.stop c u heq).2.1]

theorem readMore_end {e : Expr} {p : Nat} {r : Text} (hp : p < 3) (h : Halts p r) :
    readMore 1 p e r = some (e, r) := by
  rw [readMore]
  split
  · rfl
  · rename_i c u heq
    rw [if_neg ((h.stop c u heq).2.2 p (Nat.le_refl p) hp)]

theorem Halts.dot {p : Nat} {r : Text} (h : Halts p r) : r.head? ≠ some '.' := by
  intro hr
  cases r with
  | nil => cases hr
  | cons c u =>
    injection hr with hr
    subst hr
    exact (h.stop '.' u (skipBlank_of (by decide) (by decide))).1 rfl

theorem Trails.reads {e : Expr} (h : Trails e) : ReadsAt e 3 := fun r hr =>
  h r _ hr.word (fun _ => hr.dot) ⟨1, readTrailers_end hr⟩

theorem Continues.reads {e : Expr} {p : Nat} (hp : p < 3) (h : Continues e p) : ReadsAt e p := fun r hr =>
  h r _ (hr.up (Nat.le_succ p)) ⟨1, readMore_end hp hr⟩

theorem ReadsAt.continues {e : Expr} {p : Nat} (hp : p < 3) (h : ReadsAt e (p + 1)) : Continues e p := by
  intro r v hr ⟨n, hn⟩
  obtain ⟨m, hm⟩ := h r hr
  refine ⟨max n m + 1, ?_⟩
  rw [readAt, if_pos hp, readAt_le hm (Nat.le_max_right n m), Option.bind_some]
  exact readMore_le hn (Nat.le_max_left n m)

theorem ReadsAt.down {e : Expr} {p q : Nat} (h : ReadsAt e q) (hq : q ≤ 3) (hp : p ≤ q) : ReadsAt e p := by
  obtain ⟨k, rfl⟩ : ∃ k, q = p + k := ⟨q - p, by omega⟩
  induction k with
  | zero => exact h
  | succ k ih => exact ih (Continues.reads (by omega) (ReadsAt.continues (by omega) h)) (by omega) (by omega)

/-- What is shown for each expression. -/
structure ReadBack (e : Expr) : Prop where
  trails : bindingLevel e = 4 → Trails e
  reads : bindingLevel e = 3 → ReadsAt e 3
  continues : bindingLevel e < 3 → Continues e (bindingLevel e)

theorem ReadBack.at {e : Expr} (h : ReadBack e) {p : Nat} (hp : p ≤ bindingLevel e) (h3 : p ≤ 3) :
    ReadsAt e p := by
  by_cases h4 : bindingLevel e < 3
  · exact ((h.continues h4).reads h4).down (by omega) hp
  · by_cases h5 : bindingLevel e = 3
    · exact (h.reads h5).down (Nat.le_refl 3) h3
    · have : bindingLevel e = 4 := by
        have : ∀ e, bindingLevel e ≤ 4 := by
          intro e
          cases e <;> simp only [bindingLevel] <;> (repeat' split) <;> omega
        have := this e
        omega
      exact (h.trails this).reads.down (Nat.le_refl 3) h3

theorem ReadBack.continues' {e : Expr} (h : ReadBack e) {p : Nat} (hp : p ≤ bindingLevel e) (h3 : p < 3) :
    Continues e p := by
  by_cases h4 : bindingLevel e = p
  · exact h4 ▸ h.continues (by omega)
  · exact (h.at (p := p + 1) (by omega) (by omega)).continues h3

theorem takeWhile_noWord {w r : Text} (hw : ∀ c ∈ w, isWordChar c = true) (hr : NoWord r) :
    (w ++ r).takeWhile isWordChar = w ∧ (w ++ r).dropWhile isWordChar = r := by
  induction w with
  | nil =>
    cases r with
    | nil => exact ⟨rfl, rfl⟩
    | cons c u =>
      have := hr c u rfl
      simp [this]
  | cons c w ih =>
    have h1 := hw c (by simp)
    have := ih (fun d hd => hw d (by simp [hd]))
    simp [h1, this]

/-- Words. -/
theorem readAtom_word {c : Char} {t r : Text} {e : Expr} (hc : isWordChar c = true) (hd : c.isDigit = false)
    (ht : ∀ d ∈ t, isWordChar d = true) (hr : NoWord r) (he : wordExpr (String.ofList (c :: t)) = some e) :
    readAtom 1 c (t ++ r) = some (e, r) := by
  have hw : ∀ d ∈ c :: t, isWordChar d = true := by
    intro d hd
    rcases List.mem_cons.1 hd with rfl | hd
    · exact hc
    · exact ht d hd
  obtain ⟨h1, h2⟩ := takeWhile_noWord hw hr
  rw [readAtom, if_neg (by rintro rfl; revert hc; decide), if_neg (by rintro rfl; revert hc; decide),
    if_neg (by rintro (rfl | rfl) <;> revert hc <;> decide), if_neg (by rintro rfl; revert hc; decide),
    if_neg (by simp [hd]), ← List.cons_append, h1, h2, he]
  rfl

/-- An atom followed by attributes and subscripts. -/
theorem readAt_atom {c : Char} {t u : Text} {e : Expr} {v : Expr × Text} (hb : Opens c) (h1 : c ≠ '-')
    (h2 : c ≠ '+') (ha : ∃ n, readAtom n c t = some (e, u)) (ht : ∃ n, readTrailers n e u = some v) :
    ∃ n, readAt n 3 (c :: t) = some v := by
  obtain ⟨n, hn⟩ := ha
  obtain ⟨m, hm⟩ := ht
  refine ⟨max n m + 1, ?_⟩
  rw [readAt, if_neg (by decide), skipBlank_of hb.blank hb.line]
  dsimp only
  rw [if_neg h1, if_neg h2, readAtom_le hn (Nat.le_max_left n m), Option.bind_some]
  exact readTrailers_le hm (Nat.le_max_right n m)

theorem trails_word {e : Expr} {w : Text} (hs : shown e = w) (hw : ∃ c t, w = c :: t ∧ isWordChar c = true
      ∧ c.isDigit = false ∧ ∀ d ∈ t, isWordChar d = true) (he : wordExpr (String.ofList w) = some e) :
    Trails e := by
  obtain ⟨c, t, rfl, hc, hd, ht⟩ := hw
  intro r v hr _ hv
  rw [hs]
  exact readAt_atom (.of_word hc) (by rintro rfl; revert hc; decide) (by rintro rfl; revert hc; decide)
    ⟨1, readAtom_word hc hd ht hr he⟩ hv

theorem wordExpr_name {w : String} (h : isPythonName w = true) : wordExpr w = some (.name w true) := by
  obtain ⟨_, _, _, _, _, _, hk⟩ := isPythonName_cons h
  unfold wordExpr
  rw [if_neg (by rintro rfl; exact hk (by decide)), if_neg (by rintro rfl; exact hk (by decide)),
    if_neg (by rintro rfl; exact hk (by decide)), if_pos h]

theorem trails_name {w : String} (h : isPythonName w = true) : Trails (.name w true) := by
  obtain ⟨c, t, e, hc, hd, ht, _⟩ := isPythonName_cons h
  refine trails_word (w := w.toList) (by rw [shown]) ⟨c, t, e, hc, hd, ht⟩ ?_
  rw [String.ofList_toList]
  exact wordExpr_name h

theorem trails_int {i : Int} (h : 0 ≤ i) : Trails (.constant (.int i)) := by
  intro r v hr hdot hv
  obtain ⟨c, t, e, hc⟩ := toDigits_cons i.toNat
  have hw := isWordChar_of_isDigit hc
  rw [shown, e]
  refine readAt_atom (e := .constant (.int i)) (u := r) (.of_word hw) (by rintro rfl; revert hc; decide)
    (by rintro rfl; revert hc; decide) ⟨1, ?_⟩ hv
  have hn : NoDigit r := by
    intro d u hd
    cases hdig : d.isDigit with
    | false => rfl
    | true => rw [← hr d u hd, isWordChar_of_isDigit hdig]
  have := readNat_toDigits i.toNat r hn
  rw [e] at this
  rw [readAtom, if_neg (by rintro rfl; revert hc; decide), if_neg (by rintro rfl; revert hc; decide),
    if_neg (by rintro (rfl | rfl) <;> revert hc <;> decide), if_neg (by rintro rfl; revert hc; decide),
    if_pos hc, show readNat (c :: t.append r) = some (i.toNat, r) from this, Option.bind_some]
  have hi : ((i.toNat : Nat) : Int) = i := Int.toNat_of_nonneg h
  cases r with
  | nil => simp only [hi]
  | cons d u =>
    dsimp only
    rw [if_neg, hi]
    rintro (rfl | h)
    · exact hdot ⟨i, rfl⟩ rfl
    · rw [hr d u rfl] at h
      cases h

theorem trails_attribute {v : Expr} {a : String} (hv : Trails v) (hi : ∀ i, v ≠ .constant (.int i))
    (ha : isPythonName a = true) : Trails (.attribute v a true) := by
  intro r x hr _ ⟨n, hn⟩
  obtain ⟨c, t, e, hc, _, ht, _⟩ := isPythonName_cons ha
  have hw : ∀ d ∈ a.toList, isWordChar d = true := by
    rw [e]
    intro d hd
    rcases List.mem_cons.1 hd with rfl | hd
    · exact hc
    · exact ht d hd
  obtain ⟨h1, h2⟩ := takeWhile_noWord hw hr
  rw [shown, List.append_assoc, List.cons_append]
  refine hv _ x ?_ (fun ⟨i, h⟩ => absurd h (hi i)) ⟨n + 1, ?_⟩
  · intro d u h
    cases h
    decide
  · rw [readTrailers, skipBlank_of (by decide) (by decide)]
    dsimp only
    rw [if_pos rfl, h1, h2, String.ofList_toList, if_pos ha]
    exact hn

theorem trails_subscript {v w : Expr} (hv : Trails v)
    (hw : ∀ r, ∃ n, readElements n ']' (shown w ++ ']' :: r) = some ([w], false, r)) :
    Trails (.subscript v w true) := by
  intro r x hr _ ⟨n, hn⟩
  obtain ⟨m, hm⟩ := hw r
  rw [shown, List.append_assoc, List.cons_append, List.append_assoc, List.singleton_append]
  refine hv _ x ?_ (fun _ => by simp) ⟨max n m + 1, ?_⟩
  · intro d u h
    cases h
    decide
  · rw [readTrailers, skipBlank_of (by decide) (by decide)]
    dsimp only
    rw [if_neg (by decide), if_pos rfl, readElements_le hm (Nat.le_max_right n m), Option.bind_some]
    exact readTrailers_le hn (Nat.le_max_left n m)

theorem readAt_space : ∀ (n p : Nat) (t : Text), readAt n p (' ' :: t) = readAt n p t
  | 0, _, _ => by rw [readAt, readAt]
  | n + 1, p, t => by
    rw [readAt, readAt]
    by_cases hp : p < 3
    · rw [if_pos hp, if_pos hp, readAt_space n (p + 1) t]
    · rw [if_neg hp, if_neg hp, skipBlank_space]

theorem continues_binOp {l r : Expr} {p : Nat} (hp : p < 3) (hl : Continues l p) (hr : ReadsAt r (p + 1))
    (s v) (hs : Halts (p + 1) s)
    (h : ∃ n, readMore n p (.binOp l (operatorClass p) r) s = some v) :
    ∃ n, readAt n p (shown l ++ ' ' :: operatorSign p :: ' ' :: (shown r ++ s)) = some v := by
  obtain ⟨n, hn⟩ := h
  obtain ⟨m, hm⟩ := hr s hs
  have hsign : operatorSign p ≠ ' ' ∧ operatorSign p ≠ '\n' ∧ operatorSign p ≠ '.' ∧ operatorSign p ≠ '[' ∧
      ∀ k, p + 1 ≤ k → k < 3 → operatorSign p ≠ operatorSign k := by
    match p, hp with
    | 0, _ => refine ⟨by decide, by decide, by decide, by decide, fun k h1 h2 => ?_⟩
              match k, h1, h2 with
              | 1, _, _ => decide
              | 2, _, _ => decide
    | 1, _ => refine ⟨by decide, by decide, by decide, by decide, fun k h1 h2 => ?_⟩
              match k, h1, h2 with
              | 2, _, _ => decide
    | 2, _ => exact ⟨by decide, by decide, by decide, by decide, fun k h1 h2 => by omega⟩
  refine hl _ v ⟨?_, ?_⟩ ⟨max n (m + 1) + 1, ?_⟩
  · intro c u h
    cases h
    decide
  · intro c u h
    rw [skipBlank_space, skipBlank_of hsign.1 hsign.2.1] at h
    cases h
    exact ⟨hsign.2.2.1, hsign.2.2.2.1, hsign.2.2.2.2⟩
  · rw [readMore, skipBlank_space, skipBlank_of hsign.1 hsign.2.1]
    dsimp only
    rw [if_pos rfl]
    rw [readAt_space, readAt_le hm (by omega), Option.bind_some]
    exact readMore_le hn (by omega)

theorem ends_close {c : Char} (hc : c = ')' ∨ c = ']' ∨ c = ',') (r : Text) : Halts 0 (c :: r) := by
  refine ⟨?_, ?_⟩
  · intro d u h
    cases h
    rcases hc with rfl | rfl | rfl <;> decide
  · intro d u h
    rw [skipBlank_of (by rcases hc with rfl | rfl | rfl <;> decide)
      (by rcases hc with rfl | rfl | rfl <;> decide)] at h
    cases h
    refine ⟨by rcases hc with rfl | rfl | rfl <;> decide, by rcases hc with rfl | rfl | rfl <;> decide, ?_⟩
    intro k _ hk
    match k, hk with
    | 0, _ => rcases hc with rfl | rfl | rfl <;> decide
    | 1, _ => rcases hc with rfl | rfl | rfl <;> decide
    | 2, _ => rcases hc with rfl | rfl | rfl <;> decide

theorem readElements_none {close : Char} (hc : close = ')' ∨ close = ']') (r : Text) :
    readElements 1 close (close :: r) = some ([], false, r) := by
  rw [readElements, skipBlank_of (by rcases hc with rfl | rfl <;> decide)
    (by rcases hc with rfl | rfl <;> decide)]
  dsimp only
  rw [if_pos rfl]

theorem readElements_space (n : Nat) (c : Char) (t : Text) :
    readElements n c (' ' :: t) = readElements n c t := by
  cases n with
  | zero => rw [readElements, readElements]
  | succ n => rw [readElements, readElements, skipBlank_space]

/-- The last element. -/
theorem readElements_last {close : Char} (hc : close = ')' ∨ close = ']') {e : Expr} (he : ReadsAt e 0)
    (ho : ∃ c t, shown e = c :: t ∧ Opens c) (r : Text) :
    ∃ n, readElements n close (shown e ++ close :: r) = some ([e], false, r) := by
  obtain ⟨n, hn⟩ := he (close :: r) (ends_close (by rcases hc with rfl | rfl <;> simp) r)
  obtain ⟨c, t, hs, ho⟩ := ho
  refine ⟨n + 1, ?_⟩
  rw [hs] at hn ⊢
  rw [List.cons_append] at hn ⊢
  rw [readElements, skipBlank_of ho.blank ho.line]
  dsimp only
  rw [if_neg (hc.elim (fun h => h ▸ ho.round) fun h => h ▸ ho.square), hn, Option.bind_some]
  dsimp only
  rw [skipBlank_of (by rcases hc with rfl | rfl <;> decide) (by rcases hc with rfl | rfl <;> decide)]
  dsimp only
  rw [if_pos rfl]

/-- Another element before a comma. -/
theorem readElements_more {close : Char} (hc : close = ')' ∨ close = ']') {e : Expr} (he : ReadsAt e 0)
    (ho : ∃ c t, shown e = c :: t ∧ Opens c) {t r : Text} {es : List Expr} {b : Bool}
    (h : ∃ n, readElements n close t = some (es, b, r)) :
    ∃ n, readElements n close (shown e ++ ',' :: t) = some (e :: es, b || es.isEmpty, r) := by
  obtain ⟨n, hn⟩ := he (',' :: t) (ends_close (by simp) t)
  obtain ⟨m, hm⟩ := h
  obtain ⟨c, u, hs, ho⟩ := ho
  refine ⟨max n m + 1, ?_⟩
  rw [hs] at hn ⊢
  rw [List.cons_append] at hn ⊢
  rw [readElements, skipBlank_of ho.blank ho.line]
  dsimp only
  rw [if_neg (hc.elim (fun h => h ▸ ho.round) fun h => h ▸ ho.square),
    readAt_le hn (Nat.le_max_left n m), Option.bind_some]
  dsimp only
  rw [skipBlank_of (by decide) (by decide)]
  dsimp only
  rw [if_neg (by rcases hc with rfl | rfl <;> decide), if_pos rfl,
    readElements_le hm (Nat.le_max_right n m)]
  rfl

theorem trails_brackets {e : Expr} {c : Char} {t : Text} (hs : shown e = c :: t) (hb : Opens c) (h1 : c ≠ '-')
    (h2 : c ≠ '+') (h : ∀ r, ∃ n, readAtom n c (t ++ r) = some (e, r)) : Trails e := by
  intro r v _ _ hv
  rw [hs, List.cons_append]
  exact readAt_atom hb h1 h2 (h r) hv

theorem trails_of_level {e : Expr} (h4 : bindingLevel e = 4) (h : Trails e) : ReadBack e :=
  ⟨fun _ => h, fun h3 => by omega, fun h3 => by omega⟩

mutual

/-- Texts of annotations without parentheses are read back. -/
theorem good_readable : ∀ e : Expr, Good e → ReadBack e
  | .name id l, h => by
    have h1 := h.1
    rw [IsAnnotation] at h1
    obtain ⟨h1, rfl⟩ := h1
    exact trails_of_level rfl (trails_name h1)
  | .attribute v a l, h => by
    obtain ⟨hv, ha, rfl, h4, hi⟩ := h.attribute
    exact trails_of_level rfl (trails_attribute ((good_readable v hv).trails h4) hi ha)
  | .subscript v w l, h => by
    obtain ⟨hv, h4, hw, rfl⟩ := h.subscript
    refine trails_of_level rfl (trails_subscript ((good_readable v hv).trails h4) fun r => ?_)
    exact readElements_last (.inr rfl) ((good_readable w hw).at (Nat.zero_le _) (Nat.zero_le _))
      (shown_opens w hw) r
  | .tuple es l, h => by
    obtain ⟨hes, rfl⟩ := good_tuple h
    refine trails_of_level rfl (trails_brackets (by rw [shown]) ⟨by decide, by decide, by decide, by decide⟩
      (by decide) (by decide) fun r => ?_)
    match es, hes with
    | [], _ =>
      refine ⟨2, ?_⟩
      rw [readAtom, if_pos rfl]
      simp only [shownMany, List.length_nil, Nat.zero_ne_one, if_false, List.nil_append, List.cons_append]
      rw [readElements_none (.inl rfl)]
      rfl
    | [e], h =>
      obtain ⟨n, hn⟩ := readElements_more (.inl rfl)
        ((good_readable e h.head).at (Nat.zero_le _) (Nat.zero_le _)) (shown_opens e h.head)
        ⟨1, readElements_none (.inl rfl) r⟩
      refine ⟨n + 1, ?_⟩
      rw [readAtom, if_pos rfl]
      simp only [shownMany, List.isEmpty_nil, if_true, List.append_nil, List.length_singleton,
        List.append_assoc, List.cons_append, List.nil_append]
      rw [hn]
      rfl
    | e :: e' :: es, h =>
      obtain ⟨n, hn⟩ := good_elements (.inl rfl) (e :: e' :: es) h (by simp) r
      refine ⟨n + 1, ?_⟩
      rw [readAtom, if_pos rfl, if_neg (by simp), List.append_assoc, List.singleton_append, hn]
      rfl
  | .list es, h => by
    have hes := good_list h
    refine trails_of_level rfl (trails_brackets (by rw [shown]) ⟨by decide, by decide, by decide, by decide⟩
      (by decide) (by decide) fun r => ?_)
    match es, hes with
    | [], _ =>
      refine ⟨2, ?_⟩
      rw [readAtom, if_neg (by decide), if_pos rfl]
      simp only [shownMany, List.nil_append, List.cons_append]
      rw [readElements_none (.inr rfl)]
      rfl
    | e :: es, h =>
      obtain ⟨n, hn⟩ := good_elements (.inr rfl) (e :: es) h (by simp) r
      refine ⟨n + 1, ?_⟩
      rw [readAtom, if_neg (by decide), if_pos rfl, List.append_assoc, List.singleton_append, hn]
      rfl
  | .call .., h => by
    have h1 := h.1
    rw [IsAnnotation] at h1
    exact h1.elim
  | .constant a, h => by
    obtain ⟨h1, h2⟩ := h
    rw [WithoutParentheses] at h2
    refine trails_of_level rfl ?_
    cases a with
    | int i => rw [IsAnnotation] at h1; exact trails_int h1
    | none =>
      exact trails_word (w := "None".toList) (by rw [shown])
        ⟨'N', "one".toList, rfl, by decide, by decide, by decide⟩ rfl
    | bool b =>
      cases b
      · exact trails_word (w := "False".toList) (by rw [shown])
          ⟨'F', "alse".toList, rfl, by decide, by decide, by decide⟩ rfl
      · exact trails_word (w := "True".toList) (by rw [shown])
          ⟨'T', "rue".toList, rfl, by decide, by decide, by decide⟩ rfl
    | ellipsis => exact absurd rfl h2.1
    | str s => exact absurd rfl (h2.2 s)
    | _ =>
      rw [IsAnnotation] at h1
      · simp at h1
      · simp
  | .binOp l op r, h => by
    obtain ⟨hl, hr, hop, h1, h2⟩ := h.binOp
    have hlevel : bindingLevel (.binOp l op r) < 3 ∧ operatorClass (bindingLevel (.binOp l op r)) = op := by
      simp only [List.mem_cons, List.not_mem_nil, or_false] at hop
      rcases hop with rfl | rfl | rfl <;> exact ⟨by simp [bindingLevel], rfl⟩
    refine ⟨fun h => by omega, fun h => by omega, fun _ s v hs hv => ?_⟩
    have := continues_binOp hlevel.1 ((good_readable l hl).continues' h1 hlevel.1)
      ((good_readable r hr).at (p := bindingLevel (.binOp l op r) + 1) (by omega) (by omega)) s v hs
    rw [hlevel.2] at this
    rw [shown, List.append_assoc]
    exact this hv
  | .other tag [e], h => by
    obtain ⟨htag, he⟩ := h.other
    refine ⟨fun h => (by simp [bindingLevel] at h), fun _ r hr => ?_, fun h => (by simp [bindingLevel] at h)⟩
    obtain ⟨n, hn⟩ := readElements_last (.inl rfl) ((good_readable e he).at (Nat.zero_le _) (Nat.zero_le _))
      (shown_opens e he) r
    have hin : ∃ n, readAt n 3 ('(' :: (shown e ++ ')' :: r)) = some (e, r) :=
      readAt_atom (e := e) (u := r) ⟨by decide, by decide, by decide, by decide⟩ (by decide) (by decide)
        ⟨n + 1, by rw [readAtom, if_pos rfl, hn]; rfl⟩ ⟨1, readTrailers_end hr⟩
    obtain ⟨m, hm⟩ := hin
    refine ⟨m + 1, ?_⟩
    rw [shown, List.cons_append, List.cons_append, List.append_assoc, List.singleton_append, readAt,
      if_neg (by decide)]
    rcases htag with rfl | rfl
    · rw [if_pos rfl, skipBlank_of (by decide) (by decide)]
      dsimp only
      rw [if_pos rfl, hm]
      rfl
    · rw [if_neg (by decide), skipBlank_of (by decide) (by decide)]
      dsimp only
      rw [if_neg (by decide), if_pos rfl, hm]
      rfl
  | .other tag [], h => by
    have h1 := h.1
    rw [IsAnnotation] at h1
    · exact h1.elim
    · simp
  | .other tag (a :: b :: es), h => by
    have h1 := h.1
    rw [IsAnnotation] at h1
    · exact h1.elim
    · simp

theorem good_elements {close : Char} (hc : close = ')' ∨ close = ']') : ∀ es : List Expr, AllGood es → es ≠ [] →
    ∀ r, ∃ n, readElements n close (shownMany es ++ close :: r) = some (es, false, r)
  | [], _, h, _ => absurd rfl h
  | [e], h, _, r => by
    have := readElements_last hc ((good_readable e h.head).at (Nat.zero_le _) (Nat.zero_le _))
      (shown_opens e h.head) r
    simpa only [shownMany, List.isEmpty_nil, if_true, List.append_nil] using this
  | e :: e' :: es, h, _, r => by
    obtain ⟨n, hn⟩ := good_elements hc (e' :: es) h.tail (by simp) r
    have := readElements_more hc ((good_readable e h.head).at (Nat.zero_le _) (Nat.zero_le _))
      (shown_opens e h.head) ⟨n, (readElements_space n close _).trans hn⟩
    rw [shownMany]
    simpa only [List.isEmpty_cons, Bool.false_eq_true, if_false, List.append_assoc, List.cons_append,
      Bool.or_false] using this

end

/-! ### The printer -/

theorem intercalate_shown : ∀ {es : List Expr} {ts : List String}, ts.map String.toList = es.map shown →
    [',', ' '].intercalate (ts.map String.toList) = shownMany es
  | [], ts, h => by rw [h, shownMany]; rfl
  | [e], ts, h => by rw [h, shownMany]; simp [List.intercalate]
  | e :: e' :: es, [], h => by simp at h
  | e :: e' :: es, [t], h => by simp at h
  | e :: e' :: es, t :: t' :: ts, h => by
    have h' : (t' :: ts).map String.toList = (e' :: es).map shown := (List.cons.inj h).2
    have := intercalate_shown h'
    rw [shownMany, if_neg (by simp), ← this, ← (List.cons.inj h).1]
    simp [List.intercalate]

theorem tupleText_shown {es : List Expr} {ts : List String} (hts : ts.map String.toList = es.map shown) :
    (tupleText ts).toList = '(' :: (shownMany es ++ if es.length = 1 then [',', ')'] else [')']) := by
  rw [← intercalate_shown hts]
  have hl : es.length = ts.length := by
    have := congrArg List.length hts
    simpa using this.symm
  rw [hl]
  match ts with
  | [] => rfl
  | [t] => simp [tupleText, List.intercalate]
  | t :: t' :: ts =>
    rw [tupleText, if_neg (by simp)]
    · simp [String.toList_intercalate]
    · simp

mutual

theorem toStr_shown (other : Atom → String) : ∀ e : Expr, Good e →
    toStr other e = .ok (String.ofList (shown e))
  | .name id l, h => by rw [toStr, shown, String.ofList_toList]
  | .attribute v a l, h => by
    rw [toStr, toStr_shown other v h.attribute.1, shown]
    dsimp only
    congr 1
    apply String.toList_inj.1
    simp
  | .subscript v w l, h => by
    rw [toStr, toStr_shown other v h.subscript.1, toStr_shown other w h.subscript.2.2.1, shown]
    dsimp only
    congr 1
    apply String.toList_inj.1
    simp
  | .tuple es l, h => by
    obtain ⟨ts, h1, h2⟩ := toStrs_shown other es (good_tuple h).1
    rw [toStr, h1, shown, ← tupleText_shown h2, String.ofList_toList]
  | .list es, h => by
    obtain ⟨ts, h1, h2⟩ := toStrs_shown other es (good_list h)
    rw [toStr, h1, shown, ← intercalate_shown h2]
    dsimp only
    congr 1
    apply String.toList_inj.1
    simp [String.toList_intercalate]
  | .call .., h => by
    have h1 := h.1
    rw [IsAnnotation] at h1
    exact h1.elim
  | .constant a, h => by
    obtain ⟨h1, h2⟩ := h
    rw [WithoutParentheses] at h2
    rw [toStr]
    cases a with
    | int i =>
      rw [IsAnnotation] at h1
      obtain ⟨k, rfl⟩ := Int.eq_ofNat_of_zero_le h1
      rw [shown, Atom.text]
      congr 1
    | none => rw [shown]; rfl
    | bool b => cases b <;> (rw [shown]; rfl)
    | ellipsis => exact absurd rfl h2.1
    | str s => exact absurd rfl (h2.2 s)
    | _ =>
      rw [IsAnnotation] at h1
      · simp at h1
      · simp
  | .binOp l op r, h => by
    obtain ⟨hl, hr, hop, h1, h2⟩ := h.binOp
    rw [toStr, toStr_shown other l hl, toStr_shown other r hr, shown]
    have : operatorText op = .ok (String.ofList [operatorSign (bindingLevel (.binOp l op r))]) := by
      simp only [List.mem_cons, List.not_mem_nil, or_false] at hop
      rcases hop with rfl | rfl | rfl <;> rfl
    rw [this]
    dsimp only
    congr 1
    apply String.toList_inj.1
    simp
  | .other tag [e], h => by
    obtain ⟨htag, he⟩ := h.other
    rw [toStr, if_pos htag, toStr_shown other e he, shown]
    dsimp only
    congr 1
    apply String.toList_inj.1
    split <;> simp
  | .other tag [], h => by
    have h1 := h.1
    rw [IsAnnotation] at h1
    · exact h1.elim
    · simp
  | .other tag (a :: b :: es), h => by
    have h1 := h.1
    rw [IsAnnotation] at h1
    · exact h1.elim
    · simp

theorem toStrs_shown (other : Atom → String) : ∀ es : List Expr, AllGood es →
    ∃ ts, toStrs other es = .ok ts ∧ ts.map String.toList = es.map shown
  | [], _ => ⟨[], by rw [toStrs], rfl⟩
  | e :: es, h => by
    obtain ⟨ts, h1, h2⟩ := toStrs_shown other es h.tail
    refine ⟨String.ofList (shown e) :: ts, ?_, ?_⟩
    · rw [toStrs, toStr_shown other e h.head, h1]
    · rw [List.map_cons, List.map_cons, h2, String.toList_ofList]

end

mutual

/-- Every annotation has a text. -/
theorem toStr_total (other : Atom → String) : ∀ e : Expr, IsAnnotation e → ∃ t, toStr other e = .ok t
  | .name id l, _ => ⟨_, by rw [toStr]⟩
  | .attribute v a l, h => by
    rw [IsAnnotation] at h
    obtain ⟨t, ht⟩ := toStr_total other v h.1
    exact ⟨_, by rw [toStr, ht]⟩
  | .subscript v w l, h => by
    rw [IsAnnotation] at h
    obtain ⟨t, ht⟩ := toStr_total other v h.1
    obtain ⟨u, hu⟩ := toStr_total other w h.2.1
    exact ⟨_, by rw [toStr, ht, hu]⟩
  | .tuple es l, h => by
    rw [IsAnnotation] at h
    obtain ⟨ts, hts⟩ := toStrs_total other es h.1
    exact ⟨_, by rw [toStr, hts]⟩
  | .list es, h => by
    rw [IsAnnotation] at h
    obtain ⟨ts, hts⟩ := toStrs_total other es h
    exact ⟨_, by rw [toStr, hts]⟩
  | .call .., h => by rw [IsAnnotation] at h; exact h.elim
  | .constant a, _ => ⟨_, by rw [toStr]⟩
  | .binOp l op r, h => by
    rw [IsAnnotation] at h
    obtain ⟨t, ht⟩ := toStr_total other l h.1
    obtain ⟨u, hu⟩ := toStr_total other r h.2.2
    have : ∃ o, operatorText op = .ok o := by
      have hop := h.2.1
      simp only [List.mem_cons, List.not_mem_nil, or_false] at hop
      rcases hop with rfl | rfl | rfl <;> exact ⟨_, rfl⟩
    obtain ⟨o, ho⟩ := this
    exact ⟨_, by rw [toStr, ht, hu, ho]⟩
  | .other tag [e], h => by
    rw [IsAnnotation] at h
    obtain ⟨t, ht⟩ := toStr_total other e h.2
    exact ⟨_, by rw [toStr, if_pos h.1, ht]⟩
  | .other tag [], h => by
    rw [IsAnnotation] at h
    · exact h.elim
    · simp
  | .other tag (a :: b :: es), h => by
    rw [IsAnnotation] at h
    · exact h.elim
    · simp

theorem toStrs_total (other : Atom → String) : ∀ es : List Expr, AreAnnotations es →
    ∃ ts, toStrs other es = .ok ts
  | [], _ => ⟨[], by rw [toStrs]⟩
  | e :: es, h => by
    rw [AreAnnotations] at h
    obtain ⟨t, ht⟩ := toStr_total other e h.1
    obtain ⟨ts, hts⟩ := toStrs_total other es h.2
    exact ⟨_, by rw [toStrs, ht, hts]⟩

end

/-! ### Functions -/

theorem lazyExpr_total {other : Atom → String} {a : Option Expr}
    (h : ∀ e, a = some e → ∃ t, toStr other e = .ok t) : ∃ b, lazyExpr other a = .ok b := by
  cases a with
  | none => exact ⟨none, rfl⟩
  | some e =>
    obtain ⟨t, ht⟩ := h e rfl
    exact ⟨_, by rw [lazyExpr, ht]⟩

theorem lazyArg_total {other : Atom → String} {a : Arg}
    (h : ∀ e, a.annotation = some e → ∃ t, toStr other e = .ok t) : ∃ b, lazyArg other a = .ok b := by
  obtain ⟨b, hb⟩ := lazyExpr_total h
  exact ⟨_, by unfold lazyArg; rw [hb]⟩

theorem lazyArgs_total {other : Atom → String} : ∀ {as : List Arg},
    (∀ a ∈ as, ∀ e, a.annotation = some e → ∃ t, toStr other e = .ok t) →
    ∃ bs, mapExcept (lazyArg other) as = .ok bs
  | [], _ => ⟨[], rfl⟩
  | a :: as, h => by
    obtain ⟨b, hb⟩ := lazyArg_total (h a (by simp))
    obtain ⟨bs, hbs⟩ := lazyArgs_total (as := as) fun a ha => h a (by simp [ha])
    exact ⟨b :: bs, by rw [mapExcept, hb, hbs]⟩

theorem lazyArgOption_total {other : Atom → String} {a : Option Arg}
    (h : ∀ x ∈ a.toList, ∀ e, x.annotation = some e → ∃ t, toStr other e = .ok t) :
    ∃ b, lazyArgOption other a = .ok b := by
  cases a with
  | none => exact ⟨none, rfl⟩
  | some a =>
    obtain ⟨b, hb⟩ := lazyArg_total (h a (by simp))
    exact ⟨_, by rw [lazyArgOption, hb]⟩

theorem lazyArgs_annotations {other : Atom → String} : ∀ {as bs : List Arg},
    mapExcept (lazyArg other) as = .ok bs →
    Pointwise (fun a b => lazyExpr other a = .ok b) (as.map Arg.annotation) (bs.map Arg.annotation)
  | [], bs, h => by cases h; exact trivial
  | a :: as, bs, h => by
    rw [mapExcept] at h
    cases ha : lazyArg other a with
    | error e => rw [ha] at h; cases h
    | ok b =>
      rw [ha] at h
      cases has : mapExcept (lazyArg other) as with
      | error e => rw [has] at h; cases h
      | ok bs' =>
        rw [has] at h
        cases h
        refine ⟨?_, lazyArgs_annotations has⟩
        unfold lazyArg at ha
        cases hx : lazyExpr other a.annotation with
        | error e => rw [hx] at ha; cases ha
        | ok x => rw [hx] at ha; cases ha; exact hx

theorem lazyArgOption_annotations {other : Atom → String} {a b : Option Arg}
    (h : lazyArgOption other a = .ok b) :
    Pointwise (fun a b => lazyExpr other a = .ok b) (a.toList.map Arg.annotation)
      (b.toList.map Arg.annotation) := by
  cases a with
  | none => cases h; exact trivial
  | some a =>
    rw [lazyArgOption] at h
    cases ha : lazyArg other a with
    | error e => rw [ha] at h; cases h
    | ok x =>
      rw [ha] at h
      cases h
      exact lazyArgs_annotations (as := [a]) (bs := [x]) (by rw [mapExcept, ha]; rfl)

theorem pointwise_imp_mem {α β : Type} {r s : α → β → Prop} : ∀ {as : List α} {bs : List β},
    Pointwise r as bs → (∀ a b, a ∈ as → r a b → s a b) → Pointwise s as bs
  | [], [], _, _ => trivial
  | a :: as, b :: bs, h, hs =>
    ⟨hs a b (by simp) h.1, pointwise_imp_mem h.2 fun a b ha => hs a b (by simp [ha])⟩
  | [], _ :: _, h, _ => h.elim
  | _ :: _, [], h, _ => h.elim

end Paradigm
