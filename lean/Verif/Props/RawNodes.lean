import Verif.Lemmas.RawNodes

/-!
# C91: stored syntax trees are read back
-/

namespace Paradigm.Props

open Spec

/-! ### Sample -/

/-- Some of the classes of `ast` in Python 3.11 (fields and whether they are optional). -/
def sampleAst : AstClasses :=
  [("Assign".toList, [("targets".toList, false), ("value".toList, false), ("type_comment".toList, true)]),
    ("AnnAssign".toList, [("target".toList, false), ("annotation".toList, false), ("value".toList, true),
      ("simple".toList, false)]),
    ("Name".toList, [("id".toList, false), ("ctx".toList, false)]),
    ("Constant".toList, [("value".toList, false), ("kind".toList, true)]),
    ("UnaryOp".toList, [("op".toList, false), ("operand".toList, false)]),
    ("Not".toList, []), ("Load".toList, []), ("Store".toList, []),
    ("Ellipsis".toList, [])]

theorem sampleAst_properly : NamedProperly sampleAst := by
  have hw : ∀ c w, (c.isAlpha = true) → (c :: w).all isWordChar = true → c :: w ≠ "True".toList →
      c :: w ≠ "False".toList → c :: w ≠ "None".toList → IsWord (c :: w) :=
    fun c w h1 h2 h3 h4 h5 => ⟨⟨c, w, rfl, .inl h1⟩, h2, h3, h4, h5⟩
  have hc : ∀ e ∈ sampleAst, ∀ w ∈ e.1 :: e.2.map Prod.fst, IsWord w := by
    intro e he w hm
    have hb : (sampleAst.all fun e => (e.1 :: e.2.map Prod.fst).all fun w =>
        match w with
        | [] => false
        | c :: w => c.isAlpha && (c :: w).all isWordChar && (c :: w != "True".toList) &&
          (c :: w != "False".toList) && (c :: w != "None".toList)) = true := by decide +kernel
    have := List.all_eq_true.1 (List.all_eq_true.1 hb e he) w hm
    cases w with
    | nil => cases this
    | cons c w =>
      simp only [Bool.and_eq_true, bne_iff_ne] at this
      exact hw c w this.1.1.1.1 this.1.1.1.2 this.1.1.2 this.1.2 this.2
  have hn : ∀ e ∈ sampleAst, (e.2.map Prod.fst).Nodup := by
    have : (sampleAst.all fun e => decide (e.2.map Prod.fst).Nodup) = true := by decide +kernel
    intro e he
    exact of_decide_eq_true (List.all_eq_true.1 this e he)
  intro e he
  exact ⟨hc e he _ List.mem_cons_self,
    fun f hf => hc e he _ (List.mem_cons_of_mem _ (List.mem_map_of_mem hf)), hn e he⟩

/-- `name: int`, where the optional value is left out and the next field is named. -/
def annotated (value : Tree) : Tree :=
  .node "AnnAssign".toList [.node "Name".toList [.str "x".toList, .node "Store".toList []],
    .node "Name".toList [.str "int".toList, .node "Load".toList []], value, .int 1]

/-- `x = value`. -/
def assigned (value : Tree) : Tree :=
  .node "Assign".toList [.list [.node "Name".toList [.str "x".toList, .node "Store".toList []]],
    .node "Constant".toList [value, .none_], .none_]

/-- `not not … x`. -/
def negated : Nat → Tree
  | 0 => .node "Name".toList [.str "x".toList, .node "Load".toList []]
  | n + 1 => .node "UnaryOp".toList [.node "Not".toList [], negated n]

/-! ### C91 -/

/-- **C91**, full statement: a syntax tree made of the classes of `ast` that are in use is read from the text
it is stored as. -/
def C91_statement : Prop :=
  ∀ (classes : AstClasses) (printable : Char → Bool) (cls : Text) (values : List Tree),
    NamedProperly classes → OfClasses (inUse classes) (.node cls values) →
    fromRaw classes (toRaw classes printable (.node cls values)) = some (.node cls values)

/-- **C91** holds for trees without infinite or too long numbers whose brackets are nested at most 200
times. -/
theorem C91_roundtrip_partial (classes : AstClasses) (printable : Char → Bool) (cls : Text)
    (values : List Tree) (hp : NamedProperly classes) (h : OfClasses (inUse classes) (.node cls values))
    (hf : Finite (.node cls values)) (hl : nesting (.node cls values) ≤ 200) :
    fromRaw classes (toRaw classes printable (.node cls values)) = some (.node cls values) := by
  have := readTree_dump (printable := printable) (inUse_properly hp) inUse_sub (inUse_ellipsis classes)
    (.inl rfl) _ (2 * (toRaw classes printable (.node cls values)).length + 2) 200 h hf hl
    (Nat.le_add_right _ 2)
  rw [List.append_nil] at this
  rw [fromRaw, evalText]
  exact fromRaw_of (show readTree (inUse classes) _ _ _ = _ from this)

/-- Other trees are not read back, nothing is read instead: there is an error. -/
theorem C91_error_partial (classes : AstClasses) (printable : Char → Bool) (cls : Text)
    (values : List Tree) (hp : NamedProperly classes) (h : OfClasses (inUse classes) (.node cls values))
    (hf : ¬ (Finite (.node cls values) ∧ nesting (.node cls values) ≤ 200)) :
    fromRaw classes (toRaw classes printable (.node cls values)) = none := by
  have := readTree_refuses (printable := printable) (inUse_properly hp) inUse_sub (inUse_ellipsis classes)
    (.inl rfl) _ (2 * (toRaw classes printable (.node cls values)).length + 2) 200 h hf
    (Nat.le_add_right _ 2)
  rw [List.append_nil] at this
  rw [fromRaw, evalText]
  exact fromRaw_error (show readTree (inUse classes) _ _ _ = _ from this)

theorem assigned_ofClasses {value : Tree} (h : OfClasses (inUse sampleAst) value) :
    OfClasses (inUse sampleAst) (assigned value) := by
  refine ⟨_, rfl, .inl ⟨⟨_, rfl, .inl trivial, .inl ⟨_, rfl, trivial⟩, trivial⟩, trivial⟩,
    .inl ⟨_, rfl, .inl h, .inl trivial, trivial⟩, .inl trivial, trivial⟩

theorem annotated_ofClasses {value : Tree} (h : OfClasses (inUse sampleAst) value) :
    OfClasses (inUse sampleAst) (annotated value) := by
  refine ⟨_, rfl, .inl ⟨_, rfl, .inl trivial, .inl ⟨_, rfl, trivial⟩, trivial⟩,
    .inl ⟨_, rfl, .inl trivial, .inl ⟨_, rfl, trivial⟩, trivial⟩, .inl h, .inl trivial, trivial⟩

theorem negated_ofClasses : ∀ n, OfClasses (inUse sampleAst) (negated n)
  | 0 => ⟨_, rfl, .inl trivial, .inl ⟨_, rfl, trivial⟩, trivial⟩
  | n + 1 => ⟨_, rfl, .inl ⟨_, rfl, trivial⟩, .inl (negated_ofClasses n), trivial⟩

theorem negated_nesting : ∀ n, nesting (negated n) = n + 2
  | 0 => rfl
  | n + 1 => by
    have := negated_nesting n
    simp only [negated, nesting, nestings, this]
    omega

/-- **C91** is false: `x = 1e999` is stored as `Assign([Name('x', Store())], Constant(inf))`. -/
theorem C91_refuted : ¬ C91_statement := by
  intro h
  have h1 := h sampleAst (fun _ => true) _ _ sampleAst_properly (assigned_ofClasses (value := .infinity) trivial)
  have h2 := C91_error_partial sampleAst (fun _ => true) _ _ sampleAst_properly
    (assigned_ofClasses (value := .infinity) trivial) (fun hf => hf.1.2.1.1)
  rw [h1] at h2
  cases h2

/-- It is false as well for expressions that are nested too deeply, e.g. `not not … x` with 199
negations. -/
theorem C91_nested_refuted : fromRaw sampleAst (toRaw sampleAst (fun _ => true) (negated 199)) = none :=
  C91_error_partial sampleAst (fun _ => true) _ _ sampleAst_properly (negated_ofClasses 199)
    (fun hf => absurd hf.2 (by have := negated_nesting 199; rw [negated] at this; rw [this]; omega))

theorem one_lt_limit : (1 : Int).natAbs < 10 ^ mostDigits :=
  Nat.lt_of_lt_of_le (by decide : 1 < 10 ^ 1)
    (Nat.pow_le_pow_right (n := 10) (i := 1) (by decide) (by decide))

/-- `x: int` -/
example : toRaw sampleAst (fun _ => true) (annotated .none_) =
    "AnnAssign(Name('x', Store()), Name('int', Load()), simple=1)".toList := by decide +kernel

/-- It is read back. -/
example : fromRaw sampleAst "AnnAssign(Name('x', Store()), Name('int', Load()), simple=1)".toList =
    some (annotated .none_) := by
  have := C91_roundtrip_partial sampleAst (fun _ => true) _ _ sampleAst_properly
    (annotated_ofClasses (value := .none_) trivial) ⟨⟨trivial, trivial, trivial⟩,
      ⟨trivial, trivial, trivial⟩, trivial, one_lt_limit, trivial⟩ (by decide)
  have e : toRaw sampleAst (fun _ => true) (annotated .none_) =
    "AnnAssign(Name('x', Store()), Name('int', Load()), simple=1)".toList := by decide +kernel
  rw [← e]
  exact this

/-- `x = ...` is stored with a name that has to be the one of `builtins`. -/
example : toRaw sampleAst (fun _ => true) (assigned .ellipsis) =
    "Assign([Name('x', Store())], Constant(Ellipsis))".toList := by decide +kernel

example : fromRaw sampleAst (toRaw sampleAst (fun _ => true) (assigned .ellipsis)) =
    some (assigned .ellipsis) :=
  C91_roundtrip_partial sampleAst (fun _ => true) _ _ sampleAst_properly
    (assigned_ofClasses (value := .ellipsis) trivial)
    ⟨⟨⟨trivial, trivial, trivial⟩, trivial⟩, ⟨trivial, trivial, trivial⟩, trivial, trivial⟩ (by decide)

/-- 198 negations are not too many. -/
example : nesting (negated 198) ≤ 200 := by rw [negated_nesting]; omega

end Paradigm.Props
