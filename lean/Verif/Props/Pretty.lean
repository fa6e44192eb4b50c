import Verif.Lemmas.PrettySame
import Verif.Lemmas.Limits

/-!
# C51, C74: the text written for cached values
-/

namespace Paradigm.Props

open Spec

/-- A table like the cached ones: paths to lists of paths, with texts that need escapes and a number. -/
def sampleTable : Data :=
  .dict [(.tuple [.str ['t', 'y'], .str ['\'', 'n']], .list [.tuple [.str ['\n', '"', '\'']], .tuple []]),
    (.tuple [], .dict [(.str ['é'], .int (-12)), (.int 0, .set [.int 2, .int 1])])]

theorem sampleTable_proper : Proper sampleTable := by
  unfold sampleTable
  refine .dict ?_ ?_ ?_ ?_
  · simp only [List.forall_mem_cons, List.not_mem_nil, false_implies, implies_true, and_true]
    refine ⟨.tuple ?_, .tuple ?_⟩ <;> simp [Proper.str]
  · simp only [List.forall_mem_cons, List.not_mem_nil, false_implies, implies_true, and_true]
    refine ⟨.list ?_, .dict ?_ ?_ ?_ ?_⟩
    · simp only [List.forall_mem_cons, List.not_mem_nil, false_implies, implies_true, and_true]
      refine ⟨.tuple ?_, .tuple ?_⟩ <;> simp [Proper.str]
    · simp [Proper.str, Proper.int]
    · simp only [List.forall_mem_cons, List.not_mem_nil, false_implies, implies_true, and_true]
      exact ⟨.int, .set (by simp [Proper.int]) (by simp [hashable]) (by simp)⟩
    · simp [hashable]
    · simp
  · simp [hashable, hashables]
  · simp

/-! ### C51 -/

/-- **C51**: evaluating the text written for a value gives back an equal value, whatever the indent,
the depth and the characters that are printed as they are. -/
def C51_statement : Prop :=
  ∀ (printable : Char → Bool) (indent depth : Nat) (v : Data), Proper v →
    ∃ v', evaluate (reprFrom printable indent depth v) = some v' ∧ Equal v v'

/-- A list within lists. -/
def deepList : Nat → Data
  | 0 => .list []
  | n + 1 => .list [deepList n]

theorem bracketsOf_deepList : ∀ n, bracketsOf (deepList n) = n + 1
  | 0 => rfl
  | n + 1 => by simp [deepList, bracketsOf, bracketsIn, bracketsOf_deepList n]

theorem deepList_proper : ∀ n, Proper (deepList n)
  | 0 => .list (by simp)
  | n + 1 => .list (by simpa using deepList_proper n)

/-- **C51** for values with at most 200 nested brackets and numbers of at most 4300 digits, as are the
cached tables. Missing: other values, see `C51_limits`. -/
theorem C51_roundtrip_partial (printable : Char → Bool) (indent depth : Nat) (v : Data) (hv : Proper v)
    (hb : bracketsOf v ≤ 200) (hn : ShortNumbers v) :
    ∃ v', evaluate (reprFrom printable indent depth v) = some v' ∧ Equal v v' := by
  obtain ⟨v', h1, h2⟩ := reads_reprFrom printable indent v hv depth
  refine ⟨v', ?_, h1⟩
  have := h2.2 _ [] (Nat.le_refl _) (fun _ _ h => by cases h)
  unfold evaluate
  rw [List.append_nil] at this
  rw [this, if_pos ((withinLimits_reprFrom printable indent depth v).2 ⟨hb, hn⟩)]

/-- The text of any other value is rejected, and so not read as something else. -/
theorem C51_limits (printable : Char → Bool) (indent depth : Nat) (v : Data) (hv : Proper v) :
    evaluate (reprFrom printable indent depth v) = none ↔ 200 < bracketsOf v ∨ ¬ ShortNumbers v := by
  constructor
  · intro h
    by_cases hb : bracketsOf v ≤ 200
    · refine .inr fun hn => ?_
      obtain ⟨v', h', _⟩ := C51_roundtrip_partial printable indent depth v hv hb hn
      rw [h'] at h
      cases h
    · exact .inl (by omega)
  · intro h
    unfold evaluate
    refine if_neg fun hw => ?_
    obtain ⟨h1, h2⟩ := (withinLimits_reprFrom printable indent depth v).1 hw
    rcases h with h | h
    · exact absurd h1 (Nat.not_le.2 h)
    · exact h h2

/-- CPython rejects more than 200 nested brackets. -/
theorem C51_refuted : ¬ C51_statement := by
  intro h
  obtain ⟨v, hv, _⟩ := h (fun _ => true) 4 0 (deepList 200) (deepList_proper 200)
  rw [(C51_limits (fun _ => true) 4 0 (deepList 200) (deepList_proper 200)).2
    (.inl (Nat.lt_of_lt_of_eq (by decide) (bracketsOf_deepList 200).symm))] at hv
  cases hv

theorem shortNumbers_small {i : Int} (h : i.natAbs < 100) : ShortNumbers (.int i) :=
  .int (Nat.lt_of_lt_of_le h (Nat.pow_le_pow_right (n := 10) (i := 2) (by decide) (by decide)))

theorem sampleTable_short : ShortNumbers sampleTable := by
  unfold sampleTable
  refine .dict ?_ ?_
  · simp only [List.forall_mem_cons, List.not_mem_nil, false_implies, implies_true, and_true]
    refine ⟨.tuple ?_, .tuple ?_⟩ <;> simp [ShortNumbers.str]
  · simp only [List.forall_mem_cons, List.not_mem_nil, false_implies, implies_true, and_true]
    refine ⟨.list ?_, .dict ?_ ?_⟩
    · simp only [List.forall_mem_cons, List.not_mem_nil, false_implies, implies_true, and_true]
      refine ⟨.tuple ?_, .tuple ?_⟩ <;> simp [ShortNumbers.str]
    · simp only [List.forall_mem_cons, List.not_mem_nil, false_implies, implies_true, and_true]
      exact ⟨.str, shortNumbers_small (by decide)⟩
    · simp only [List.forall_mem_cons, List.not_mem_nil, false_implies, implies_true, and_true]
      refine ⟨shortNumbers_small (by decide), .set ?_⟩
      simp only [List.forall_mem_cons, List.not_mem_nil, false_implies, implies_true, and_true]
      exact ⟨shortNumbers_small (by decide), shortNumbers_small (by decide)⟩

/-- The hypotheses of `C51_roundtrip_partial` hold for a nested table and for a list at the limit. -/
example : ∃ v', evaluate (reprFrom (fun _ => true) 4 0 sampleTable) = some v' ∧ Equal sampleTable v' :=
  C51_roundtrip_partial _ _ _ _ sampleTable_proper (by decide) sampleTable_short
example : ∃ v', evaluate (reprFrom (fun _ => true) 4 0 (deepList 199)) = some v'
    ∧ Equal (deepList 199) v' :=
  C51_roundtrip_partial _ _ _ _ (deepList_proper 199) (Nat.le_of_eq (bracketsOf_deepList 199))
    (go 199)
where
  go : ∀ n, ShortNumbers (deepList n)
    | 0 => .list (by simp)
    | n + 1 => .list (by simpa using go n)

/-- A text that is not what was written does not evaluate to the value. -/
example : evaluate ['[', '1', ' ', '2', ']'] = none := rfl

/-! ### C74 -/

/-- **C74**: equal values are written as the same text. -/
def C74_statement : Prop :=
  ∀ (printable : Char → Bool) (indent depth : Nat) (v w : Data), Proper v → Proper w → Equal v w →
    reprFrom printable indent depth v = reprFrom printable indent depth w

/-- Sets are written in the order of iteration. -/
theorem C74_refuted : ¬ C74_statement := by
  intro h
  have := h (fun _ => true) 4 0 (.set [.int 1, .int 2]) (.set [.int 2, .int 1])
    (.set (by simp [Proper.int]) (by simp [hashable]) (by simp))
    (.set (by simp [Proper.int]) (by simp [hashable]) (by simp))
    (.set (List.Perm.swap _ _ _) (.cons .int (.cons .int .nil)))
  exact absurd this (by decide)

/-- **C74** without sets, as are the cached tables: the order of insertion into dictionaries does not
matter. Missing: sets. -/
theorem C74_equal_partial (printable : Char → Bool) (indent depth : Nat) (v w : Data) (hv : SetFree v)
    (h : Equal v w) : reprFrom printable indent depth v = reprFrom printable indent depth w :=
  reprFrom_equal printable indent v hv w depth h

/-- Two dictionaries with different orders of insertion, at both levels. -/
example : reprFrom (fun _ => true) 4 0 (.dict [(.int 1, .dict [(.str ['a'], .int 5), (.str ['b'], .int 6)]),
      (.int 2, .list [])])
    = reprFrom (fun _ => true) 4 0 (.dict [(.int 2, .list []),
      (.int 1, .dict [(.str ['b'], .int 6), (.str ['a'], .int 5)])]) := by
  refine C74_equal_partial _ _ _ _ _ (.dict (by simp [SetFree.int]) ?_)
    (.dict (List.Perm.swap _ _ _) (.cons .int (.cons .int .nil))
      (.cons (.list .nil) (.cons (.dict (List.Perm.swap _ _ _) (.cons .str (.cons .str .nil))
        (.cons .int (.cons .int .nil))) .nil)))
  simp only [List.forall_mem_cons, List.not_mem_nil, false_implies, implies_true, and_true]
  exact ⟨.dict (by simp [SetFree.str]) (by simp [SetFree.int]), .list (by simp)⟩

end Paradigm.Props
