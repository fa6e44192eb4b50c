import Verif.Lemmas.Execution

/-!
# C55, C56: calling a function in a child process
-/

namespace Paradigm.Props

open Spec

/-! ### C56 -/

/-- **C56**: the caller gets what the function returned or raised, and is not blocked. -/
def C56_statement : Prop :=
  ∀ (transfer : ObjectId → Transfer) (child : ChildEnd),
    callInProcess transfer child ≠ .blocked
    ∧ (∀ v, child = .returned v → callInProcess transfer child = .returned v)
    ∧ (∀ e, e ≠ 0 → child = .raised e → callInProcess transfer child = .raised e)

/-- A result that cannot be pickled blocks the caller for ever. -/
theorem C56_refuted : ¬ C56_statement := fun h => (h (fun _ => .lost) (.returned 1)).1 rfl

/-- **C56** for results and exceptions that survive pickling. Missing: everything else, see
`C56_blocked_iff` and `C56_broken`. -/
theorem C56_outcome_partial (transfer : ObjectId → Transfer) (x : ObjectId)
    (hx : transfer x = .arrives x) :
    callInProcess transfer (.returned x) = .returned x
    ∧ (x ≠ 0 → callInProcess transfer (.raised x) = .raised x) := by
  unfold callInProcess putResultInQueue putPair
  by_cases h : x = 0 <;> simp [h, hx]

/-- Exactly when the caller is blocked. -/
theorem C56_blocked_iff (transfer : ObjectId → Transfer) (child : ChildEnd) :
    callInProcess transfer child = .blocked ↔
      (∃ x, x ≠ 0 ∧ (child = .returned x ∨ child = .raised x) ∧ transfer x = .lost)
      ∨ (∃ e, child = .escaped e) ∨ child = .killed := by
  constructor
  · intro h
    cases child with
    | returned v =>
      left
      by_cases h0 : v = 0
      · simp [callInProcess, putResultInQueue, putPair, h0] at h
      · refine ⟨v, h0, .inl rfl, ?_⟩
        cases hv : transfer v <;> simp [callInProcess, putResultInQueue, putPair, h0, hv] at h ⊢
    | raised v =>
      left
      by_cases h0 : v = 0
      · simp [callInProcess, putResultInQueue, putPair, h0] at h
      · refine ⟨v, h0, .inr rfl, ?_⟩
        cases hv : transfer v with
        | lost => rfl
        | broken e => simp [callInProcess, putResultInQueue, putPair, h0, hv] at h
        | arrives w =>
          by_cases hw : w = 0 <;> simp [callInProcess, putResultInQueue, putPair, h0, hv, hw] at h
    | escaped e => exact .inr (.inl ⟨e, rfl⟩)
    | killed => exact .inr (.inr rfl)
  · rintro (⟨x, h0, rfl | rfl, hx⟩ | ⟨e, rfl⟩ | rfl)
    · simp [callInProcess, putResultInQueue, putPair, h0, hx]
    · simp [callInProcess, putResultInQueue, putPair, h0, hx]
    · rfl
    · rfl

/-- What cannot be unpickled makes the call raise the error of `pickle.loads`, even when the function
returned. -/
theorem C56_broken (transfer : ObjectId → Transfer) (x e : ObjectId) (hx : x ≠ 0)
    (h : transfer x = .broken e) : callInProcess transfer (.returned x) = .raised e
    ∧ callInProcess transfer (.raised x) = .raised e := by
  simp [callInProcess, putResultInQueue, putPair, hx, h]

/-! ### C55 -/

/-- **C55**: when no call is going on, `__main__` is what it was before, whatever the interleaving.
Different calls have different locks. -/
def C55_statement : Prop :=
  ∀ (caller : Nat → Option ObjectId) (lock : Nat → Nat), (∀ i j, lock i = lock j → i = j) →
    ∀ m m' : Machine, Machine.Fresh m → Runs (CallStep caller lock) m m' → Machine.Quiet m' →
      m'.main = m.main

/-- Threads 0 and 1 call from modules 10 and 11, `__main__` is module 7. -/
def overlapStart : Machine := ⟨some 7, fun _ => .idle⟩

/-- The states in which the second call begins after the first has replaced `__main__`, and ends after
the first. -/
def overlapEnd : Machine :=
  let m := overlapStart.move 0 (some 7) .locked
  let m := m.move 0 m.main (.saved m.main)
  let m := m.move 0 (some 10) (.replaced (some 7))
  let m := m.move 1 m.main .locked
  let m := m.move 1 m.main (.saved m.main)
  let m := m.move 1 (some 11) (.replaced (some 10))
  let m := m.move 0 m.main (.ended (some 7) .returned)
  let m := m.move 0 (some 7) (.done .returned)
  let m := m.move 1 m.main (.ended (some 10) .returned)
  m.move 1 (some 10) (.done .returned)

theorem overlap_runs : Runs (CallStep (fun i => some (10 + i)) id) overlapStart overlapEnd := by
  refine .step (.step (.step (.step (.step (.step (.step (.step (.step (.step .refl
    (.acquire (i := 0) rfl ?_)) (.save (i := 0) rfl rfl)) (.replace (i := 0) rfl rfl))
    (.acquire (i := 1) rfl ?_)) (.save (i := 1) rfl rfl)) (.replace (i := 1) rfl rfl))
    (.body (i := 0) rfl (.inl rfl))) (.restore (i := 0) rfl)) (.body (i := 1) rfl (.inl rfl)))
    (.restore (i := 1) rfl)
  · intro j h
    cases h
    rfl
  · intro j h
    cases h
    rfl

/-- Two overlapping calls leave `__main__` replaced by the module of the first caller. -/
theorem C55_refuted : ¬ C55_statement := by
  intro h
  have := h _ _ (fun _ _ e => e) overlapStart overlapEnd (fun _ => rfl) overlap_runs (fun i => by
    simp only [overlapEnd, Machine.move]
    split
    · rfl
    · split
      · rfl
      · simp [*, overlapStart, Phase.active])
  cases this

/-- **C55** for calls that do not overlap, whatever their results and whether or not `__main__` was
there: it is restored, and no call ends with `KeyError`. Missing: overlapping calls. -/
theorem C55_exclusive_partial (caller : Nat → Option ObjectId) (lock : Nat → Nat) (m m' : Machine)
    (hm : Machine.Fresh m)
    (hr : Runs (fun a b => CallStep caller lock a b ∧ Machine.Exclusive b) m m') :
    (Machine.Quiet m' → m'.main = m.main) ∧ ∀ i, m'.phase i ≠ .done .keyError := by
  have h := (restorable_runs hm hr).2
  refine ⟨fun hq => h.untouched fun j s r => ⟨fun e => ?_, fun e => ?_⟩, h.noKeyError⟩
  all_goals have := hq j; rw [e] at this; cases this

/-- One lock shared by all calls would be enough. -/
theorem C55_shared_lock (caller : Nat → Option ObjectId) (lock : Nat → Nat)
    (hl : ∀ i j, lock i = lock j) (m m' : Machine) (hm : Machine.Fresh m)
    (hr : Runs (CallStep caller lock) m m') :
    (Machine.Quiet m' → m'.main = m.main) ∧ ∀ i, m'.phase i ≠ .done .keyError := by
  refine C55_exclusive_partial caller lock m m' hm ?_
  suffices h : Machine.Exclusive m' ∧
      Runs (fun a b => CallStep caller lock a b ∧ Machine.Exclusive b) m m' from h.2
  induction hr with
  | refl => exact ⟨exclusive_fresh hm, .refl⟩
  | step _ hs ih =>
    have := exclusive_step hl ih.1 hs
    exact ⟨this, .step ih.2 ⟨hs, this⟩⟩

/-- A thread that waits for the lock does so only while another call holds it: with a shared lock some
call can always go on. -/
theorem C55_never_stuck (caller : Nat → Option ObjectId) (lock : Nat → Nat) (m : Machine) (i : Nat)
    (hi : ∀ r, m.phase i ≠ .done r)
    (hc : ∀ j, (∃ s, m.phase j = .saved s) → (caller j).isSome) :
    ∃ m', CallStep caller lock m m' := by
  have active : ∀ j, (m.phase j).active = true → ∃ m', CallStep caller lock m m' := by
    intro j hj
    cases h : m.phase j with
    | idle => rw [h] at hj; cases hj
    | done r => rw [h] at hj; cases hj
    | locked =>
      cases hk : caller j with
      | none => exact ⟨_, .unknownCaller h hk⟩
      | some c => exact ⟨_, .save h hk⟩
    | saved s =>
      obtain ⟨c, hk⟩ := Option.isSome_iff_exists.1 (hc j ⟨s, h⟩)
      exact ⟨_, .replace h hk⟩
    | replaced s => exact ⟨_, .body (r := .returned) h (.inl rfl)⟩
    | ended s r =>
      cases s with
      | some s => exact ⟨_, .restore h⟩
      | none =>
        by_cases hn : m.main = none
        · exact ⟨_, .deleteFails h hn⟩
        · exact ⟨_, .delete h hn⟩
  by_cases ha : ∃ j, (m.phase j).active = true
  · obtain ⟨j, hj⟩ := ha
    exact active j hj
  · have quiet : ∀ j, (m.phase j).active = false := fun j => by
      cases h : (m.phase j).active with
      | false => rfl
      | true => exact absurd ⟨j, h⟩ ha
    cases h : m.phase i with
    | idle => exact ⟨_, .acquire h fun j _ => quiet j⟩
    | done r => exact absurd h (hi r)
    | _ => have := quiet i; rw [h] at this; cases this

/-! ### Samples -/

/-- One call, begun without `__main__`, that raises. -/
example : Runs (fun a b => CallStep (fun _ => some 10) id a b ∧ Machine.Exclusive b)
    ⟨none, fun _ => .idle⟩
    ((⟨none, fun _ => .idle⟩ : Machine).move 0 none .locked) := by
  refine .step .refl ⟨.acquire (i := 0) rfl fun _ _ => rfl, fun i j hi hj => ?_⟩
  have : ∀ k, ((Machine.move ⟨none, fun _ => .idle⟩ 0 none .locked).phase k).active = true → k = 0 := by
    intro k hk
    by_cases e : k = 0
    · exact e
    · rw [move_ne _ _ _ e] at hk; cases hk
  rw [this i hi, this j hj]

/-- The run that refutes C55 is not possible with a shared lock: the second call waits. -/
example : ¬ Machine.Exclusive (overlapStart.move 0 (some 10) (.replaced (some 7)) |>.move 1 (some 10)
    .locked) := fun h => by
  have := h 0 1 rfl rfl
  cases this

/-- A picklable result, a picklable error, an unpicklable result, a killed child. -/
example : callInProcess (fun x => if x = 5 then .lost else .arrives x) (.returned 3) = .returned 3
    ∧ callInProcess (fun x => if x = 5 then .lost else .arrives x) (.raised 4) = .raised 4
    ∧ callInProcess (fun x => if x = 5 then .lost else .arrives x) (.returned 5) = .blocked
    ∧ callInProcess (fun x => if x = 5 then .lost else .arrives x) .killed = .blocked := by decide

end Paradigm.Props
