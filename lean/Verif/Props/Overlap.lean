import Verif.Lemmas.Overlap
import Verif.Props.Caching

/-!
# C113: starts that overlap
-/

namespace Paradigm.Props

open Spec

/-- **C113**, full statement: however the starts of processes overlap, every main process uses the tables
that its version computes. -/
def C113_statement : Prop :=
  ∀ (printable : Char → Bool) (harmless : Text → Bool) (compute : Compute),
    (∀ version, IsTables (compute version)) →
    ∀ (processes : Nat → Process) (pieces : Bool) (order : List Nat) (s : Shared),
      Steps printable harmless compute processes pieces (.initial none []) order s →
      ∀ (i : Nat) (tables : List Data), (processes i).main = true →
        (s.phases i).tables? ((compute (processes i).version).map Prod.snd) = some tables →
        Rel2 Equal ((compute (processes i).version).map Prod.snd) tables

/-- A table with the version in it. -/
def raceCompute : Compute := fun version => [(['t'], .list [.str version])]

theorem raceCompute_tables (version : Text) : IsTables (raceCompute version) where
  names := by
    unfold raceCompute IsFieldName
    simp only [List.forall_mem_cons, List.not_mem_nil, false_implies, implies_true, and_true]
    decide
  distinct := by unfold raceCompute; simp
  noVersion := by unfold raceCompute versionName; simp
  proper := by
    unfold raceCompute
    simp only [List.forall_mem_cons, List.not_mem_nil, false_implies, implies_true, and_true]
    exact .list (by simp [Proper.str])

/-- Processes of version 1, except for one. -/
def raceWriters : Nat → Process := fun i => if i = 1 then ⟨['2'], true⟩ else ⟨['1'], true⟩

/-- A process of version 1 has written a part of the file when a process of version 2 writes all of its
own, and then goes on. The next process of version 1 uses the tables of version 2. -/
theorem race_writers : ∃ s,
    Steps (fun _ => true) (fun _ => false) raceCompute raceWriters false (.initial none [])
      [0, 1, 0, 0, 1, 1, 0, 2] s ∧
    (s.phases 2).tables? ((raceCompute ['1']).map Prod.snd) = some [.list [.str ['2']]] := by
  have h0 : Steps (fun _ => true) (fun _ => false) raceCompute raceWriters false (.initial none []) [] _ := .none
  have h1 := Steps.next _ 0 _ _ h0 (Step.missing rfl rfl)
  have h2 := Steps.next _ 1 _ _ h1 (Step.missing rfl rfl)
  have h3 := Steps.next _ 0 _ _ h2 (Step.opened rfl)
  have h4 := Steps.next _ 0 _ _ h3 (Step.write _ 0 12 rfl rfl)
  have h5 := Steps.next _ 1 _ _ h4 (Step.opened rfl)
  have h6 := Steps.next _ 1 _ _ h5 (Step.write _ 0 100 rfl rfl)
  have h7 := Steps.next _ 0 _ _ h6 (Step.write _ 12 100 rfl rfl)
  have h8 := Steps.next _ 2 _ _ h7 (Step.whole _ rfl rfl)
  exact ⟨_, h8, rfl⟩

/-- Version 1 is replaced by version 2. -/
def raceReaders : Nat → Process := fun i => if i = 0 then ⟨['1'], true⟩ else ⟨['2'], true⟩

/-- A process of version 2 has read a part of the file of version 1 when another one writes the file, and
then reads on. It uses the tables of version 1. -/
theorem race_readers : ∃ s,
    Steps (fun _ => true) (fun _ => false) raceCompute raceReaders true (.initial none [])
      [0, 0, 0, 1, 1, 2, 2, 2, 1, 1] s ∧
    (s.phases 1).tables? ((raceCompute ['2']).map Prod.snd) = some [.list [.str ['1']]] := by
  have h0 : Steps (fun _ => true) (fun _ => false) raceCompute raceReaders true (.initial none []) [] _ := .none
  have h1 := Steps.next _ 0 _ _ h0 (Step.missing rfl rfl)
  have h2 := Steps.next _ 0 _ _ h1 (Step.opened rfl)
  have h3 := Steps.next _ 0 _ _ h2 (Step.write _ 0 100 rfl rfl)
  have h4 := Steps.next _ 1 _ _ h3 (Step.begin _ rfl rfl rfl)
  have h5 := Steps.next _ 1 _ _ h4 (Step.read _ _ 12 rfl rfl rfl)
  have h6 := Steps.next _ 2 _ _ h5 (Step.whole _ rfl rfl)
  have h7 := Steps.next _ 2 _ _ h6 (Step.opened rfl)
  have h8 := Steps.next _ 2 _ _ h7 (Step.write _ 0 100 rfl rfl)
  have h9 := Steps.next _ 1 _ _ h8 (Step.read _ _ 100 rfl rfl rfl)
  have h10 := Steps.next _ 1 _ _ h9 (Step.imported _ _ rfl rfl (by decide))
  exact ⟨_, h10, rfl⟩

theorem C113_refuted : ¬ C113_statement := by
  intro h
  obtain ⟨s, h1, h2⟩ := race_writers
  cases h _ _ _ raceCompute_tables _ _ _ s h1 2 _ rfl h2 with
  | cons h3 _ => cases h3 with
    | list h4 => cases h4 with
      | cons h5 _ => cases h5

/-- The same when a new version starts twice while the file of an old one exists. -/
theorem C113_refuted_upgrade : ¬ C113_statement := by
  intro h
  obtain ⟨s, h1, h2⟩ := race_readers
  cases h _ _ _ raceCompute_tables _ _ _ s h1 1 _ rfl h2 with
  | cons h3 _ => cases h3 with
    | list h4 => cases h4 with
      | cons h5 _ => cases h5

theorem inUse_good {compute : Compute} {p : Process} {phase : StartPhase} {tables : List Data}
    (h : ∀ tables, phase = .settled tables → GoodTables compute p tables)
    (ht : phase.tables? ((compute p.version).map Prod.snd) = some tables) :
    Rel2 Equal ((compute p.version).map Prod.snd) tables ∨
      p.main = false ∧ tables = (compute p.version).map fun _ => .dict [] := by
  cases phase <;> cases ht
  case settled => exact h _ rfl
  all_goals exact .inl (.refl fun v _ => equal_refl v)

/-- **C113** for processes of one version, which start at overlapping times and stop at any point, also with
files that were left by other versions: every process uses the tables of the version (or, if it is not
a main process, none). Files of other versions have to be read at once. Missing: overlapping starts of
several versions, for which the full statement is false. -/
theorem C113_same_partial (printable : Char → Bool) (harmless : Text → Bool) (compute : Compute)
    (hc : ∀ version, IsTables (compute version)) (processes : Nat → Process) (pieces : Bool)
    (version : Text) (hv : ∀ i, (processes i).version = version)
    (file : Option Text) (compiled : List Text)
    (hfile : ∀ x, file = some x → ∃ v, x <+: savedText printable compute v ∧ (pieces = true → v = version))
    (hcompiled : ∀ x ∈ compiled, ∃ v, x <+: savedText printable compute v)
    (order : List Nat) (s : Shared)
    (h : Steps printable harmless compute processes pieces (.initial file compiled) order s)
    (i : Nat) (tables : List Data)
    (ht : (s.phases i).tables? ((compute version).map Prod.snd) = some tables) :
    Rel2 Equal ((compute version).map Prod.snd) tables ∨
      (processes i).main = false ∧ tables = (compute version).map fun _ => .dict [] := by
  have hinv : SameVersion printable compute processes pieces version s := by
    clear ht
    induction h with
    | none =>
      refine ⟨fun x hx => ?_, fun x hx => .inr (hcompiled x hx), fun _ _ e => (nomatch e),
        fun _ _ e => (nomatch e), fun _ _ e => (nomatch e)⟩
      obtain ⟨v, h1, h2⟩ := hfile x hx
      cases pieces with
      | true =>
        cases h2 rfl
        rw [List.prefix_iff_eq_take.1 h1]
        exact .inl (holey_take _ _)
      | false => exact .inr ⟨rfl, ⟨v, h1⟩, fun _ _ e => (nomatch e)⟩
    | next is j t u _ hs ih => exact ih.step hc hv hs
  rw [← hv i] at ht ⊢
  exact inUse_good (hinv.settled i) ht

/-- The claims below are about every process that is past the import of the cache: it uses tables. -/
theorem C113_uses (phase : StartPhase) (computes : List Data) (h : phase ≠ .fresh) (h' : ∀ seen, phase ≠ .reading seen) :
    (phase.tables? computes).isSome := by
  cases phase
  case fresh => exact absurd rfl h
  case reading seen => exact absurd rfl (h' seen)
  all_goals rfl

/-- Tables in use are kept, whatever the processes do. -/
theorem C113_kept (printable : Char → Bool) (harmless : Text → Bool) (compute : Compute)
    (processes : Nat → Process) (pieces : Bool) (i j : Nat) (s u : Shared)
    (h : Step printable harmless compute processes pieces i s u) (computes tables : List Data)
    (ht : (s.phases j).tables? computes = some tables) : (u.phases j).tables? computes = some tables := by
  by_cases e : j = i
  · subst e
    cases h <;> rename_i hp <;> simp_all [StartPhase.tables?, Shared.put]
  · cases h <;> simpa [Shared.put, e] using ht

example : (StartPhase.writing 3).tables? [.list [.str ['1']]] = some [.list [.str ['1']]] := rfl
example : (StartPhase.reading ['t']).tables? [.list []] = none := rfl

/-- **C113** for starts that do not overlap, of any versions and each stopping at any point: compiled files
of any age do no harm. -/
theorem C113_alone_partial (printable : Char → Bool) (harmless : Text → Bool) (compute : Compute)
    (hc : ∀ version, IsTables (compute version)) (processes : Nat → Process) (pieces : Bool)
    (order : List Nat) (ho : order.Pairwise (· ≤ ·)) (s : Shared)
    (h : Steps printable harmless compute processes pieces (.initial none []) order s)
    (i : Nat) (tables : List Data)
    (ht : (s.phases i).tables? ((compute (processes i).version).map Prod.snd) = some tables) :
    Rel2 Equal ((compute (processes i).version).map Prod.snd) tables ∨
      (processes i).main = false ∧ tables = (compute (processes i).version).map fun _ => .dict [] := by
  have hinv : ∃ j, Alone printable compute processes j s ∧ ∀ k, (∀ m ∈ order, m ≤ k) → j ≤ k := by
    clear ht
    induction h with
    | none =>
      exact ⟨0, ⟨fun x hx => (nomatch hx), fun x hx => (nomatch hx), fun _ _ => rfl, fun _ e => (nomatch e),
        fun _ e => (nomatch e), fun _ e => (nomatch e), fun _ _ e => (nomatch e)⟩, fun _ _ => Nat.zero_le _⟩
    | next is j t u _ hs ih =>
      obtain ⟨h1, -, h2⟩ := List.pairwise_append.1 ho
      obtain ⟨k, h3, h4⟩ := ih h1
      have hk : k ≤ j := h4 j fun m hm => h2 m hm j (by simp)
      exact ⟨j, (h3.next hk).step hc hs, fun k hk => hk j (by simp)⟩
  obtain ⟨j, hj, -⟩ := hinv
  exact inUse_good (hj.settled i) ht

/-! ### Samples -/

def sameProcesses : Nat → Process := fun i => ⟨['1'], i != 3⟩

/-- Two processes of the same version that write in turns: the file has a hole, which makes a third
process compute the tables itself, and is complete in the end, when it is used by a fourth process. -/
theorem sample_same : ∃ s,
    Steps (fun _ => true) (fun _ => false) raceCompute sameProcesses false (.initial none [])
      [0, 1, 0, 0, 1, 0, 2, 1, 3] s ∧
    (∃ x, s.compiled[1]? = some x ∧ '\x00' ∈ x) ∧ (s.phases 2).tables? [] = some [] ∧
    s.file = some (savedText (fun _ => true) raceCompute ['1']) ∧
    (s.phases 3).tables? ((raceCompute ['1']).map Prod.snd) = some [.list [.str ['1']]] := by
  have h0 : Steps (fun _ => true) (fun _ => false) raceCompute sameProcesses false (.initial none []) [] _ := .none
  have h1 := Steps.next _ 0 _ _ h0 (Step.missing rfl rfl)
  have h2 := Steps.next _ 1 _ _ h1 (Step.missing rfl rfl)
  have h3 := Steps.next _ 0 _ _ h2 (Step.opened rfl)
  have h4 := Steps.next _ 0 _ _ h3 (Step.write _ 0 12 rfl rfl)
  have h5 := Steps.next _ 1 _ _ h4 (Step.opened rfl)
  have h6 := Steps.next _ 0 _ _ h5 (Step.write _ 12 100 rfl rfl)
  have h7 := Steps.next _ 2 _ _ h6 (Step.whole _ rfl rfl)
  have h8 := Steps.next _ 1 _ _ h7 (Step.write _ 0 100 rfl rfl)
  have h9 := Steps.next _ 3 _ _ h8 (Step.whole _ rfl rfl)
  exact ⟨_, h9, ⟨⟨_, rfl, by decide⟩, rfl, rfl, rfl⟩⟩

example : ∃ (s : Shared) (tables : List Data),
    (s.phases 3).tables? ((raceCompute ['1']).map Prod.snd) = some tables ∧
    (Rel2 Equal ((raceCompute ['1']).map Prod.snd) tables ∨
      (sameProcesses 3).main = false ∧ tables = (raceCompute ['1']).map fun _ => .dict []) := by
  obtain ⟨s, h1, -, -, -, h2⟩ := sample_same
  exact ⟨s, _, h2, C113_same_partial _ _ _ raceCompute_tables sameProcesses false ['1'] (fun _ => rfl) none []
    (fun _ h => nomatch h) (fun _ h => nomatch h) _ s h1 3 _ h2⟩

/-- Version 1 saves, version 2 replaces the file and stops within it, and version 1 starts again, with the
compiled file of the first start at hand. -/
theorem sample_alone : ∃ s,
    Steps (fun _ => true) (fun _ => false) raceCompute raceWriters true (.initial none [])
      [0, 0, 0, 0, 0, 1, 1, 1, 2] s ∧
    (s.phases 2).tables? ((raceCompute ['1']).map Prod.snd) = some [.list [.str ['1']]] := by
  have h0 : Steps (fun _ => true) (fun _ => false) raceCompute raceWriters true (.initial none []) [] _ := .none
  have h1 := Steps.next _ 0 _ _ h0 (Step.missing rfl rfl)
  have h2 := Steps.next _ 0 _ _ h1 (Step.opened rfl)
  have h3 := Steps.next _ 0 _ _ h2 (Step.write _ 0 100 rfl rfl)
  have h4 := Steps.next _ 0 _ _ h3 (Step.closed _ rfl (by decide))
  have h5 := Steps.next _ 0 _ _ h4 (Step.compileWhole _ _ rfl rfl)
  have h6 := Steps.next _ 1 _ _ h5 (Step.whole _ rfl rfl)
  have h7 := Steps.next _ 1 _ _ h6 (Step.opened rfl)
  have h8 := Steps.next _ 1 _ _ h7 (Step.write _ 0 12 rfl rfl)
  have h9 := Steps.next _ 2 _ _ h8 (Step.compiled _ _ rfl rfl (List.mem_cons_of_mem _ List.mem_cons_self))
  exact ⟨_, h9, rfl⟩

example : ∃ (s : Shared) (tables : List Data),
    (s.phases 2).tables? ((raceCompute ['1']).map Prod.snd) = some tables ∧
    (Rel2 Equal ((raceCompute ['1']).map Prod.snd) tables ∨
      (raceWriters 2).main = false ∧ tables = (raceCompute ['1']).map fun _ => .dict []) := by
  obtain ⟨s, h1, h2⟩ := sample_alone
  exact ⟨s, _, h2, C113_alone_partial _ _ _ raceCompute_tables raceWriters true _ (by decide) s h1 2 _ h2⟩

end Paradigm.Props
