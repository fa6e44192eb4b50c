import Verif.Model.Overlap
import Verif.Lemmas.Caching
import Verif.Lemmas.Limits

/-!
# Lemmas about processes that start at overlapping times
-/

namespace Paradigm

open Spec

theorem put_self (s : Shared) (i : Nat) (p : StartPhase) : (s.put i p).phases i = p := if_pos rfl

theorem put_other (s : Shared) {i j : Nat} (p : StartPhase) (h : j ≠ i) : (s.put i p).phases j = s.phases j :=
  if_neg h

/-- A text with holes: every character is that of `t` or null. -/
def Holey (t x : Text) : Prop := ∀ (k : Nat) (c : Char), x[k]? = some c → c = '\x00' ∨ t[k]? = some c

theorem holey_nil (t : Text) : Holey t [] := fun _ _ h => by cases h

theorem holey_take (t : Text) (k : Nat) : Holey t (t.take k) := by
  intro j c h
  rw [List.getElem?_take] at h
  split at h
  · exact .inr h
  · cases h

theorem Holey.read {t x y : Text} (hx : Holey t x) (hy : Holey t y) (n : Nat) :
    Holey t (x ++ (y.drop x.length).take n) := by
  intro k c h
  rw [List.getElem?_append] at h
  split at h
  · exact hx k c h
  · rename_i hk
    rw [List.getElem?_take] at h
    split at h
    · rw [List.getElem?_drop, Nat.add_sub_cancel' (Nat.le_of_not_lt hk)] at h
      exact hy k c h
    · cases h

theorem Holey.write {t x : Text} (hx : Holey t x) (k n : Nat) :
    Holey t (writeAt k ((t.drop k).take n) x) := by
  unfold writeAt
  split
  · exact hx
  intro j c h
  have hl : (x.take k).length = min k x.length := List.length_take
  rw [List.getElem?_append] at h
  split at h
  · rw [List.getElem?_take] at h
    split at h
    · exact hx j c h
    · cases h
  · rename_i h1
    rw [hl] at h1 h
    rw [List.getElem?_append, List.length_replicate] at h
    split at h
    · rw [List.getElem?_replicate] at h
      split at h
      all_goals first
        | exact .inl (Option.some.inj h).symm
        | cases h
    · rename_i h2
      rw [List.getElem?_append] at h
      have hj : k ≤ j := by omega
      have e : j - min k x.length - (k - x.length) = j - k := by omega
      rw [e] at h
      split at h
      · rw [List.getElem?_take] at h
        split at h
        · rw [List.getElem?_drop, Nat.add_sub_cancel' hj] at h
          exact .inr h
        · cases h
      · rename_i h3
        rw [List.getElem?_drop] at h
        refine hx j c ?_
        rw [← h]
        congr 1
        omega

/-- Without holes the text is a beginning. -/
theorem Holey.prefix {t x : Text} (h : Holey t x) (h0 : '\x00' ∉ x) : x = t.take x.length := by
  apply List.ext_getElem?
  intro k
  cases e : x[k]? with
  | none =>
    rw [List.getElem?_take, if_neg (by
      intro hk
      rw [List.getElem?_eq_getElem hk] at e
      cases e)]
  | some c =>
    have hk : k < x.length := (List.getElem?_eq_some_iff.1 e).1
    rw [List.getElem?_take, if_pos hk]
    rcases h k c e with rfl | h'
    · exact absurd (List.mem_of_getElem? e) h0
    · exact h'.symm

/-- A text with holes is not imported. -/
theorem cachedTables_nul {harmless : Text → Bool} {names : List Text} {version x : Text} (h : '\x00' ∈ x) :
    cachedTables harmless names version (some x) = none := by
  unfold cachedTables load
  dsimp only
  rw [withinLimits_nul h]
  rfl

variable {printable : Char → Bool} {harmless : Text → Bool} {compute : Compute}

/-- Tables in use by a process that has not computed them. -/
def GoodTables (compute : Compute) (p : Process) (tables : List Data) : Prop :=
  Rel2 Equal ((compute p.version).map Prod.snd) tables ∨
    p.main = false ∧ tables = (compute p.version).map fun _ => .dict []

theorem afterImport_good {p : Process} {x : Text} (h : ∀ tables,
      cachedTables harmless ((compute p.version).map Prod.fst) p.version (some x) = some tables →
      Rel2 Equal ((compute p.version).map Prod.snd) tables) :
    (∃ tables, afterImport harmless compute p x = .settled tables ∧ GoodTables compute p tables) ∨
      afterImport harmless compute p x = .computed := by
  unfold afterImport
  cases e : cachedTables harmless ((compute p.version).map Prod.fst) p.version (some x) with
  | some tables => exact .inl ⟨tables, rfl, .inl (h tables e)⟩
  | none =>
    cases hm : p.main with
    | true => exact .inr rfl
    | false => exact .inl ⟨_, rfl, .inr ⟨hm, rfl⟩⟩

theorem holey_good (hc : ∀ v, IsTables (compute v)) {version x : Text} {tables : List Data}
    (h : Holey (savedText printable compute version) x)
    (he : cachedTables harmless ((compute version).map Prod.fst) version (some x) = some tables) :
    Rel2 Equal ((compute version).map Prod.snd) tables := by
  by_cases h0 : '\x00' ∈ x
  · rw [cachedTables_nul h0] at he; cases he
  · rw [h.prefix h0] at he
    exact (cachedTables_take hc he).2

variable {processes : Nat → Process} {pieces : Bool}

/-- A complete text that was saved, or the beginning of one. -/
def SavedBefore (printable : Char → Bool) (compute : Compute) (x : Text) : Prop :=
  ∃ version, x <+: savedText printable compute version

theorem savedBefore_good (hc : ∀ v, IsTables (compute v)) {version x : Text} {tables : List Data}
    (h : SavedBefore printable compute x)
    (he : cachedTables harmless ((compute version).map Prod.fst) version (some x) = some tables) :
    Rel2 Equal ((compute version).map Prod.snd) tables := by
  obtain ⟨other, h⟩ := h
  rw [List.prefix_iff_eq_take.1 h] at he
  exact (cachedTables_take hc he).2

/-! ### Processes of one version -/

/-- What holds at any time when all processes are of one version. -/
structure SameVersion (printable : Char → Bool) (compute : Compute) (processes : Nat → Process) (pieces : Bool)
    (version : Text) (s : Shared) : Prop where
  file : ∀ x, s.file = some x → Holey (savedText printable compute version) x ∨
    pieces = false ∧ SavedBefore printable compute x ∧ ∀ i k, s.phases i ≠ .writing k
  compiled : ∀ x ∈ s.compiled, Holey (savedText printable compute version) x ∨ SavedBefore printable compute x
  reading : ∀ i seen, s.phases i = .reading seen → Holey (savedText printable compute version) seen
  compiling : ∀ i seen, s.phases i = .compiling seen → Holey (savedText printable compute version) seen
  settled : ∀ i tables, s.phases i = .settled tables → GoodTables compute (processes i) tables

theorem SameVersion.put_of {version : Text} {s : Shared} (h : SameVersion printable compute processes pieces version s)
    {i : Nat} {p : StartPhase} (hw : ∀ k, p ≠ .writing k)
    (hr : ∀ seen, p = .reading seen → Holey (savedText printable compute version) seen)
    (hm : ∀ seen, p = .compiling seen → Holey (savedText printable compute version) seen)
    (hs : ∀ tables, p = .settled tables → GoodTables compute (processes i) tables) :
    SameVersion printable compute processes pieces version (s.put i p) where
  file x hx := by
    rcases h.file x hx with h' | ⟨h1, h2, h3⟩
    · exact .inl h'
    · refine .inr ⟨h1, h2, fun j k hj => ?_⟩
      by_cases e : j = i
      · subst e; rw [put_self] at hj; exact hw k hj
      · rw [put_other _ _ e] at hj; exact h3 j k hj
  compiled := h.compiled
  reading j seen hj := by
    by_cases e : j = i
    · subst e; rw [put_self] at hj; exact hr seen hj
    · rw [put_other _ _ e] at hj; exact h.reading j seen hj
  compiling j seen hj := by
    by_cases e : j = i
    · subst e; rw [put_self] at hj; exact hm seen hj
    · rw [put_other _ _ e] at hj; exact h.compiling j seen hj
  settled j tables hj := by
    by_cases e : j = i
    · subst e; rw [put_self] at hj; exact hs tables hj
    · rw [put_other _ _ e] at hj; exact h.settled j tables hj

theorem SameVersion.import_of (hc : ∀ v, IsTables (compute v)) {version : Text} {s : Shared}
    (h : SameVersion printable compute processes pieces version s) {i : Nat} (hv : (processes i).version = version)
    {x : Text} (hx : Holey (savedText printable compute version) x ∨ SavedBefore printable compute x) :
    SameVersion printable compute processes pieces version
      (s.put i (afterImport harmless compute (processes i) x)) := by
  have hgood : ∀ tables, cachedTables harmless ((compute (processes i).version).map Prod.fst)
      (processes i).version (some x) = some tables →
      Rel2 Equal ((compute (processes i).version).map Prod.snd) tables := by
    intro tables ht
    rcases hx with hx | hx
    · exact holey_good hc (hv ▸ hx) ht
    · exact savedBefore_good hc hx ht
  rcases afterImport_good hgood with ⟨tables, e, g⟩ | e
  · rw [e]
    exact h.put_of (by simp) (by simp) (by simp) (by rintro t ht; cases ht; exact g)
  · rw [e]
    exact h.put_of (by simp) (by simp) (by simp) (by simp)

theorem SameVersion.compile {version : Text} {s : Shared} (h : SameVersion printable compute processes pieces version s)
    {x : Text} (hx : Holey (savedText printable compute version) x ∨ SavedBefore printable compute x) :
    SameVersion printable compute processes pieces version { s with compiled := x :: s.compiled } where
  file := h.file
  compiled y hy := by
    rcases List.mem_cons.1 hy with rfl | hy
    · exact hx
    · exact h.compiled y hy
  reading := h.reading
  compiling := h.compiling
  settled := h.settled

theorem SameVersion.known {version : Text} {s : Shared} (h : SameVersion printable compute processes pieces version s)
    {x : Text} (hx : s.file = some x) :
    Holey (savedText printable compute version) x ∨ SavedBefore printable compute x :=
  (h.file x hx).imp_right fun h => h.2.1

theorem SameVersion.step (hc : ∀ v, IsTables (compute v)) {version : Text}
    (hv : ∀ i, (processes i).version = version) {s t : Shared} {i : Nat}
    (h : SameVersion printable compute processes pieces version s)
    (hs : Step printable harmless compute processes pieces i s t) :
    SameVersion printable compute processes pieces version t := by
  have inPieces : ∀ x, pieces = true → s.file = some x → Holey (savedText printable compute version) x := by
    intro x hp hx
    rcases h.file x hx with h' | ⟨h1, -⟩
    · exact h'
    · rw [hp] at h1; cases h1
  cases hs with
  | missing h1 h2 =>
    split
    · exact h.put_of (by simp) (by simp) (by simp) (by simp)
    · rename_i hm
      exact h.put_of (by simp) (by simp) (by simp) (by
        rintro t ht
        cases ht
        exact .inr ⟨by simpa using hm, rfl⟩)
  | compiled x text h1 h2 h3 => exact h.import_of hc (hv i) (h.compiled _ h3)
  | whole x h1 h2 => exact (h.compile (h.known h2)).import_of hc (hv i) (h.known h2)
  | begin x hp h1 h2 =>
    exact h.put_of (by simp) (by rintro t ht; cases ht; exact holey_nil _) (by simp) (by simp)
  | read x seen n hp h1 h2 =>
    exact h.put_of (by simp)
      (by rintro t ht; cases ht; exact (h.reading i seen h1).read (inPieces x hp h2) n) (by simp) (by simp)
  | imported x seen h1 h2 h3 =>
    exact (h.compile (.inl (h.reading i seen h1))).import_of hc (hv i) (.inl (h.reading i seen h1))
  | unopened h1 => exact h.put_of (by simp) (by simp) (by simp) (by simp)
  | opened h1 =>
    refine ⟨fun x hx => ?_, h.compiled, fun j seen hj => ?_, fun j seen hj => ?_, fun j seen hj => ?_⟩
    · cases hx; exact .inl (holey_nil _)
    all_goals
      by_cases e : j = i
      · subst e; rw [put_self] at hj; cases hj
      · rw [put_other _ _ e] at hj
        first | exact h.reading j seen hj | exact h.compiling j seen hj | exact h.settled j seen hj
  | write x k n h1 h2 =>
    have hx : Holey (savedText printable compute version) x := by
      rcases h.file x h2 with h' | ⟨-, -, h3⟩
      · exact h'
      · exact absurd h1 (h3 i k)
    refine ⟨fun y hy => ?_, h.compiled, fun j seen hj => ?_, fun j seen hj => ?_, fun j seen hj => ?_⟩
    · cases hy
      rw [hv i]
      exact .inl (hx.write k n)
    all_goals
      by_cases e : j = i
      · subst e; rw [put_self] at hj; cases hj
      · rw [put_other _ _ e] at hj
        first | exact h.reading j seen hj | exact h.compiling j seen hj | exact h.settled j seen hj
  | closed k h1 h2 =>
    exact h.put_of (by simp) (by simp) (by rintro t ht; cases ht; exact holey_nil _) (by simp)
  | failed k h1 => exact h.put_of (by simp) (by simp) (by simp) (by simp)
  | compileWhole x seen h1 h2 =>
    exact (h.compile (h.known h2)).put_of (by simp) (by simp) (by simp) (by simp)
  | readBack x seen n hp h1 h2 =>
    exact h.put_of (by simp) (by simp)
      (by rintro t ht; cases ht; exact (h.compiling i seen h1).read (inPieces x hp h2) n) (by simp)
  | compiledPieces x seen h1 h2 hp h3 =>
    exact (h.compile (.inl (h.compiling i seen h1))).put_of (by simp) (by simp) (by simp) (by simp)

/-! ### One process after the other -/

/-- What holds at any time while process `i` runs and no earlier one runs any more. -/
structure Alone (printable : Char → Bool) (compute : Compute) (processes : Nat → Process)
    (i : Nat) (s : Shared) : Prop where
  file : ∀ x, s.file = some x → SavedBefore printable compute x
  compiled : ∀ x ∈ s.compiled, SavedBefore printable compute x
  later : ∀ j, i < j → s.phases j = .fresh
  reading : ∀ seen, s.phases i = .reading seen → ∃ x, s.file = some x ∧ seen <+: x
  compiling : ∀ seen, s.phases i = .compiling seen → ∃ x, s.file = some x ∧ seen <+: x
  writing : ∀ k, s.phases i = .writing k →
    s.file = some ((savedText printable compute (processes i).version).take k)
  settled : ∀ j tables, s.phases j = .settled tables → GoodTables compute (processes j) tables

theorem Alone.next {s : Shared} {i j : Nat} (h : Alone printable compute processes i s) (hij : i ≤ j) :
    Alone printable compute processes j s := by
  rcases Nat.lt_or_eq_of_le hij with hlt | rfl
  · have hf := h.later j hlt
    exact ⟨h.file, h.compiled, fun k hk => h.later k (Nat.lt_trans hlt hk),
      fun _ e => (nomatch hf.symm.trans e), fun _ e => (nomatch hf.symm.trans e),
      fun _ e => (nomatch hf.symm.trans e), h.settled⟩
  · exact h

theorem Alone.put_of {s : Shared} {i : Nat} (h : Alone printable compute processes i s) {p : StartPhase}
    (hr : ∀ seen, p = .reading seen → ∃ x, s.file = some x ∧ seen <+: x)
    (hm : ∀ seen, p = .compiling seen → ∃ x, s.file = some x ∧ seen <+: x)
    (hw : ∀ k, p = .writing k → s.file = some ((savedText printable compute (processes i).version).take k))
    (hs : ∀ tables, p = .settled tables → GoodTables compute (processes i) tables) :
    Alone printable compute processes i (s.put i p) where
  file := h.file
  compiled := h.compiled
  later j hj := by rw [put_other _ _ (Nat.ne_of_gt hj)]; exact h.later j hj
  reading seen e := by rw [put_self] at e; exact hr seen e
  compiling seen e := by rw [put_self] at e; exact hm seen e
  writing k e := by rw [put_self] at e; exact hw k e
  settled j tables hj := by
    by_cases e : j = i
    · subst e; rw [put_self] at hj; exact hs tables hj
    · rw [put_other _ _ e] at hj; exact h.settled j tables hj

theorem Alone.import_of (hc : ∀ v, IsTables (compute v)) {s : Shared} {i : Nat}
    (h : Alone printable compute processes i s) {x : Text} (hx : SavedBefore printable compute x) :
    Alone printable compute processes i (s.put i (afterImport harmless compute (processes i) x)) := by
  rcases afterImport_good (p := processes i) (harmless := harmless) fun tables ht =>
    savedBefore_good hc hx ht with ⟨tables, e, g⟩ | e
  · rw [e]
    exact h.put_of (by simp) (by simp) (by simp) (by rintro t ht; cases ht; exact g)
  · rw [e]
    exact h.put_of (by simp) (by simp) (by simp) (by simp)

theorem Alone.compile {s : Shared} {i : Nat} (h : Alone printable compute processes i s) {x : Text}
    (hx : SavedBefore printable compute x) :
    Alone printable compute processes i { s with compiled := x :: s.compiled } where
  file := h.file
  compiled y hy := by
    rcases List.mem_cons.1 hy with rfl | hy
    · exact hx
    · exact h.compiled y hy
  later := h.later
  reading := h.reading
  compiling := h.compiling
  writing := h.writing
  settled := h.settled

theorem savedBefore_prefix {x y : Text} (h : SavedBefore printable compute x) (hy : y <+: x) :
    SavedBefore printable compute y := h.imp fun _ h => hy.trans h

theorem writeAt_end (t : Text) (k n : Nat) :
    writeAt k ((t.drop k).take n) (t.take k) = t.take (k + n) := by
  unfold writeAt
  rw [List.take_add]
  split
  · rename_i h
    rw [h, List.append_nil]
  · rename_i h
    have hk : k < t.length := by
      rcases Nat.lt_or_ge k t.length with h' | h'
      · exact h'
      · rw [List.drop_eq_nil_of_le h', List.take_nil] at h
        exact absurd rfl h
    have h1 : (t.take k).length = k := by rw [List.length_take, Nat.min_eq_left (Nat.le_of_lt hk)]
    rw [List.take_take, Nat.min_self, h1, Nat.sub_self, List.replicate_zero, List.nil_append,
      List.drop_eq_nil_of_le (as := t.take k) (by rw [h1]; exact Nat.le_add_right _ _), List.append_nil]

theorem prefix_read {seen x : Text} (h : seen <+: x) (n : Nat) :
    seen ++ (x.drop seen.length).take n <+: x := by
  obtain ⟨r, rfl⟩ := h
  rw [List.drop_left]
  exact ⟨r.drop n, by rw [List.append_assoc, List.take_append_drop]⟩

theorem Alone.step (hc : ∀ v, IsTables (compute v)) {s t : Shared} {i : Nat}
    (h : Alone printable compute processes i s)
    (hs : Step printable harmless compute processes pieces i s t) :
    Alone printable compute processes i t := by
  cases hs with
  | missing h1 h2 =>
    split
    · exact h.put_of (by simp) (by simp) (by simp) (by simp)
    · rename_i hm
      exact h.put_of (by simp) (by simp) (by simp) (by
        rintro t ht
        cases ht
        exact .inr ⟨by simpa using hm, rfl⟩)
  | compiled x text h1 h2 h3 => exact h.import_of hc (h.compiled _ h3)
  | whole x h1 h2 => exact (h.compile (h.file x h2)).import_of hc (h.file x h2)
  | begin x hp h1 h2 =>
    exact h.put_of (by rintro t ht; cases ht; exact ⟨x, h2, List.nil_prefix⟩) (by simp) (by simp) (by simp)
  | read x seen n hp h1 h2 =>
    obtain ⟨y, h3, h4⟩ := h.reading seen h1
    cases h2.symm.trans h3
    exact h.put_of (by rintro t ht; cases ht; exact ⟨x, h2, prefix_read h4 n⟩) (by simp) (by simp) (by simp)
  | imported x seen h1 h2 h3 =>
    obtain ⟨y, h3, h4⟩ := h.reading seen h1
    have hx := savedBefore_prefix (h.file y h3) h4
    exact (h.compile hx).import_of hc hx
  | unopened h1 => exact h.put_of (by simp) (by simp) (by simp) (by simp)
  | opened h1 =>
    have h' : Alone printable compute processes i { s with file := some [] } :=
      ⟨fun x hx => (by cases hx; exact ⟨[], List.nil_prefix⟩), h.compiled, h.later,
        fun seen e => (nomatch h1.symm.trans e), fun seen e => (nomatch h1.symm.trans e),
        fun k e => (nomatch h1.symm.trans e), h.settled⟩
    exact h'.put_of (by simp) (by simp) (by rintro k hk; cases hk; rfl) (by simp)
  | write x k n h1 h2 =>
    have hx := h.writing k h1
    cases h2.symm.trans hx
    have e := writeAt_end (savedText printable compute (processes i).version) k n
    refine ⟨fun y hy => ?_, h.compiled, fun j hj => ?_, fun seen e => ?_, fun seen e => ?_, fun k' e' => ?_,
      fun j tables hj => ?_⟩
    · cases hy
      rw [e]
      exact ⟨_, List.take_prefix _ _⟩
    · rw [put_other _ _ (Nat.ne_of_gt hj)]; exact h.later j hj
    · rw [put_self] at e; cases e
    · rw [put_self] at e; cases e
    · rw [put_self] at e'
      cases e'
      exact congrArg some e
    · by_cases e : j = i
      · subst e; rw [put_self] at hj; cases hj
      · rw [put_other _ _ e] at hj; exact h.settled j tables hj
  | closed k h1 h2 =>
    exact h.put_of (by simp)
      (by rintro t ht; cases ht; exact ⟨_, h.writing k h1, List.nil_prefix⟩) (by simp) (by simp)
  | failed k h1 => exact h.put_of (by simp) (by simp) (by simp) (by simp)
  | compileWhole x seen h1 h2 =>
    exact (h.compile (h.file x h2)).put_of (by simp) (by simp) (by simp) (by simp)
  | readBack x seen n hp h1 h2 =>
    obtain ⟨y, h3, h4⟩ := h.compiling seen h1
    cases h2.symm.trans h3
    exact h.put_of (by simp) (by rintro t ht; cases ht; exact ⟨x, h2, prefix_read h4 n⟩) (by simp) (by simp)
  | compiledPieces x seen h1 h2 hp h3 =>
    obtain ⟨y, h3, h4⟩ := h.compiling seen h1
    exact (h.compile (savedBefore_prefix (h.file y h3) h4)).put_of (by simp) (by simp) (by simp) (by simp)

end Paradigm
