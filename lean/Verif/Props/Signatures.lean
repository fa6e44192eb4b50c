import Verif.Spec.Arguments
import Verif.Lemmas.Compose

/-!
# C01–C15: plain signatures
-/

namespace Paradigm.Props

open Spec PyCall

/-! ### Sample data for the non-vacuity examples

`f(a, b=1, *args, c, **kw)`, `g(a, **kw)` and friends. -/

def int_ : Obj := .cls 10
def one : Obj := .atom (.int 1)
def two : Obj := .atom (.int 2)

def pA : Param := .required int_ .positionalOrKeyword "a"
def pB : Param := .optional int_ (some one) .positionalOrKeyword "b"
def pArgs : Param := .optional int_ none .variadicPositional "args"
def pC : Param := .required int_ .keywordOnly "c"
def pKw : Param := .optional int_ none .variadicKeyword "kw"
def poA : Param := .required int_ .positionalOnly "a"

def sigF : PlainSig := ⟨[pA, pB, pArgs, pC, pKw], int_⟩
/-- `g(a, **kw)` -/
def sigG : PlainSig := ⟨[pA, pKw], int_⟩
/-- `h(a, /, **kw)` -/
def sigH : PlainSig := ⟨[poA, pKw], int_⟩
/-- `i(a, c)` with keyword-only `c` -/
def sigI : PlainSig := ⟨[pA, pB, pC], int_⟩

theorem sigF_ok : ConstructiblePlain sigF := by
  refine ⟨?_, rfl⟩
  intro p hp
  rw [validParam_iff]
  simp only [sigF, List.mem_cons, List.not_mem_nil, or_false] at hp
  rcases hp with rfl | rfl | rfl | rfl | rfl <;>
    simp [ValidParam, pA, pB, pArgs, pC, pKw, one, Obj.isNoDefault]

theorem sigG_ok : ConstructiblePlain sigG := by
  refine ⟨?_, rfl⟩
  intro p hp
  rw [validParam_iff]
  simp only [sigG, List.mem_cons, List.not_mem_nil, or_false] at hp
  rcases hp with rfl | rfl <;> simp [ValidParam, pA, pKw]

theorem sigH_ok : ConstructiblePlain sigH := by
  refine ⟨?_, rfl⟩
  intro p hp
  rw [validParam_iff]
  simp only [sigH, List.mem_cons, List.not_mem_nil, or_false] at hp
  rcases hp with rfl | rfl <;> simp [ValidParam, poA, pKw]

theorem sigI_ok : ConstructiblePlain sigI := by
  refine ⟨?_, rfl⟩
  intro p hp
  rw [validParam_iff]
  simp only [sigI, List.mem_cons, List.not_mem_nil, or_false] at hp
  rcases hp with rfl | rfl | rfl <;> simp [ValidParam, pA, pB, pC, one, Obj.isNoDefault]

/-! ### C01 -/

/-- **C01.** The constructor accepts exactly the well-formed parameter lists, keeps what it was
given, and otherwise raises `ValueError`. -/
theorem C01_plainSignature_accepts_iff (ps : List Param) (returns : Obj) :
    (WellFormed ps → PlainSig.new ps returns = .ok ⟨ps, returns⟩) ∧
    (¬ WellFormed ps → ∃ tag, PlainSig.new ps returns = .error (.valueError tag)) := by
  constructor
  · intro h
    rw [new_ok_iff]
    exact ⟨(validate_ok_iff ps).2 h, rfl⟩
  · intro h
    unfold PlainSig.new
    cases hv : PlainSig.validate ps with
    | ok u => exact absurd ((validate_ok_iff ps).1 hv) h
    | error e =>
      cases ps with
      | nil => simp [PlainSig.validate] at hv
      | cons p ps =>
        obtain ⟨tag, rfl⟩ := validateRest_error _ _ _ _ _ hv
        exact ⟨tag, rfl⟩

-- both sides occur
example : WellFormed sigF.parameters := ((constructiblePlain_iff _).1 sigF_ok).2
example : ¬ WellFormed [pB, pA] := fun h => by
  have := h.optionalsLast
  simp [pB, pA, List.filter_cons, isPositional, Param.kind, Param.isOptional] at this

/-! ### C02 -/

/-- **C02.** Kind rules of the parameter constructors. -/
theorem C02_parameter_constructors (a : Obj) (n : String) :
    (∀ k, (k = .positionalOnly ∨ k = .positionalOrKeyword ∨ k = .keywordOnly) →
      RequiredParameter.new a (.kind k) n = .ok (.required a k n)) ∧
    (∀ k, (k = .variadicPositional ∨ k = .variadicKeyword) →
      ∃ t, RequiredParameter.new a (.kind k) n = .error (.valueError t)) ∧
    (∃ t, RequiredParameter.new a .other n = .error (.typeError t)) ∧
    (∀ k, OptionalParameter.new a (.kind k) n = .ok (.optional a none k n)) ∧
    (∀ k d, d ≠ Obj.noDefault → (k = .variadicPositional ∨ k = .variadicKeyword) →
      ∃ t, OptionalParameter.new a (.kind k) n d = .error (.valueError t)) ∧
    (∀ k d, d ≠ Obj.noDefault → ¬ (k = .variadicPositional ∨ k = .variadicKeyword) →
      OptionalParameter.new a (.kind k) n d = .ok (.optional a (some d) k n)) ∧
    (∀ d, ∃ t, OptionalParameter.new a .other n d = .error (.typeError t)) := by
  have hnd : ∀ d : Obj, d ≠ Obj.noDefault → d.isNoDefault = false := by
    intro d hd
    cases d with
    | atom x => cases x <;> simp_all [Obj.isNoDefault, Obj.noDefault]
    | _ => rfl
  refine ⟨?_, ?_, ⟨_, rfl⟩, ?_, ?_, ?_, fun d => ⟨_, rfl⟩⟩
  · rintro k (rfl | rfl | rfl) <;> rfl
  · rintro k (rfl | rfl) <;> exact ⟨_, rfl⟩
  · intro k; cases k <;> rfl
  · rintro k d hd (rfl | rfl) <;>
      exact ⟨_, by simp [OptionalParameter.new, validateKind, hnd d hd]; rfl⟩
  · intro k d hd hk
    cases k <;> simp at hk <;> simp [OptionalParameter.new, validateKind, hnd d hd]

/-- **C02.** What the constructors can produce. -/
theorem C02_constructible_iff_valid (p : Param) : ConstructibleParam p ↔ ValidParam p :=
  validParam_iff p

example : two ≠ Obj.noDefault := by simp [two, Obj.noDefault]

/-! ### C03 -/

/-- **C03.** `bind` returns a legal signature with the same return annotation or raises
`TypeError`. -/
theorem C03_bind_legal (s : PlainSig) (hs : ConstructiblePlain s) (args : List Obj)
    (kwargs : Kwargs) :
    (∃ t, s.bind args kwargs = .ok t ∧ ConstructiblePlain t ∧ t.returns = s.returns) ∨
    (∃ tag, s.bind args kwargs = .error (.typeError tag)) := by
  obtain ⟨hv, hw⟩ := (constructiblePlain_iff s).1 hs
  cases h : s.bind args kwargs with
  | error e =>
    obtain ⟨tag, rfl⟩ := bind_error s hv hw args kwargs e h
    exact .inr ⟨tag, rfl⟩
  | ok t =>
    obtain ⟨_, _, _, rfl⟩ := (bind_eq s hv hw args kwargs t).1 h
    refine .inl ⟨_, rfl, (constructiblePlain_iff _).2 ⟨?_, ?_⟩, rfl⟩
    · exact applyKw_valid _ _ (fun p hp => hv p (remaining_subset hp))
    · exact applyKw_wellFormed _ _ (remaining_wellFormed hw _)

example : ∃ t, sigF.bind [one] [("c", two)] = .ok t := ⟨_, rfl⟩
example : ∃ t, sigI.bind [one] [("z", two)] = .error (.typeError t) := ⟨_, rfl⟩

/-! ### C04 (plain part; overloaded in `Props/Overloads`) -/

theorem applyKw_nil (ps : List Param) : applyKw [] ps = ps := by
  induction ps with
  | nil => rfl
  | cons p ps ih =>
    rw [applyKw]
    have : isBound [] p = false := by simp [isBound, keys]
    rw [this]; simp [ih]

/-- **C04.** Binding nothing is the identity. -/
theorem C04_bind_nothing_plain (s : PlainSig) (hs : ConstructiblePlain s) :
    s.bind [] [] = .ok s := by
  obtain ⟨hv, hw⟩ := (constructiblePlain_iff s).1 hs
  rw [bind_eq s hv hw]
  refine ⟨.inr (by simp), by simp [freshOk], .inr (by simp [keys]), ?_⟩
  rw [applyKw_nil]
  have : remaining s.parameters 0 = s.parameters := by
    have := perm_take_remaining hw.ordered 0
    simpa using this.symm
  rw [List.length_nil, this]

example : ConstructiblePlain sigF := sigF_ok

/-! ### C05 -/

/-- **C05**, full statement. -/
def C05_statement : Prop :=
  ∀ (s : PlainSig), ConstructiblePlain s → ∀ (args : List Obj) (kwargs : Kwargs),
    (keys kwargs).Nodup →
    (s.expects args kwargs = true ↔ ∃ t, s.bind args kwargs = .ok t)

/-- **C05** is violated by the code: `g(a, **kw)` expects `(1, a=2)` but `bind` raises. -/
theorem C05_refuted : ¬ C05_statement := by
  intro h
  have := (h sigG sigG_ok [one] [("a", two)] (by simp [keys])).1 (by decide)
  obtain ⟨t, ht⟩ := this
  simp [PlainSig.bind, sigG, bindPositionals, pA, pKw, isPositionable, Param.kind,
    checkPositionals, keys, Param.name, List.takeWhile] at ht

/-- **C05**, also violated by calls Python accepts: `h(a, /, **kw)` called with `(1, a=2)`. -/
theorem C05_refuted_positional_only :
    Accepts sigH.parameters [one] [("a", two)] ∧ sigH.expects [one] [("a", two)] = true ∧
    ∃ tag, sigH.bind [one] [("a", two)] = .error (.typeError tag) :=
  ⟨⟨_, rfl⟩, by decide, ⟨_, rfl⟩⟩

/-- **C05**, what holds: `expects` predicts `bind` unless, with `**kwargs` present, a keyword
repeats the name of a parameter already filled positionally. -/
theorem C05_expects_iff_bind_partial (s : PlainSig) (hs : ConstructiblePlain s) (args : List Obj)
    (kwargs : Kwargs) (hc : ¬ Collides s.parameters args.length (keys kwargs)) :
    s.expects args kwargs = true ↔ ∃ t, s.bind args kwargs = .ok t := by
  obtain ⟨hv, hw⟩ := (constructiblePlain_iff s).1 hs
  rw [expects_iff s hw.ordered, bind_isOk_iff s hv hw]
  constructor
  · rintro ⟨h1, h2⟩
    refine ⟨h1, ?_, h2⟩
    intro p hp hn
    rcases h2 with h2 | h2
    · exact hc ⟨h2, p, hp, hn⟩
    · obtain ⟨q, hq, _, hqn⟩ := mem_kwNames.1 (h2 _ hn)
      exact name_not_both hw _ hp hq hqn.symm
  · rintro ⟨h1, _, h3⟩; exact ⟨h1, h3⟩

/-- The failing half of C05 is exact: in the excluded case `bind` always raises. -/
theorem C05_collision_always_raises (s : PlainSig) (hs : ConstructiblePlain s) (args : List Obj)
    (kwargs : Kwargs) (hc : Collides s.parameters args.length (keys kwargs)) :
    ∃ tag, s.bind args kwargs = .error (.typeError tag) := by
  obtain ⟨hv, hw⟩ := (constructiblePlain_iff s).1 hs
  rcases C03_bind_legal s hs args kwargs with ⟨t, ht, _⟩ | h
  · obtain ⟨_, hf, _⟩ := (bind_eq s hv hw args kwargs t).1 ht
    obtain ⟨_, p, hp, hn⟩ := hc
    exact absurd hn (hf p hp)
  · exact h

example : ¬ Collides sigF.parameters 1 ["c", "z"] := by
  rintro ⟨_, p, hp, hn⟩
  simp [filledBy, sigF, List.filter_cons, isPositional, Param.kind, pA, pB, pArgs, pC, pKw] at hp
  subst hp; simp [Param.name] at hn

/-! ### C06 -/

/-- **C06**, full statement. -/
def C06_statement : Prop :=
  ∀ (s : PlainSig), ConstructiblePlain s → ∀ (args : List Obj) (kwargs : Kwargs),
    (keys kwargs).Nodup →
    (s.allSet args kwargs = true ↔ Accepts s.parameters args kwargs)

/-- **C06** is violated by the code: `g(a, **kw)` called with `(1, a=2)` is rejected by Python but
`all_set` says `True`. -/
theorem C06_refuted : ¬ C06_statement := by
  intro h
  have := (h sigG sigG_ok [one] [("a", two)] (by simp [keys])).1 (by decide)
  obtain ⟨f, hf⟩ := this
  have he : PyCall.call sigG.parameters [one] [("a", two)] = .error (.multipleValues "a") := rfl
  rw [he] at hf; cases hf

/-- **C06**, what holds: `all_set` is Python's own acceptance unless, with `**kwargs` present, a
keyword repeats the name of a positional-or-keyword parameter already filled positionally. -/
theorem C06_allSet_iff_accepts_partial (s : PlainSig) (hs : ConstructiblePlain s)
    (args : List Obj) (kwargs : Kwargs) (hnd : (keys kwargs).Nodup)
    (hc : ¬ KwCollides s.parameters args.length (keys kwargs)) :
    s.allSet args kwargs = true ↔ Accepts s.parameters args kwargs := by
  obtain ⟨_, hw⟩ := (constructiblePlain_iff s).1 hs
  rw [allSet_iff s hw, accepts_iff hw args kwargs hnd]
  refine and_congr_right fun _ => and_congr_left fun _ => ?_
  constructor
  · intro h k hk
    rcases h with h | h
    · by_cases hm : k ∈ kwNames ((posOf s.parameters).take args.length)
      · obtain ⟨p, hp, hkw, rfl⟩ := mem_kwNames.1 hm
        exact absurd ⟨h, p, hp, hkw, hk⟩ hc
      · exact .inr ⟨h, hm⟩
    · exact .inl (h k hk)
  · intro h
    by_cases hv : hasVK s.parameters
    · exact .inl hv
    · refine .inr fun k hk => ?_
      rcases h k hk with h | h
      · exact h
      · exact absurd h.1 hv

/-- One direction of C06 needs no exclusion: what Python accepts, `all_set` accepts. -/
theorem C06_accepts_implies_allSet (s : PlainSig) (hs : ConstructiblePlain s)
    (args : List Obj) (kwargs : Kwargs) (hnd : (keys kwargs).Nodup)
    (h : Accepts s.parameters args kwargs) : s.allSet args kwargs = true := by
  obtain ⟨_, hw⟩ := (constructiblePlain_iff s).1 hs
  rw [allSet_iff s hw]
  obtain ⟨h1, h2, h3⟩ := (accepts_iff hw args kwargs hnd).1 h
  refine ⟨h1, ?_, h3⟩
  by_cases hv : hasVK s.parameters
  · exact .inl hv
  · refine .inr fun k hk => ?_
    rcases h2 k hk with h | h
    · exact h
    · exact absurd h.1 hv

example : Accepts sigF.parameters [one, two, one] [("c", two), ("z", one)] := ⟨_, rfl⟩
example : ¬ KwCollides sigF.parameters 1 ["c", "z"] := by
  rintro ⟨_, p, hp, _, hn⟩
  simp [filledBy, sigF, List.filter_cons, isPositional, Param.kind, pA, pB, pArgs, pC, pKw] at hp
  subst hp; simp [Param.name] at hn

/-! ### C07 -/

/-- **C07** for plain signatures, well-formed or not. -/
theorem C07_allSet_implies_expects_plain (s : PlainSig) (args : List Obj) (kwargs : Kwargs)
    (h : s.allSet args kwargs = true) : s.expects args kwargs = true := by
  rw [allSet_eq_expects_and, Bool.and_eq_true] at h
  exact h.1

/-- **C07.** -/
theorem C07_allSet_implies_expects (s : Sig) (args : List Obj) (kwargs : Kwargs)
    (h : s.allSet args kwargs = true) : s.expects args kwargs = true := by
  cases s with
  | plain s => exact C07_allSet_implies_expects_plain s args kwargs h
  | overloaded ss =>
    simp only [Sig.allSet, Sig.expects, List.any_eq_true] at h ⊢
    obtain ⟨s, hs, h⟩ := h
    exact ⟨s, hs, C07_allSet_implies_expects_plain s args kwargs h⟩

example : sigF.allSet [one] [("c", two)] = true := by decide
example : sigF.expects [] [("a", two)] = true ∧ sigF.allSet [] [("a", two)] = false := by decide

/-! ### C13 (expects part), needed for C08 -/

/-- `expects` of any list of parameters, in the order the code uses. -/
theorem expects_general (s : PlainSig) (args : List Obj) (kwargs : Kwargs) :
    s.expects args kwargs = true ↔
      ((byKind s.parameters .variadicPositional).isEmpty = true →
        args.length ≤ (byKind s.parameters .positionalOnly
          ++ byKind s.parameters .positionalOrKeyword).length) ∧
      ((byKind s.parameters .variadicKeyword).isEmpty = true →
        ∀ k ∈ keys kwargs, k ∈ (byKind ((byKind s.parameters .positionalOnly
          ++ byKind s.parameters .positionalOrKeyword).drop args.length) .positionalOrKeyword
            ++ byKind s.parameters .keywordOnly).map Param.name) := by
  unfold PlainSig.expects
  simp only []
  generalize hP : byKind s.parameters .positionalOnly
          ++ byKind s.parameters .positionalOrKeyword = P
  generalize hR : byKind (P.drop args.length) .positionalOrKeyword
            ++ byKind s.parameters .keywordOnly = R
  cases h1 : (byKind s.parameters .variadicPositional).isEmpty <;>
    cases h2 : (byKind s.parameters .variadicKeyword).isEmpty <;>
    simp only [Bool.false_and, Bool.true_and, Bool.false_eq_true, if_false, Bool.not_false,
      false_implies, true_implies, and_self, true_and, and_true, Bool.not_eq_true',
      ← Bool.not_eq_true (List.any _ _), any_not_contains, Classical.not_not, mem_keys_byName]
  · by_cases hl : args.length ≤ P.length
    · have : ¬ args.length > P.length := by omega
      simp [this, hl]
    · have : args.length > P.length := by omega
      simp [this, hl]
  · by_cases hl : args.length ≤ P.length
    · have : ¬ args.length > P.length := by omega
      simp only [this, decide_false, Bool.false_eq_true, if_false, hl, true_and,
        Bool.not_eq_true', ← Bool.not_eq_true (List.any _ _), any_not_contains,
        Classical.not_not, mem_keys_byName]
    · have : args.length > P.length := by omega
      simp [this, hl]

/-- **C13**, `expects`, plain. -/
theorem C13_expects_downward_plain (s : PlainSig) (args args' : List Obj) (kwargs kwargs' : Kwargs)
    (ha : args' <+: args) (hk : ∀ k ∈ keys kwargs', k ∈ keys kwargs)
    (h : s.expects args kwargs = true) : s.expects args' kwargs' = true := by
  rw [expects_general] at h ⊢
  obtain ⟨h1, h2⟩ := h
  have hl := ha.length_le
  refine ⟨fun hv => Nat.le_trans hl (h1 hv), fun hv k hkk => ?_⟩
  have := h2 hv k (hk k hkk)
  simp only [List.map_append, List.mem_append, List.mem_map] at this ⊢
  rcases this with ⟨p, hp, hn⟩ | h
  · left
    refine ⟨p, ?_, hn⟩
    simp only [byKind, List.mem_filter] at hp ⊢
    refine ⟨?_, hp.2⟩
    have := hp.1
    exact (List.drop_sublist_drop_left _ hl).subset this
  · exact .inr h

/-- **C13**, `expects`, for every signature. -/
theorem C13_expects_downward (s : Sig) (args args' : List Obj) (kwargs kwargs' : Kwargs)
    (ha : args' <+: args) (hk : ∀ k ∈ keys kwargs', k ∈ keys kwargs)
    (h : s.expects args kwargs = true) : s.expects args' kwargs' = true := by
  cases s with
  | plain s => exact C13_expects_downward_plain s args args' kwargs kwargs' ha hk h
  | overloaded ss =>
    simp only [Sig.expects, List.any_eq_true] at h ⊢
    obtain ⟨s, hs, h⟩ := h
    exact ⟨s, hs, C13_expects_downward_plain s args args' kwargs kwargs' ha hk h⟩

/-- **C13**, `bind` of plain signatures. -/
theorem C13_bind_downward_plain (s : PlainSig) (hs : ConstructiblePlain s)
    (args args' : List Obj) (kwargs kwargs' : Kwargs)
    (ha : args' <+: args) (hk : ∀ k ∈ keys kwargs', k ∈ keys kwargs)
    (h : ∃ t, s.bind args kwargs = .ok t) : ∃ t, s.bind args' kwargs' = .ok t := by
  obtain ⟨hv, hw⟩ := (constructiblePlain_iff s).1 hs
  rw [bind_isOk_iff s hv hw] at h ⊢
  obtain ⟨h1, h2, h3⟩ := h
  have hl := ha.length_le
  refine ⟨?_, ?_, ?_⟩
  · rcases h1 with h1 | h1
    · exact .inl h1
    · exact .inr (Nat.le_trans hl h1)
  · intro p hp hn
    exact h2 p ((List.take_sublist_take_left hl).subset hp) (hk _ hn)
  · rcases h3 with h3 | h3
    · exact .inl h3
    · refine .inr fun k hkk => ?_
      obtain ⟨p, hp, hkw, hn⟩ := mem_kwNames.1 (h3 k (hk k hkk))
      refine mem_kwNames.2 ⟨p, ?_, hkw, hn⟩
      unfold remaining at hp ⊢
      rcases List.mem_append.1 hp with hp | hp
      · exact List.mem_append.2 (.inl ((List.drop_sublist_drop_left _ hl).subset hp))
      · exact List.mem_append.2 (.inr hp)

example : ∃ t, sigF.bind [one, two] [("c", two), ("z", one)] = .ok t := ⟨_, rfl⟩

/-! ### C08 -/

/-- What is expected can be completed, and without new collisions. -/
theorem expects_completion (s : PlainSig) (hs : ConstructiblePlain s) (args : List Obj)
    (kwargs : Kwargs) (hnd : (keys kwargs).Nodup) (h : s.expects args kwargs = true) :
    ∃ (more : List Obj) (moreKw : Kwargs), (keys (kwargs ++ moreKw)).Nodup ∧
      s.allSet (args ++ more) (kwargs ++ moreKw) = true ∧
      (KwCollides s.parameters (args ++ more).length (keys (kwargs ++ moreKw)) →
        KwCollides s.parameters args.length (keys kwargs)) := by
  obtain ⟨hv, hw⟩ := (constructiblePlain_iff s).1 hs
  -- fill the positional-only parameters positionally, everything else required by keyword
  let poLeft := ((posOf s.parameters).drop args.length).filter (fun p => p.kind == .positionalOnly)
  let req := (remaining s.parameters args.length).filter
    (fun p => acceptsKeyword p && p.isRequired && !(keys kwargs).contains p.name)
  -- positional-only parameters come first
  have hpo : ((posOf s.parameters).drop args.length).take poLeft.length = poLeft := by
    have hs : Sorted ((posOf s.parameters).drop args.length) :=
      (hw.ordered.sublist List.filter_sublist).sublist (List.drop_sublist _ _)
    have hall : ∀ p ∈ (posOf s.parameters).drop args.length, rank p.kind ≤ 1 := by
      intro p hp
      exact (isPositional_iff p).1 (List.mem_filter.1 (List.mem_of_mem_drop hp)).2
    show List.take ((((posOf s.parameters).drop args.length).filter
      (fun p => p.kind == .positionalOnly))).length _
        = ((posOf s.parameters).drop args.length).filter (fun p => p.kind == .positionalOnly)
    generalize (posOf s.parameters).drop args.length = l at hs hall
    induction l with
    | nil => rfl
    | cons p l ih =>
      rw [Sorted, List.pairwise_cons] at hs
      rw [List.filter_cons]
      split
      · rw [List.length_cons, List.take_succ_cons,
          ih hs.2 (fun q hq => hall q (List.mem_cons_of_mem _ hq))]
      · have : l.filter (fun p => p.kind == .positionalOnly) = [] := by
          rw [List.filter_eq_nil_iff]
          intro q hq hqk
          rename_i hpk
          have h1 := hs.1 q hq
          rw [beq_iff_eq.1 hqk] at h1
          have hr : rank p.kind = 0 := by
            have : rank Kind.positionalOnly = 0 := rfl
            omega
          apply hpk
          cases hk : p.kind <;> simp_all [rank]
        rw [this]; rfl
  refine ⟨poLeft.map (fun _ => Obj.none), req.map (fun p => (p.name, Obj.none)), ?_, ?_, ?_⟩
  · rw [keys_append, List.nodup_append]
    have hk : keys (req.map (fun p => (p.name, Obj.none))) = req.map Param.name := by
      simp [keys, Function.comp_def]
    rw [hk]
    refine ⟨hnd, (remaining_names_nodup hw _).sublist (List.filter_sublist.map _), ?_⟩
    intro a ha b hb hab
    obtain ⟨p, hp, rfl⟩ := List.mem_map.1 hb
    have := (List.mem_filter.1 hp).2
    simp only [Bool.and_eq_true, Bool.not_eq_true', List.contains_eq_mem,
      decide_eq_false_iff_not] at this
    exact this.2 (hab ▸ ha)
  · rw [expects_iff s hw.ordered] at h
    obtain ⟨h1, h2⟩ := h
    rw [allSet_iff s hw]
    have hlen : (args ++ poLeft.map (fun _ => Obj.none)).length
        = args.length + poLeft.length := by simp
    rw [hlen]
    have hmem : ∀ p ∈ remaining s.parameters args.length,
        p ∈ poLeft ∨ p ∈ remaining s.parameters (args.length + poLeft.length) := by
      intro p hp
      unfold remaining at hp ⊢
      rcases List.mem_append.1 hp with hp | hp
      · rw [← List.take_append_drop poLeft.length ((posOf s.parameters).drop args.length),
          List.mem_append, hpo, List.drop_drop] at hp
        rcases hp with hp | hp
        · exact .inl hp
        · exact .inr (List.mem_append.2 (.inl hp))
      · exact .inr (List.mem_append.2 (.inr hp))
    have hsub : ∀ p ∈ remaining s.parameters (args.length + poLeft.length),
        p ∈ remaining s.parameters args.length := by
      intro p hp
      rw [← remaining_remaining] at hp
      exact remaining_subset hp
    have hpolen : poLeft.length ≤ (posOf s.parameters).length - args.length := by
      have : poLeft.length ≤ ((posOf s.parameters).drop args.length).length :=
        List.length_filter_le _ _
      simpa using this
    have hkwpo : ∀ p ∈ poLeft, acceptsKeyword p = false := by
      intro p hp
      have := beq_iff_eq.1 (List.mem_filter.1 hp).2
      simp [acceptsKeyword, this]
    refine ⟨?_, ?_, ?_⟩
    · rcases h1 with h1 | h1
      · exact .inl h1
      · right; omega
    · rcases h2 with h2 | h2
      · exact .inl h2
      · refine .inr fun k hk => ?_
        rw [keys_append, List.mem_append] at hk
        have key : ∀ p ∈ remaining s.parameters args.length, acceptsKeyword p = true →
            p.name ∈ kwNames (remaining s.parameters (args.length + poLeft.length)) := by
          intro p hp hkw
          rcases hmem p hp with hp | hp
          · rw [hkwpo p hp] at hkw; simp at hkw
          · exact mem_kwNames.2 ⟨p, hp, hkw, rfl⟩
        rcases hk with hk | hk
        · obtain ⟨p, hp, hkw, rfl⟩ := mem_kwNames.1 (h2 k hk)
          exact key p hp hkw
        · simp only [keys, List.map_map, List.mem_map, Function.comp] at hk
          obtain ⟨p, hp, rfl⟩ := hk
          have := List.mem_filter.1 hp
          simp only [Bool.and_eq_true] at this
          exact key p this.1 this.2.1.1
    · intro p hp hr hsl
      have hpin := hsub p hp
      have hkw : acceptsKeyword p = true := by
        cases hk : p.kind with
        | positionalOnly =>
          exfalso
          -- a positional-only parameter is never left
          unfold remaining at hp
          rcases List.mem_append.1 hp with hp | hp
          · rw [← List.drop_drop] at hp
            have hnd := (hw.distinct.sublist (List.filter_sublist (p := isPositional)
              |>.map Param.name)).sublist ((List.drop_sublist args.length _).map _)
            have hpl : p ∈ poLeft := List.mem_filter.2
              ⟨List.mem_of_mem_drop hp, by simp [hk]⟩
            have hsplit := List.take_append_drop poLeft.length
              ((posOf s.parameters).drop args.length)
            change (List.map Param.name ((posOf s.parameters).drop args.length)).Nodup at hnd
            rw [← hsplit, hpo, List.map_append, List.nodup_append] at hnd
            exact hnd.2.2 _ (List.mem_map_of_mem hpl) _ (List.mem_map_of_mem hp) rfl
          · have := (List.mem_filter.1 hp).2
            simp [isPositional, hk] at this
        | positionalOrKeyword => simp [acceptsKeyword, hk]
        | keywordOnly => simp [acceptsKeyword, hk]
        | variadicPositional => simp [hasSlot, hk] at hsl
        | variadicKeyword => simp [hasSlot, hk] at hsl
      refine ⟨hkw, ?_⟩
      rw [keys_append, List.mem_append]
      by_cases hin : p.name ∈ keys kwargs
      · exact .inl hin
      · right
        simp only [keys, List.map_map, List.mem_map, Function.comp]
        refine ⟨p, List.mem_filter.2 ⟨hpin, ?_⟩, rfl⟩
        simp [hkw, hr, hin]
  · rintro ⟨hvk, p, hp, hkw, hn⟩
    refine ⟨hvk, p, ?_, hkw, ?_⟩
    · rw [List.length_append, List.length_map] at hp
      unfold filledBy at hp ⊢
      rw [List.take_add, List.mem_append] at hp
      rcases hp with hp | hp
      · exact hp
      · have hp' : p ∈ poLeft := by rw [← hpo]; exact hp
        have := beq_iff_eq.1 (List.mem_filter.1 hp').2
        simp [acceptsKeyword, this] at hkw
    · rw [keys_append, List.mem_append] at hn
      rcases hn with hn | hn
      · exact hn
      · simp only [keys, List.map_map, List.mem_map, Function.comp] at hn
        obtain ⟨q, hq, hqn⟩ := hn
        have hq' := (List.mem_filter.1 hq).1
        have hqk := (List.mem_filter.1 hq).2
        simp only [Bool.and_eq_true] at hqk
        rw [List.length_append, List.length_map] at hp
        unfold filledBy at hp
        rw [List.take_add, List.mem_append] at hp
        rcases hp with hp | hp
        · exact absurd hqn.symm (name_not_both hw _ hp hq')
        · have hp' : p ∈ poLeft := by rw [← hpo]; exact hp
          have := beq_iff_eq.1 (List.mem_filter.1 hp').2
          simp [acceptsKeyword, this] at hkw

/-- **C08.** `expects` is "can be completed to an `all_set` argument list". -/
theorem C08_expects_iff_completable (s : PlainSig) (hs : ConstructiblePlain s) (args : List Obj)
    (kwargs : Kwargs) (hnd : (keys kwargs).Nodup) :
    s.expects args kwargs = true ↔
      ∃ (more : List Obj) (moreKw : Kwargs), (keys (kwargs ++ moreKw)).Nodup ∧
        s.allSet (args ++ more) (kwargs ++ moreKw) = true := by
  constructor
  · intro h
    obtain ⟨more, moreKw, h1, h2, -⟩ := expects_completion s hs args kwargs hnd h
    exact ⟨more, moreKw, h1, h2⟩
  · rintro ⟨more, moreKw, _, h⟩
    exact C13_expects_downward_plain s _ _ _ _ (List.prefix_append _ _)
      (fun k hk => by rw [keys_append]; exact List.mem_append.2 (.inl hk))
      (C07_allSet_implies_expects_plain s _ _ h)

example : sigF.expects [] [("b", two)] = true ∧ sigF.allSet [] [("b", two)] = false ∧
    sigF.allSet ([] ++ [one]) ([("b", two)] ++ [("c", one)]) = true := by decide

/-! ### C09 -/

theorem keys_merge (k rk : Kwargs) (x : String) :
    x ∈ keys (merge k rk) ↔ x ∈ keys k ∨ x ∈ keys rk := by
  have h1 : keys (merge k rk) = keys k ++ (keys rk).filter (fun x => !(keys k).contains x) := by
    unfold merge keys
    rw [List.map_append, List.map_map, List.filter_map]; rfl
  rw [h1, List.mem_append, List.mem_filter]
  by_cases h : x ∈ keys k <;> simp [h]

theorem keys_merge_nodup (k rk : Kwargs) (hk : (keys k).Nodup) (hrk : (keys rk).Nodup) :
    (keys (merge k rk)).Nodup := by
  have h1 : keys (merge k rk) = keys k ++ (keys rk).filter (fun x => !(keys k).contains x) := by
    unfold merge keys
    rw [List.map_append, List.map_map, List.filter_map]; rfl
  rw [h1, List.nodup_append]
  refine ⟨hk, hrk.sublist List.filter_sublist, ?_⟩
  intro a ha b hb hab
  have := (List.mem_filter.1 hb).2
  simp [← hab, ha] at this

/-- **C09**, full statement. -/
def C09_statement : Prop :=
  ∀ (s t : PlainSig), ConstructiblePlain s → ∀ (a : List Obj) (k : Kwargs), (keys k).Nodup →
    s.bind a k = .ok t → ∀ (r : List Obj) (rk : Kwargs), (keys rk).Nodup →
      (Accepts t.parameters r rk ↔ Accepts s.parameters (a ++ r) (merge k rk))

/-- **C09** is violated by the code: after `g(a, **kw).bind(1)` the call `(a=2)` is accepted, but
`g(1, a=2)` is a `TypeError` in Python. -/
theorem C09_refuted : ¬ C09_statement := by
  intro h
  have := (h sigG ⟨[pKw], int_⟩ sigG_ok [one] [] (by simp [keys]) rfl [] [("a", two)]
    (by simp [keys])).1 ⟨_, rfl⟩
  obtain ⟨f, hf⟩ := this
  have he : PyCall.call sigG.parameters ([one] ++ []) (merge [] [("a", two)])
      = .error (.multipleValues "a") := rfl
  rw [he] at hf; cases hf

/-- **C09**, what holds: `bind` is partial application unless, with `**kwargs` present, a later
keyword repeats the name of a positional-or-keyword parameter that `bind` filled positionally. -/
theorem C09_bind_partial_application_partial (s t : PlainSig) (hs : ConstructiblePlain s)
    (a : List Obj) (k : Kwargs) (hk : (keys k).Nodup) (hb : s.bind a k = .ok t)
    (r : List Obj) (rk : Kwargs) (hrk : (keys rk).Nodup)
    (hc : ¬ KwCollides s.parameters a.length (keys rk)) :
    Accepts t.parameters r rk ↔ Accepts s.parameters (a ++ r) (merge k rk) := by
  obtain ⟨hv, hw⟩ := (constructiblePlain_iff s).1 hs
  obtain ⟨h1, h2, h3, rfl⟩ := (bind_eq s hv hw a k t).1 hb
  have hwR := remaining_wellFormed hw a.length
  rw [accepts_iff (applyKw_wellFormed k _ hwR) r rk hrk,
    accepts_iff hw _ _ (keys_merge_nodup k rk hk hrk), countOk_applyKw _ _ hwR.ordered,
    countOk_remaining _ _ _ h1, List.length_append]
  constructor
  · rintro ⟨⟨c1, c2⟩, c3, c4⟩
    refine ⟨c1, ?_, ?_⟩
    · intro x hx
      rw [keys_merge] at hx
      unfold keysOk at c3
      simp only [remaining_applyKw _ _ hwR.ordered _ c2, kwNames_applyKw, remaining_remaining,
        hasVK_applyKw, hasVK_remaining, take_applyKw _ _ hwR.ordered _ c2, posOf_remaining] at c3
      have hk' : x ∈ keys rk → x ∈ kwNames (remaining s.parameters (a.length + r.length)) ∨
          hasVK s.parameters ∧ x ∉ kwNames ((posOf s.parameters).take (a.length + r.length)) := by
        intro hx
        rcases c3 x hx with h | ⟨h, h'⟩
        · exact .inl h
        · refine .inr ⟨h, fun hin => ?_⟩
          obtain ⟨p, hp, hkw, rfl⟩ := mem_kwNames.1 hin
          rw [List.take_add, List.mem_append] at hp
          rcases hp with hp | hp
          · exact hc ⟨h, p, hp, hkw, hx⟩
          · exact h' (mem_kwNames.2 ⟨p, hp, hkw, rfl⟩)
      rcases hx with hx | hx
      · -- a bound keyword
        have hnot : x ∉ kwNames ((posOf s.parameters).take (a.length + r.length)) := by
          intro hin
          obtain ⟨p, hp, hkw, rfl⟩ := mem_kwNames.1 hin
          rw [List.take_add, List.mem_append] at hp
          rcases hp with hp | hp
          · exact h2 p hp hx
          · have := c2 p (by rw [posOf_remaining]; exact hp)
            simp [isBound, hkw, hx] at this
        rcases h3 with h3 | h3
        · exact .inr ⟨h3, hnot⟩
        · left
          obtain ⟨p, hp, hkw, rfl⟩ := mem_kwNames.1 (h3 x hx)
          refine mem_kwNames.2 ⟨p, ?_, hkw, rfl⟩
          rcases (mem_iff_take_or_remaining hw.ordered (a.length + r.length) p).1
            (remaining_subset hp) with hp' | hp'
          · exact absurd (mem_kwNames.2 ⟨p, hp', hkw, rfl⟩) hnot
          · exact hp'
      · exact hk' hx
    · change reqL _ _ at c4
      rw [remaining_applyKw _ _ hwR.ordered _ c2, reqL_applyKw, remaining_remaining] at c4
      intro p hp hr hsl
      obtain ⟨d1, d2⟩ := c4 p hp hr hsl
      exact ⟨d1, (keys_merge _ _ _).2 d2⟩
  · rintro ⟨d1, d2, d3⟩
    have c2 : unboundTake k (remaining s.parameters a.length) r.length := by
      intro p hp
      rw [posOf_remaining] at hp
      cases hbd : isBound k p with
      | false => rfl
      | true =>
        exfalso
        simp only [isBound, Bool.and_eq_true, decide_eq_true_eq] at hbd
        have hpt : p ∈ (posOf s.parameters).take (a.length + r.length) := by
          rw [List.take_add]; exact List.mem_append.2 (.inr hp)
        rcases d2 p.name ((keys_merge _ _ _).2 (.inl hbd.2)) with h | h
        · obtain ⟨q, hq, _, hqn⟩ := mem_kwNames.1 h
          exact name_not_both hw _ hpt hq hqn.symm
        · exact h.2 (mem_kwNames.2 ⟨p, hpt, hbd.1, rfl⟩)
    refine ⟨⟨d1, c2⟩, ?_, ?_⟩
    · unfold keysOk
      simp only [remaining_applyKw _ _ hwR.ordered _ c2, kwNames_applyKw, remaining_remaining,
        hasVK_applyKw, hasVK_remaining, take_applyKw _ _ hwR.ordered _ c2, posOf_remaining]
      intro x hx
      rcases d2 x ((keys_merge _ _ _).2 (.inr hx)) with h | ⟨h, h'⟩
      · exact .inl h
      · refine .inr ⟨h, fun hin => h' ?_⟩
        obtain ⟨p, hp, hkw, rfl⟩ := mem_kwNames.1 hin
        refine mem_kwNames.2 ⟨p, ?_, hkw, rfl⟩
        rw [List.take_add]; exact List.mem_append.2 (.inr hp)
    · show reqL _ _
      rw [remaining_applyKw _ _ hwR.ordered _ c2, reqL_applyKw, remaining_remaining]
      intro p hp hr hsl
      obtain ⟨e1, e2⟩ := d3 p hp hr hsl
      exact ⟨e1, (keys_merge _ _ _).1 e2⟩

/-- C09 without `**kwargs` needs no exclusion. -/
theorem C09_bind_partial_application_no_var_keyword (s t : PlainSig) (hs : ConstructiblePlain s)
    (hkw : ¬ HasVarKeyword s.parameters)
    (a : List Obj) (k : Kwargs) (hk : (keys k).Nodup) (hb : s.bind a k = .ok t)
    (r : List Obj) (rk : Kwargs) (hrk : (keys rk).Nodup) :
    Accepts t.parameters r rk ↔ Accepts s.parameters (a ++ r) (merge k rk) :=
  C09_bind_partial_application_partial s t hs a k hk hb r rk hrk (fun h => hkw h.1)

example : sigI.bind [one] [("c", two)] = .ok ⟨[pB, .optional int_ (some two) .keywordOnly "c"],
    int_⟩ ∧ Accepts [pB, .optional int_ (some two) .keywordOnly "c"] [two] [("c", one)] :=
  ⟨rfl, ⟨_, rfl⟩⟩

/-! ### C10 -/

/-- **C10**, full statement. -/
def C10_statement : Prop :=
  ∀ (s : PlainSig), ConstructiblePlain s → ∀ (a r : List Obj) (k rk : Kwargs),
    (keys (k ++ rk)).Nodup → ∀ u : PlainSig,
    ((∃ t, s.bind a k = .ok t ∧ t.bind r rk = .ok u) ↔ s.bind (a ++ r) (k ++ rk) = .ok u)

/-- **C10** is violated by the code: `g(a, **kw)`: `bind(1).bind(a=2)` succeeds, `bind(1, a=2)`
raises. -/
theorem C10_refuted : ¬ C10_statement := by
  intro h
  have := (h sigG sigG_ok [one] [] [] [("a", two)] (by simp [keys]) ⟨[pKw], int_⟩).1
    ⟨⟨[pKw], int_⟩, rfl, rfl⟩
  simp [PlainSig.bind, sigG, bindPositionals, pA, pKw, isPositionable, Param.kind,
    checkPositionals, keys, Param.name, List.takeWhile] at this

/-- **C10**, second violation: for `h(a, /, **kw)`, `bind(a=2).bind(1)` succeeds (as in Python),
`bind(1, a=2)` raises. -/
theorem C10_refuted_positional_only :
    (∃ t, sigH.bind [] [("a", two)] = .ok t ∧ t.bind [one] [] = .ok ⟨[pKw], int_⟩) ∧
    ∃ tag, sigH.bind [one] [("a", two)] = .error (.typeError tag) :=
  ⟨⟨_, rfl, rfl⟩, ⟨_, rfl⟩⟩

/-- **C10**, what holds: two steps equal one step unless, with `**kwargs` present, some keyword
repeats the name of a parameter filled positionally. -/
theorem C10_bind_twice_partial (s : PlainSig) (hs : ConstructiblePlain s)
    (a r : List Obj) (k rk : Kwargs) (hnd : (keys (k ++ rk)).Nodup)
    (hc : ¬ Collides s.parameters (a.length + r.length) (keys (k ++ rk))) (u : PlainSig) :
    (∃ t, s.bind a k = .ok t ∧ t.bind r rk = .ok u) ↔ s.bind (a ++ r) (k ++ rk) = .ok u := by
  obtain ⟨hv, hw⟩ := (constructiblePlain_iff s).1 hs
  have hd : ∀ n ∈ keys k, n ∉ keys rk := by
    rw [keys_append, List.nodup_append] at hnd
    exact fun n h1 h2 => hnd.2.2 n h1 n h2 rfl
  have hwR := remaining_wellFormed hw a.length
  have hvR : ∀ p ∈ remaining s.parameters a.length, ValidParam p :=
    fun p hp => hv p (remaining_subset hp)
  rw [bind_eq s hv hw, List.length_append]
  constructor
  · rintro ⟨t, hb, hb2⟩
    obtain ⟨h1, h2, h3, rfl⟩ := (bind_eq s hv hw a k t).1 hb
    obtain ⟨e1, e2, e3, rfl⟩ := (bind_eq _ (applyKw_valid k _ hvR)
      (applyKw_wellFormed k _ hwR) r rk u).1 hb2
    simp only at e1 e2 e3 ⊢
    rw [countOk_applyKw _ _ hwR.ordered, countOk_remaining _ _ _ h1] at e1
    obtain ⟨c1, c2⟩ := e1
    have n3 : namesOk s.parameters (a.length + r.length) (k ++ rk) := by
      by_cases hvk : hasVK s.parameters
      · exact .inl hvk
      · right
        intro x hx
        rw [keys_append, List.mem_append] at hx
        rcases hx with hx | hx
        · have h3 := h3.resolve_left hvk
          obtain ⟨p, hp, hkw, rfl⟩ := mem_kwNames.1 (h3 x hx)
          refine mem_kwNames.2 ⟨p, ?_, hkw, rfl⟩
          rw [← remaining_remaining]
          rcases (mem_iff_take_or_remaining hwR.ordered r.length p).1 hp with hp' | hp'
          · have := c2 p hp'
            simp [isBound, hkw, hx] at this
          · exact hp'
        · unfold namesOk at e3
          rw [hasVK_applyKw, hasVK_remaining] at e3
          have := e3.resolve_left hvk x hx
          rw [remaining_applyKw _ _ hwR.ordered _ c2, kwNames_applyKw, remaining_remaining] at this
          exact this
    refine ⟨c1, ?_, n3, ?_⟩
    · intro p hp hx
      rcases n3 with n3 | n3
      · exact hc ⟨n3, p, hp, hx⟩
      · obtain ⟨q, hq, _, hqn⟩ := mem_kwNames.1 (n3 _ hx)
        exact name_not_both hw _ hp hq hqn.symm
    · rw [remaining_applyKw _ _ hwR.ordered _ c2, remaining_remaining, applyKw_applyKw k rk hd]
  · rintro ⟨d1, d2, d3, rfl⟩
    have c2 : unboundTake k (remaining s.parameters a.length) r.length := by
      intro p hp
      rw [posOf_remaining] at hp
      have hpt : p ∈ (posOf s.parameters).take (a.length + r.length) := by
        rw [List.take_add]; exact List.mem_append.2 (.inr hp)
      have := d2 p hpt
      rw [keys_append, List.mem_append, not_or] at this
      simp [isBound, this.1]
    have h1 : countOk s.parameters a.length := by
      rcases d1 with d1 | d1
      · exact .inl d1
      · exact .inr (by omega)
    refine ⟨_, (bind_eq s hv hw a k _).2 ⟨h1, ?_, ?_, rfl⟩, ?_⟩
    · intro p hp hx
      refine d2 p ?_ ?_
      · rw [List.take_add]; exact List.mem_append.2 (.inl hp)
      · rw [keys_append]; exact List.mem_append.2 (.inl hx)
    · rcases d3 with d3 | d3
      · exact .inl d3
      · right
        intro x hx
        obtain ⟨p, hp, hkw, rfl⟩ := mem_kwNames.1
          (d3 x (by rw [keys_append]; exact List.mem_append.2 (.inl hx)))
        rw [← remaining_remaining] at hp
        exact mem_kwNames.2 ⟨p, remaining_subset hp, hkw, rfl⟩
    · rw [bind_eq _ (applyKw_valid k _ hvR) (applyKw_wellFormed k _ hwR)]
      simp only
      refine ⟨?_, ?_, ?_, ?_⟩
      · rw [countOk_applyKw _ _ hwR.ordered, countOk_remaining _ _ _ h1]; exact ⟨d1, c2⟩
      · unfold freshOk
        rw [take_applyKw _ _ hwR.ordered _ c2, posOf_remaining]
        intro p hp hx
        refine d2 p ?_ ?_
        · rw [List.take_add]; exact List.mem_append.2 (.inr hp)
        · rw [keys_append]; exact List.mem_append.2 (.inr hx)
      · unfold namesOk
        rw [hasVK_applyKw, hasVK_remaining]
        rcases d3 with d3 | d3
        · exact .inl d3
        · right
          intro x hx
          rw [remaining_applyKw _ _ hwR.ordered _ c2, kwNames_applyKw, remaining_remaining]
          exact d3 x (by rw [keys_append]; exact List.mem_append.2 (.inr hx))
      · rw [remaining_applyKw _ _ hwR.ordered _ c2, remaining_remaining, applyKw_applyKw k rk hd]

example : ∃ t, sigF.bind [one] [("b", two)] = .ok t ∧ ∃ u, t.bind [] [("c", one)] = .ok u :=
  ⟨_, rfl, _, rfl⟩
example : ¬ Collides sigF.parameters 1 ["b", "c"] := by
  rintro ⟨_, p, hp, hn⟩
  simp [filledBy, sigF, List.filter_cons, isPositional, Param.kind, pA, pB, pArgs, pC, pKw] at hp
  subst hp; simp [Param.name] at hn

end Paradigm.Props
