import Verif.Spec.WellFormed

/-! Helper lemmas about the validation loop and well-formed parameter lists. -/

namespace Paradigm

open Spec

theorem rank_eq_toNat (k : Kind) : rank k = k.toNat := by cases k <;> rfl

theorem new_ok_iff {ps : List Param} {r : Obj} {s : PlainSig} :
    PlainSig.new ps r = .ok s ↔ PlainSig.validate ps = .ok () ∧ s = ⟨ps, r⟩ := by
  unfold PlainSig.new
  cases h : PlainSig.validate ps with
  | error e => simp
  | ok u => cases u; simp [eq_comm]

theorem validParam_iff (p : Param) : ConstructibleParam p ↔ ValidParam p := by
  constructor
  · rintro (⟨a, k, n, h⟩ | ⟨a, k, n, d, h⟩)
    · unfold RequiredParameter.new at h
      cases k with
      | other => simp [validateKind] at h
      | kind k =>
        cases k <;> simp [validateKind] at h <;> subst h <;> simp [ValidParam]
    · unfold OptionalParameter.new at h
      cases k with
      | other => simp [validateKind] at h
      | kind k =>
        cases hd : d.isNoDefault <;> cases k <;> simp [validateKind, hd] at h <;> subst h <;>
          simp [ValidParam, hd]
  · intro h
    cases p with
    | required a k n =>
      refine .inl ⟨a, .kind k, n, ?_⟩
      cases k <;> simp [ValidParam] at h <;> simp [RequiredParameter.new, validateKind]
    | optional a d k n =>
      refine .inr ⟨a, .kind k, n, d.getD Obj.noDefault, ?_⟩
      cases d with
      | none =>
        simp [OptionalParameter.new, validateKind, Obj.noDefault, Obj.isNoDefault]
      | some v =>
        obtain ⟨h1, h2⟩ := h
        have := h2 v rfl
        cases k <;> simp at h1 <;> simp [OptionalParameter.new, validateKind, this]

theorem isRequired_eq (p : Param) : p.isRequired = !p.isOptional := by cases p <;> rfl

theorem validateRest_cons (p : Param) (ps : List Param) (prior : Param) (names : List String)
    (kinds : List Kind) :
    PlainSig.validateRest prior names kinds (p :: ps) = .ok () ↔
      p.name ∉ names ∧ rank prior.kind ≤ rank p.kind ∧
      (PyCall.isPositional p = true → prior.isOptional = true → p.isOptional = true) ∧
      (p.kind = .variadicPositional ∨ p.kind = .variadicKeyword → p.kind ∉ kinds) ∧
      PlainSig.validateRest p (p.name :: names) (p.kind :: kinds) ps = .ok () := by
  rw [PlainSig.validateRest]
  by_cases h1 : p.name ∈ names
  · simp [h1]
  · by_cases h2 : p.kind.toNat < prior.kind.toNat
    · have : ¬ rank prior.kind ≤ rank p.kind := by
        rw [rank_eq_toNat, rank_eq_toNat]; omega
      simp [h1, h2, this]
    · have : rank prior.kind ≤ rank p.kind := by
        rw [rank_eq_toNat, rank_eq_toNat]; omega
      simp only [List.contains_eq_mem, h1, h2, this, decide_false, Bool.false_eq_true, if_false,
        not_false_eq_true, true_and, isRequired_eq]
      cases hk : p.kind <;> cases hp : prior.isOptional <;> cases ho : p.isOptional <;>
        simp [PyCall.isPositional, hk] <;> split <;> simp_all

theorem pairwise_opt_trans (l : List Param) (p q : Param)
    (h : (q :: l).Pairwise (fun p q => p.isOptional = true → q.isOptional = true))
    (hpq : p.isOptional = true → q.isOptional = true) :
    (p :: q :: l).Pairwise (fun p q => p.isOptional = true → q.isOptional = true) := by
  rw [List.pairwise_cons] at h ⊢
  refine ⟨?_, List.pairwise_cons.2 h⟩
  intro x hx hp
  rcases List.mem_cons.1 hx with rfl | hx
  · exact hpq hp
  · exact h.1 x hx (hpq hp)

theorem isPositional_iff (p : Param) : PyCall.isPositional p = true ↔ rank p.kind ≤ 1 := by
  unfold PyCall.isPositional; cases p.kind <;> simp [rank]

/-- Being legal after `prior`, the form in which the loop checks it. -/
theorem validateRest_ok_iff (ps : List Param) (prior : Param) (names : List String)
    (kinds : List Kind) :
    PlainSig.validateRest prior names kinds ps = .ok () ↔
      (ps.map Param.name).Nodup ∧ (∀ p ∈ ps, p.name ∉ names) ∧
      ps.Pairwise (fun p q => rank p.kind ≤ rank q.kind) ∧
      (∀ p ∈ ps, rank prior.kind ≤ rank p.kind) ∧
      ps.countP (fun p => p.kind == .variadicPositional) ≤ 1 ∧
      (.variadicPositional ∈ kinds → ∀ p ∈ ps, p.kind ≠ .variadicPositional) ∧
      ps.countP (fun p => p.kind == .variadicKeyword) ≤ 1 ∧
      (.variadicKeyword ∈ kinds → ∀ p ∈ ps, p.kind ≠ .variadicKeyword) ∧
      ((prior :: ps).filter PyCall.isPositional).Pairwise
        (fun p q => p.isOptional → q.isOptional) := by
  induction ps generalizing prior names kinds with
  | nil =>
    simp only [PlainSig.validateRest, List.filter]
    cases PyCall.isPositional prior <;> simp
  | cons p ps ih =>
    rw [validateRest_cons, ih]
    have key : ∀ k : Kind, ps.countP (fun q => q.kind == k) = 0 ↔ ∀ q ∈ ps, q.kind ≠ k := by
      intro k; rw [List.countP_eq_zero]; simp
    constructor
    · rintro ⟨h1, h2, h3, h4, a1, a2, a3, a4, a5, a6, a7, a8, a9⟩
      refine ⟨?_, ?_, ?_, ?_, ?_, ?_, ?_, ?_, ?_⟩
      · rw [List.map_cons, List.nodup_cons]
        refine ⟨?_, a1⟩
        intro hm
        obtain ⟨q, hq, hn⟩ := List.mem_map.1 hm
        exact a2 q hq (hn ▸ List.mem_cons_self)
      · intro q hq
        rcases List.mem_cons.1 hq with rfl | hq
        · exact h1
        · exact fun h => a2 q hq (List.mem_cons_of_mem _ h)
      · exact List.pairwise_cons.2 ⟨a4, a3⟩
      · intro q hq
        rcases List.mem_cons.1 hq with rfl | hq
        · exact h2
        · exact Nat.le_trans h2 (a4 q hq)
      · rw [List.countP_cons]
        by_cases hk : p.kind = .variadicPositional
        · have := (key .variadicPositional).2 (a6 (by simp [hk])); simp [this]; split <;> omega
        · simp [hk]; exact a5
      · intro hk q hq
        rcases List.mem_cons.1 hq with rfl | hq
        · intro h; exact h4 (.inl h) (h ▸ hk)
        · exact a6 (List.mem_cons_of_mem _ hk) q hq
      · rw [List.countP_cons]
        by_cases hk : p.kind = .variadicKeyword
        · have := (key .variadicKeyword).2 (a8 (by simp [hk])); simp [this]; split <;> omega
        · simp [hk]; exact a7
      · intro hk q hq
        rcases List.mem_cons.1 hq with rfl | hq
        · intro h; exact h4 (.inr h) (h ▸ hk)
        · exact a8 (List.mem_cons_of_mem _ hk) q hq
      · by_cases hp : PyCall.isPositional p = true
        · have hprior : PyCall.isPositional prior = true :=
            (isPositional_iff _).2 (Nat.le_trans h2 ((isPositional_iff _).1 hp))
          rw [List.filter_cons_of_pos hprior, List.filter_cons_of_pos hp]
          rw [List.filter_cons_of_pos hp] at a9
          exact pairwise_opt_trans _ _ _ a9 (h3 hp)
        · have : ps.filter PyCall.isPositional = [] := by
            rw [List.filter_eq_nil_iff]
            intro q hq h
            rw [isPositional_iff] at h hp
            have := a4 q hq; omega
          rw [List.filter_cons, List.filter_cons_of_neg hp, this]
          split <;> simp
    · rintro ⟨b1, b2, b3, b4, b5, b6, b7, b8, b9⟩
      rw [List.map_cons, List.nodup_cons] at b1
      rw [List.pairwise_cons] at b3
      rw [List.countP_cons] at b5 b7
      refine ⟨b2 p List.mem_cons_self, b4 p List.mem_cons_self, ?_, ?_, b1.2, ?_, b3.2, b3.1, ?_,
        ?_, ?_, ?_, ?_⟩
      · intro hp ho
        have hprior : PyCall.isPositional prior = true :=
            (isPositional_iff _).2 (Nat.le_trans (b4 p List.mem_cons_self)
              ((isPositional_iff _).1 hp))
        rw [List.filter_cons_of_pos hprior, List.filter_cons_of_pos hp] at b9
        exact (List.pairwise_cons.1 b9).1 p List.mem_cons_self ho
      · rintro (h | h) hk
        · exact b6 (h ▸ hk) p List.mem_cons_self h
        · exact b8 (h ▸ hk) p List.mem_cons_self h
      · intro q hq hn
        rcases List.mem_cons.1 hn with hn | hn
        · exact b1.1 (List.mem_map.2 ⟨q, hq, hn⟩)
        · exact b2 q (List.mem_cons_of_mem _ hq) hn
      · omega
      · intro hk
        rcases List.mem_cons.1 hk with hk | hk
        · simp [← hk] at b5; exact b5
        · exact fun q hq => b6 hk q (List.mem_cons_of_mem _ hq)
      · omega
      · intro hk
        rcases List.mem_cons.1 hk with hk | hk
        · simp [← hk] at b7; exact b7
        · exact fun q hq => b8 hk q (List.mem_cons_of_mem _ hq)
      · exact List.Pairwise.sublist ((List.sublist_cons_self _ _).filter _) b9

theorem validate_ok_iff (ps : List Param) :
    PlainSig.validate ps = .ok () ↔ WellFormed ps := by
  cases ps with
  | nil => simp only [PlainSig.validate, true_iff]; exact ⟨by simp, by simp, by simp, by simp, by simp⟩
  | cons p ps =>
    simp only [PlainSig.validate]
    rw [validateRest_ok_iff]
    have key : ∀ k : Kind, ps.countP (fun q => q.kind == k) = 0 ↔ ∀ q ∈ ps, q.kind ≠ k := by
      intro k; rw [List.countP_eq_zero]; simp
    constructor
    · rintro ⟨a1, a2, a3, a4, a5, a6, a7, a8, a9⟩
      refine ⟨?_, List.pairwise_cons.2 ⟨a4, a3⟩, ?_, ?_, a9⟩
      · rw [List.map_cons, List.nodup_cons]
        refine ⟨fun hm => ?_, a1⟩
        obtain ⟨q, hq, hn⟩ := List.mem_map.1 hm
        exact a2 q hq (by simp [hn])
      · rw [List.countP_cons]
        by_cases hk : p.kind = .variadicPositional
        · have := (key .variadicPositional).2 (a6 (by simp [hk])); simp [this]; split <;> omega
        · simp [hk]; exact a5
      · rw [List.countP_cons]
        by_cases hk : p.kind = .variadicKeyword
        · have := (key .variadicKeyword).2 (a8 (by simp [hk])); simp [this]; split <;> omega
        · simp [hk]; exact a7
    · rintro ⟨b1, b2, b3, b4, b5⟩
      rw [List.map_cons, List.nodup_cons] at b1
      rw [List.pairwise_cons] at b2
      rw [List.countP_cons] at b3 b4
      refine ⟨b1.2, ?_, b2.2, b2.1, by omega, ?_, by omega, ?_, b5⟩
      · intro q hq hn
        exact b1.1 (List.mem_map.2 ⟨q, hq, by simpa using hn⟩)
      · intro hk
        simp at hk; simp [← hk] at b3; exact b3
      · intro hk
        simp at hk; simp [← hk] at b4; exact b4

theorem validateRest_error (ps : List Param) (prior : Param) (names : List String)
    (kinds : List Kind) (e : PyErr) :
    PlainSig.validateRest prior names kinds ps = .error e → ∃ tag, e = .valueError tag := by
  induction ps generalizing prior names kinds with
  | nil => simp [PlainSig.validateRest]
  | cons p ps ih =>
    rw [PlainSig.validateRest]
    repeat' split
    all_goals first | exact ih _ _ _ | (intro h; exact ⟨_, (Except.error.inj h).symm⟩)

theorem constructiblePlain_iff (s : PlainSig) :
    ConstructiblePlain s ↔ (∀ p ∈ s.parameters, ValidParam p) ∧ WellFormed s.parameters := by
  simp only [ConstructiblePlain, validParam_iff, new_ok_iff, validate_ok_iff, and_true]

end Paradigm
