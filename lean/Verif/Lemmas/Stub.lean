import Verif.Lemmas.Compose
import Verif.Lemmas.Formals

/-! Acceptance of signatures built from definitions. -/

namespace Paradigm

open PyCall Spec

theorem fromFunctionDef_ok {R : Runtime} {f : FunctionDef} {c : Fn} {m parent : Path} {sig : Sig} :
    fromFunctionDef R f c m parent = .ok sig ↔ ∃ ps r, parametersFrom R f c m parent = .ok ps ∧
      returnsFrom R f c m parent = .ok r ∧ WellFormed ps ∧ sig = .plain ⟨ps, r⟩ := by
  unfold fromFunctionDef
  simp only [except_bind_ok, pure_ok, new_ok_iff, validate_ok_iff]
  constructor
  · rintro ⟨ps, hp, r, hr, s, ⟨hw, rfl⟩, rfl⟩
    exact ⟨ps, r, hp, hr, hw, rfl⟩
  · rintro ⟨ps, r, hp, hr, hw, rfl⟩
    exact ⟨ps, hp, r, hr, _, ⟨hw, rfl⟩, rfl⟩

theorem hasRole_unique {R : Runtime} {f : FunctionDef} {c : Fn} {m parent : Path} {r r' : Role}
    (h : HasRole R f c m parent r) (h' : HasRole R f c m parent r') : r = r' := by
  cases r with
  | constructor =>
    cases r' with
    | constructor => rfl
    | _ => have := h'.1; rw [show c.isType = true from h] at this; cases this
  | function =>
    cases r' with
    | function => rfl
    | constructor => have := h.1; rw [show c.isType = true from h'] at this; cases this
    | classMethod =>
      obtain ⟨_, d, hd, hi⟩ := h'
      exact absurd hi (h.2.1 d hd)
    | method => exact absurd h'.2.2 h.2.2
  | method =>
    cases r' with
    | method => rfl
    | constructor => have := h.1; rw [show c.isType = true from h'] at this; cases this
    | classMethod =>
      obtain ⟨_, d, hd, hi⟩ := h'
      exact absurd hi (h.2.1 d hd)
    | function => exact absurd h.2.2 h'.2.2
  | classMethod =>
    obtain ⟨hc, d, hd, hi⟩ := h
    cases r' with
    | classMethod => rfl
    | constructor => rw [show c.isType = true from h'] at hc; cases hc
    | method => exact absurd hi (h'.2.1 d hd)
    | function => exact absurd hi (h'.2.1 d hd)

theorem transcribes_narrower {ev : Expr → Except PyErr Obj} {f : Formal} {p q : Param}
    (h : Transcribes ev f p) (h' : Declares f q) : Narrower p q := by
  refine ⟨h.name.trans h'.name.symm, ?_, ?_⟩
  · rw [h.kind, h'.kind]
    split
    · rename_i hk; exact .inr ⟨rfl, hk⟩
    · exact .inl rfl
  · rw [isRequired_eq, isRequired_eq]
    have : p.isOptional = q.isOptional := by
      rw [Bool.eq_iff_iff, h.optional, h'.optional]
    rw [this]; exact id

theorem pointwise_narrower {ev : Expr → Except PyErr Obj} {fs : List Formal} {ps qs : List Param}
    (h : Pointwise (Transcribes ev) fs ps) (h' : Pointwise Declares fs qs) :
    Pointwise Narrower ps qs :=
  (h.flip.comp h').imp fun _ _ _ _ ⟨_, h, h'⟩ => transcribes_narrower h h'

/-- Prepending a positional-only parameter and an argument for it. -/
theorem allSet_cons {p : Param} {ps : List Param} {r : Obj} (hp : p.kind = .positionalOnly)
    (hw : WellFormed (p :: ps)) {x : Obj} {args : List Obj} {kwargs : Kwargs}
    (h : PlainSig.allSet ⟨ps, r⟩ args kwargs = true) :
    PlainSig.allSet ⟨p :: ps, r⟩ (x :: args) kwargs = true := by
  have hpos : isPositional p = true := by simp [isPositional, hp]
  have hps : posOf (p :: ps) = p :: posOf ps := by simp [posOf, hpos]
  have hrem : remaining (p :: ps) (args.length + 1) = remaining ps args.length := by
    unfold remaining restOf
    rw [hps]
    simp [hpos]
  have hw' := wellFormed_sublist hw (List.sublist_cons_self p ps)
  obtain ⟨h1, h2, h3⟩ := (allSet_iff _ hw' args kwargs).1 h
  rw [allSet_iff _ hw]
  refine ⟨?_, ?_, ?_⟩
  · rcases h1 with ⟨q, hq, hk⟩ | h1
    · exact .inl ⟨q, List.mem_cons_of_mem _ hq, hk⟩
    · refine .inr ?_
      rw [hps]; simpa using h1
  · rcases h2 with ⟨q, hq, hk⟩ | h2
    · exact .inl ⟨q, List.mem_cons_of_mem _ hq, hk⟩
    · refine .inr fun k hk => ?_
      simp only [List.length_cons]
      rw [hrem]; exact h2 k hk
  · unfold requiredOk
    simp only [List.length_cons]
    rw [hrem]; exact h3

theorem formals_first {a : Arguments} (hp : a.posonlyargs = []) (hne : a.args ≠ []) :
    ∃ f fs, formals a = f :: fs ∧ f.kind = .positionalOrKeyword := by
  rw [formals_noPosonly a hp, posFormals]
  cases ha : a.args with
  | nil => exact absurd ha hne
  | cons x xs => exact ⟨_, _, rfl, rfl⟩

/-- The converse of `allSet_cons`. -/
theorem allSet_tail {p : Param} {ps : List Param} {r : Obj} (hp : p.kind = .positionalOnly)
    (hw : WellFormed (p :: ps)) {x : Obj} {args : List Obj} {kwargs : Kwargs}
    (h : PlainSig.allSet ⟨p :: ps, r⟩ (x :: args) kwargs = true) :
    PlainSig.allSet ⟨ps, r⟩ args kwargs = true := by
  have hpos : isPositional p = true := by simp [isPositional, hp]
  have hps : posOf (p :: ps) = p :: posOf ps := by simp [posOf, hpos]
  have hrem : remaining (p :: ps) (args.length + 1) = remaining ps args.length := by
    unfold remaining restOf
    rw [hps]
    simp [hpos]
  have hw' := wellFormed_sublist hw (List.sublist_cons_self p ps)
  obtain ⟨h1, h2, h3⟩ := (allSet_iff _ hw (x :: args) kwargs).1 h
  rw [allSet_iff _ hw']
  have hv : ∀ k, k ≠ .positionalOnly → (∃ q ∈ p :: ps, q.kind = k) → ∃ q ∈ ps, q.kind = k := by
    rintro k hk ⟨q, hq, rfl⟩
    rcases List.mem_cons.1 hq with rfl | hq
    · exact absurd hp hk
    · exact ⟨q, hq, rfl⟩
  refine ⟨?_, ?_, ?_⟩
  · rcases h1 with h1 | h1
    · exact .inl (hv _ (by simp) h1)
    · refine .inr ?_
      rw [hps] at h1; simpa using h1
  · rcases h2 with h2 | h2
    · exact .inl (hv _ (by simp) h2)
    · refine .inr fun k hk => ?_
      have := h2 k hk
      simp only [List.length_cons] at this
      rwa [hrem] at this
  · unfold requiredOk at h3 ⊢
    simp only [List.length_cons] at h3
    rwa [hrem] at h3

/-- Calls of a declared function that pass no positional parameter by keyword. -/
theorem accepts_allSet_declared {ev : Expr → Except PyErr Obj} {xs : List Formal}
    {full ps : List Param} {r : Obj} (hwf : WellFormed full) (hwp : WellFormed ps)
    (htr : Pointwise (Transcribes ev) xs full) (hps : Pointwise Declares xs ps) {args : List Obj}
    {kwargs : Kwargs} (hnd : (keys kwargs).Nodup)
    (hno : ∀ p ∈ ps, isPositional p = true → p.name ∉ keys kwargs) (hacc : Accepts ps args kwargs) :
    PlainSig.allSet ⟨full, r⟩ args kwargs = true := by
  -- the reverse relation: what the function requires, the signature requires
  have hn : Pointwise (fun p q : Param => Narrower p q ∧ p.isRequired = q.isRequired) full ps :=
    (htr.flip.comp hps).imp fun p _ q _ ⟨x, h, h'⟩ => by
      refine ⟨transcribes_narrower h h', ?_⟩
      rw [isRequired_eq, isRequired_eq]
      congr 1
      rw [Bool.eq_iff_iff, h.optional, h'.optional]
  have hrem : Pointwise (fun p q : Param => Narrower p q ∧ p.isRequired = q.isRequired)
      (remaining full args.length) (remaining ps args.length) :=
    ((hn.filter fun _ _ h => h.1.isPositional).drop _).append
      (hn.filter fun _ _ h => by rw [h.1.isPositional])
  have hkw : ∀ p q : Param, Narrower p q → q ∈ ps → acceptsKeyword q = true →
      q.name ∈ keys kwargs → acceptsKeyword p = true := by
    intro p q h hq hk hm
    have hpos : isPositional q = false := by
      cases hc : isPositional q with
      | false => rfl
      | true => exact absurd hm (hno q hq hc)
    rcases h.kind with h | ⟨_, h⟩
    · rw [← hk]; simp [acceptsKeyword, h]
    · simp [isPositional, h] at hpos
  obtain ⟨h1, h2, h3⟩ := (accepts_iff hwp args kwargs hnd).1 hacc
  rw [allSet_iff _ hwf]
  refine ⟨?_, ?_, ?_⟩
  · rcases h1 with ⟨q, hq, hk⟩ | h1
    · obtain ⟨p, hp, h⟩ := hn.exists_left hq
      exact .inl ⟨p, hp, (h.1.variadic (.inl rfl)).2 hk⟩
    · refine .inr ?_
      have : (posOf full).length = (posOf ps).length :=
        (hn.filter fun _ _ h => h.1.isPositional).length
      rw [this]; exact h1
  · by_cases hvk : hasVK full
    · exact .inl hvk
    · refine .inr fun k hk => ?_
      rcases h2 k hk with h2 | ⟨⟨q, hq, hqk⟩, _⟩
      · obtain ⟨q, hq, hqk, rfl⟩ := mem_kwNames.1 h2
        obtain ⟨p, hp, h⟩ := hrem.exists_left hq
        exact mem_kwNames.2 ⟨p, hp, hkw p q h.1 (remaining_subset hq) hqk hk, h.1.name⟩
      · obtain ⟨p, hp, h⟩ := hn.exists_left hq
        exact absurd ⟨p, hp, (h.1.variadic (.inr rfl)).2 hqk⟩ hvk
  · intro p hpm hreq hslot
    obtain ⟨q, hq, h⟩ := hrem.exists_right hpm
    obtain ⟨e1, e2⟩ := h3 q hq (h.2 ▸ hreq) (h.1.hasSlot ▸ hslot)
    exact ⟨hkw p q h.1 (remaining_subset hq) e1 e2, h.1.name ▸ e2⟩

end Paradigm
