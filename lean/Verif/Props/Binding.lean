import Verif.Lemmas.Frame
import Verif.Props.Signatures

/-!
# C11, C12: the signature `bind` returns; C14, C15: what its answer depends on
-/

namespace Paradigm.Props

open Spec PyCall

/-! ### C11 -/

/-- **C11**, full statement. -/
def C11_statement : Prop :=
  ∀ (s t : PlainSig), ConstructiblePlain s → ∀ (args : List Obj) (kwargs : Kwargs),
    (keys kwargs).Nodup → s.bind args kwargs = .ok t →
    ∀ p ∈ s.parameters, acceptsKeyword p = true → ∀ v, (p.name, v) ∈ kwargs →
      ∃ q ∈ t.parameters, q.name = p.name ∧ q.isOptional = true ∧ q.kind = .keywordOnly ∧
        q.default? = some v

/-- **C11** is violated by the code: `i(a, b=1, *, c)` with `bind(b=2)` keeps the default `1`. -/
theorem C11_refuted : ¬ C11_statement := by
  intro h
  obtain ⟨q, hq, hn, _, _, hd⟩ := h sigI _ sigI_ok [] [("b", two)] (by simp [keys]) rfl pB
    (by simp [sigI]) rfl two (by simp [pB, Param.name])
  change q ∈ [pA, Param.optional int_ (some one) .keywordOnly "b",
    Param.required int_ .keywordOnly "c"] at hq
  simp only [List.mem_cons, List.not_mem_nil, or_false] at hq
  rcases hq with rfl | rfl | rfl
  · simp [pA, pB, Param.name] at hn
  · simp [Param.default?, one, two] at hd
  · simp [pB, Param.name] at hn

/-- **C11**, what holds: the parameter becomes optional and keyword-only, with its annotation; its
default is the bound value if it had no default before (and the value is not the internal sentinel),
else the old default. -/
theorem C11_bound_keyword_partial (s t : PlainSig) (hs : ConstructiblePlain s) (args : List Obj)
    (kwargs : Kwargs) (hnd : (keys kwargs).Nodup) (hb : s.bind args kwargs = .ok t)
    (p : Param) (hp : p ∈ s.parameters) (hkw : acceptsKeyword p = true) (v : Obj)
    (hv : (p.name, v) ∈ kwargs) :
    ∃ q ∈ t.parameters, q.name = p.name ∧ q.isOptional = true ∧ q.kind = .keywordOnly ∧
      q.annotation = p.annotation ∧
      (p.default? = none → v ≠ Obj.noDefault → q.default? = some v) ∧
      (∀ d, p.default? = some d → q.default? = some d) := by
  obtain ⟨hval, hw⟩ := (constructiblePlain_iff s).1 hs
  obtain ⟨_, h2, _, rfl⟩ := (bind_eq s hval hw args kwargs t).1 hb
  have hn : p.name ∈ keys kwargs := List.mem_map.2 ⟨_, hv, rfl⟩
  have hrem : p ∈ remaining s.parameters args.length := by
    rcases (mem_iff_take_or_remaining hw.ordered args.length p).1 hp with h | h
    · exact absurd hn (h2 p h)
    · exact h
  have hbd : isBound kwargs p = true := by simp [isBound, hkw, hn]
  have hmem : rebind kwargs p ∈ applyKw kwargs (remaining s.parameters args.length) := by
    have hnv : notVP p = true := by
      rw [acceptsKeyword_iff] at hkw
      rcases hkw with h | h <;> simp [notVP, h]
    generalize remaining s.parameters args.length = l at hrem
    induction l with
    | nil => simp at hrem
    | cons q l ih =>
      rw [applyKw]
      split
      · exact List.mem_map_of_mem (List.mem_filter.2 ⟨hrem, hnv⟩)
      · rename_i hq
        rcases List.mem_cons.1 hrem with rfl | h
        · exact absurd hbd hq
        · exact List.mem_cons_of_mem _ (ih h)
  refine ⟨_, hmem, rebind_name _ _, ?_, ?_, rebind_annotation _ _, ?_, ?_⟩
  · rw [rebind_isOptional]; simp [hbd]
  · rw [rebind_kind]; simp [hkw]
  · intro hd hne
    have hlk : kwargs.lookup p.name = some v := lookup_of_pair_mem hnd hv
    have hvn : v.isNoDefault = false := by
      cases v with
      | atom x => cases x <;> simp_all [Obj.isNoDefault, Obj.noDefault]
      | _ => rfl
    have hbdef : boundDefault kwargs p.name = some v := by
      simp [boundDefault, hlk, hvn]
    unfold rebind
    rw [if_pos hkw]
    cases p with
    | required a k n => simp_all [Param.name, Param.default?]
    | optional a d k n => simp_all [Param.name, Param.default?]
  · intro d hd
    unfold rebind
    rw [if_pos hkw]
    cases p with
    | required a k n => simp [Param.default?] at hd
    | optional a d k n => simp_all [Param.default?]

example : ∃ t, sigF.bind [] [("a", two), ("c", one)] = .ok t ∧
    t.parameters = [.optional int_ (some two) .keywordOnly "a",
      .optional int_ (some one) .keywordOnly "b", .optional int_ (some one) .keywordOnly "c", pKw] :=
  ⟨_, rfl, rfl⟩

/-! ### C12 -/

/-- **C12.** Exact frame of a successful `bind`. -/
theorem C12_bind_frame (s t : PlainSig) (hs : ConstructiblePlain s) (args : List Obj)
    (kwargs : Kwargs) (hb : s.bind args kwargs = .ok t) :
    let kept := leftover s.parameters args.length (keys kwargs)
    t.returns = s.returns ∧ ∃ hl : t.parameters.length = kept.length,
      ∀ (i : Nat) (hi : i < kept.length),
        BoundTo (keys kwargs) kept i kept[i] (t.parameters[i]'(hl ▸ hi)) := by
  intro kept
  obtain ⟨hval, hw⟩ := (constructiblePlain_iff s).1 hs
  obtain ⟨_, _, _, rfl⟩ := (bind_eq s hval hw args kwargs t).1 hb
  have hwR := remaining_wellFormed hw args.length
  have hkept : kept = (if (posOf (remaining s.parameters args.length)).any (isBound kwargs)
      then (remaining s.parameters args.length).filter notVP
      else remaining s.parameters args.length) := by
    show leftover _ _ _ = _
    unfold leftover
    rw [posOf_remaining]
    have : (fun p : Param => acceptsKeyword p && (keys kwargs).contains p.name)
        = isBound kwargs := by
      funext p; simp [isBound]
    rw [this]; rfl
  have happ : applyKw kwargs (remaining s.parameters args.length) = rebindFrom kwargs kept := by
    rw [hkept, applyKw_eq_rebindFrom _ _ hwR.ordered]
  refine ⟨rfl, ?_⟩
  simp only [happ]
  refine ⟨length_rebindFrom _ _, fun i hi => ?_⟩
  rw [getElem_rebindFrom _ _ _ hi]
  have hiff : ∀ x : Param, isBound kwargs x = true ↔
      acceptsKeyword x = true ∧ x.name ∈ keys kwargs := by
    intro x; simp [isBound]
  by_cases hany : (kept.take (i + 1)).any (isBound kwargs) = true
  · rw [if_pos hany]
    refine ⟨rebind_name _ _, rebind_annotation _ _, ?_, ?_, ?_, ?_⟩
    · intro h; rw [rebind_isOptional, h]; rfl
    · intro h
      refine rebind_unbound_default _ _ ?_
      rw [← hiff] at h; simpa using h
    · intro h
      obtain ⟨x, hx, hxb⟩ := List.any_eq_true.1 hany
      exact absurd ((hiff x).1 hxb) (h x hx)
    · intro _; rw [rebind_kind]
  · rw [if_neg hany]
    refine ⟨rfl, rfl, id, fun _ => ⟨rfl, rfl⟩, fun _ => rfl, ?_⟩
    rintro ⟨x, hx, hxb⟩
    exact absurd (List.any_eq_true.2 ⟨x, hx, (hiff x).2 hxb⟩) hany

example : ∃ t, sigF.bind [] [("b", two)] = .ok t ∧
    (leftover sigF.parameters 0 ["b"]).map Param.name = ["a", "b", "c", "kw"] ∧
    t.parameters.map Param.kind = [.positionalOrKeyword, .keywordOnly, .keywordOnly,
      .variadicKeyword] := ⟨_, rfl, rfl, rfl⟩

/-! ### C14 -/

/-- **C14.** Keyword order never matters (any signature object, well-formed or not). -/
theorem C14_keyword_order (s : Sig) (args : List Obj) (k k' : Kwargs) (h : k.Perm k')
    (hnd : (keys k).Nodup) :
    s.expects args k = s.expects args k' ∧ s.allSet args k = s.allSet args k' ∧
    s.bind args k = s.bind args k' := by
  have hk : ∀ x, x ∈ keys k ↔ x ∈ keys k' := fun x => (perm_keys h).mem_iff
  have h1 : ∀ s : PlainSig, s.expects args k = s.expects args k' :=
    fun s => expects_congr_keys s args args k k' rfl hk
  have h2 : ∀ s : PlainSig, s.allSet args k = s.allSet args k' :=
    fun s => allSet_congr_keys s args args k k' rfl hk
  have h3 : ∀ s : PlainSig, s.bind args k = s.bind args k' := fun s => bind_perm s args h hnd
  cases s with
  | plain s => exact ⟨h1 s, h2 s, by simp only [Sig.bind, h3]⟩
  | overloaded ss => exact ⟨by simp only [Sig.expects, h1], by simp only [Sig.allSet, h2],
      by simp only [Sig.bind, h1, h3]⟩

example : List.Perm [("a", one), ("c", two)] [("c", two), ("a", one)] ∧
    (keys [("a", one), ("c", two)]).Nodup := ⟨.swap .., by simp [keys]⟩

/-! ### C15 -/

/-- **C15**, `expects` and `all_set`, any signature. -/
theorem C15_values_irrelevant (s : Sig) (args args' : List Obj) (k k' : Kwargs)
    (ha : args.length = args'.length) (hk : ∀ x, x ∈ keys k ↔ x ∈ keys k') :
    s.expects args k = s.expects args' k' ∧ s.allSet args k = s.allSet args' k' := by
  cases s with
  | plain s =>
    exact ⟨expects_congr_keys s args args' k k' ha hk, allSet_congr_keys s args args' k k' ha hk⟩
  | overloaded ss =>
    refine ⟨?_, ?_⟩
    · simp only [Sig.expects]
      congr 1; funext s; exact expects_congr_keys s args args' k k' ha hk
    · simp only [Sig.allSet]
      congr 1; funext s; exact allSet_congr_keys s args args' k k' ha hk

theorem mapExcept_isOk {α β : Type} (f : α → Except PyErr β) (l : List α) :
    (∃ r, mapExcept f l = .ok r) ↔ ∀ x ∈ l, ∃ y, f x = .ok y := by
  induction l with
  | nil => simp [mapExcept]
  | cons a l ih =>
    rw [mapExcept]
    cases hf : f a with
    | error e => simp [hf]
    | ok y =>
      simp only [List.mem_cons, forall_eq_or_imp, hf, Except.ok.injEq, exists_eq', true_and]
      rw [← ih]
      cases hm : mapExcept f l with
      | error e => simp
      | ok r => simp

theorem mapExcept_length {α β : Type} (f : α → Except PyErr β) (l : List α) (r : List β)
    (h : mapExcept f l = .ok r) : r.length = l.length := by
  induction l generalizing r with
  | nil => simp [mapExcept] at h; simp [← h]
  | cons a l ih =>
    rw [mapExcept] at h
    cases hf : f a with
    | error e => rw [hf] at h; simp at h
    | ok y =>
      rw [hf] at h
      cases hm : mapExcept f l with
      | error e => rw [hm] at h; simp at h
      | ok r' =>
        rw [hm] at h; simp only [Except.ok.injEq] at h
        rw [← h, List.length_cons, ih r' hm, List.length_cons]

theorem mapExcept_plain (ps : List PlainSig) :
    mapExcept asPlain (ps.map Sig.plain) = .ok ps := by
  induction ps with
  | nil => rfl
  | cons p ps ih => rw [List.map_cons, mapExcept, ih]; rfl

theorem overloaded_new_plain (ps : List PlainSig) :
    OverloadedSignature.new (ps.map Sig.plain) =
      if ps.length < 2 then .error (.valueError "too few signatures") else .ok (.overloaded ps) := by
  unfold OverloadedSignature.new
  rw [mapExcept_plain]

theorem flatten_plain (ps : List PlainSig) :
    ((ps.map Sig.plain).map flattenSignature).flatten = ps := by
  induction ps with
  | nil => rfl
  | cons p ps ih => simp only [List.map_cons, List.flatten_cons, ih]; rfl

/-- `from_signatures` of plain signatures. -/
theorem fromSignatures_plain (ps : List PlainSig) :
    fromSignatures (ps.map Sig.plain) = match ps with
      | [] => .error (.valueError "too few signatures")
      | [s] => .ok (.plain s)
      | ss => .ok (.overloaded ss) := by
  unfold fromSignatures
  simp only [flatten_plain]
  match ps with
  | [] => exact overloaded_new_plain []
  | [s] => rfl
  | a :: b :: l => simp only [overloaded_new_plain]; simp

/-- Success of binding an overloaded signature. -/
theorem overloaded_bind_isOk (ss : List PlainSig) (args : List Obj) (k : Kwargs) :
    (∃ t, (Sig.overloaded ss).bind args k = .ok t) ↔
      (∃ s ∈ ss, s.expects args k = true) ∧
      ∀ s ∈ ss, s.expects args k = true → ∃ t, s.bind args k = .ok t := by
  rw [Sig.bind]
  have hm := mapExcept_isOk (fun s : PlainSig => s.bind args k)
    (ss.filter (fun s => s.expects args k))
  simp only [List.mem_filter, and_imp] at hm
  cases h : mapExcept (fun s : PlainSig => s.bind args k)
      (ss.filter (fun s => s.expects args k)) with
  | error e =>
    rw [h] at hm
    simp only [reduceCtorEq, exists_false, false_iff] at hm ⊢
    exact fun h => hm h.2
  | ok r =>
    have hl := mapExcept_length _ _ _ h
    rw [h] at hm
    simp only [Except.ok.injEq, exists_eq', true_iff] at hm
    simp only
    rw [fromSignatures_plain]
    match r, hl with
    | [], hl =>
      simp only [List.isEmpty_nil, if_true, reduceCtorEq, exists_false, false_iff, not_and]
      rintro ⟨s, hs, he⟩
      have : s ∈ ss.filter (fun s => s.expects args k) := List.mem_filter.2 ⟨hs, he⟩
      rw [List.length_nil] at hl
      rw [List.eq_nil_of_length_eq_zero hl.symm] at this
      simp at this
    | a :: r', hl =>
      have hex : ∃ s ∈ ss, s.expects args k = true := by
        have : ss.filter (fun s => s.expects args k) ≠ [] := by
          intro h0; rw [h0] at hl; simp at hl
        obtain ⟨s, hs⟩ := List.exists_mem_of_ne_nil _ this
        exact ⟨s, (List.mem_filter.1 hs).1, (List.mem_filter.1 hs).2⟩
      have : ∃ t, (if (a :: r').isEmpty = true
          then Except.error (PyErr.typeError "no corresponding signature")
          else match a :: r' with
            | [] => .error (.valueError "too few signatures")
            | [s] => .ok (Sig.plain s)
            | ss => .ok (Sig.overloaded ss)) = .ok t := by
        cases r' <;> simp
      exact ⟨fun _ => ⟨hex, hm⟩, fun _ => this⟩

/-- **C15**, success of `bind`, every constructible signature. -/
theorem C15_bind_values_irrelevant (s : Sig) (hs : Constructible s) (args args' : List Obj)
    (k k' : Kwargs) (ha : args.length = args'.length) (hk : ∀ x, x ∈ keys k ↔ x ∈ keys k') :
    (∃ t, s.bind args k = .ok t) ↔ ∃ t, s.bind args' k' = .ok t := by
  cases s with
  | plain s =>
    have := bind_isOk_congr s hs args args' k k' ha hk
    constructor
    · rintro ⟨t, ht⟩
      cases hb : s.bind args k with
      | error e => simp [Sig.bind, hb] at ht
      | ok u =>
        obtain ⟨u', hu'⟩ := this.1 ⟨u, hb⟩
        exact ⟨.plain u', by simp [Sig.bind, hu']⟩
    · rintro ⟨t, ht⟩
      cases hb : s.bind args' k' with
      | error e => simp [Sig.bind, hb] at ht
      | ok u =>
        obtain ⟨u', hu'⟩ := this.2 ⟨u, hb⟩
        exact ⟨.plain u', by simp [Sig.bind, hu']⟩
  | overloaded ss =>
    rw [overloaded_bind_isOk, overloaded_bind_isOk]
    have he : ∀ s : PlainSig, s.expects args k = s.expects args' k' :=
      fun s => expects_congr_keys s args args' k k' ha hk
    simp only [he]
    refine and_congr_right fun _ => forall_congr' fun s => ?_
    refine forall_congr' fun hmem => ?_
    refine forall_congr' fun _ => bind_isOk_congr s (hs.1 s hmem) args args' k k' ha hk

example : sigF.expects [one] [("c", two)] = sigF.expects [two] [("c", one)] := by decide

end Paradigm.Props
