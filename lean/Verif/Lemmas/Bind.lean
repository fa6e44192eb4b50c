import Verif.Lemmas.Binding

/-! Characterisation of `bind`. -/

namespace Paradigm

open Spec PyCall

/-- No positional argument is also given by keyword. -/
def freshOk (ps : List Param) (n : Nat) (ks : List String) : Prop :=
  ∀ p ∈ (posOf ps).take n, p.name ∉ ks

theorem checkPositionals_ok_iff (kwargs : Kwargs) (l : List Param) :
    checkPositionals kwargs l = .ok () ↔ ∀ p ∈ l, p.name ∉ keys kwargs := by
  induction l with
  | nil => simp [checkPositionals]
  | cons p l ih =>
    rw [checkPositionals]
    by_cases h : p.name ∈ keys kwargs
    · simp [h]; split <;> simp
    · simp [h, ih]

theorem checkPositionals_error (kwargs : Kwargs) (l : List Param) (e : PyErr)
    (h : checkPositionals kwargs l = .error e) : ∃ t, e = .typeError t := by
  induction l with
  | nil => simp [checkPositionals] at h
  | cons p l ih =>
    rw [checkPositionals] at h
    repeat' split at h
    · exact ⟨_, (Except.error.inj h).symm⟩
    · exact ⟨_, (Except.error.inj h).symm⟩
    · exact ih h

theorem bindPositionals_ok_iff {ps : List Param} (h : Sorted ps) (args : List Obj)
    (kwargs : Kwargs) (qs : List Param) :
    bindPositionals ps args kwargs (!(byKind ps .variadicPositional).isEmpty) = .ok qs ↔
      countOk ps args.length ∧ freshOk ps args.length (keys kwargs) ∧
        qs = remaining ps args.length := by
  unfold bindPositionals
  simp only [takeWhile_pos _ h, drop_pos _ h, Bool.not_not]
  by_cases hc : countOk ps args.length
  · have : (decide (args.length > (posOf ps).length)
        && (byKind ps .variadicPositional).isEmpty) = false := by
      rcases hc with hc | hc
      · rw [(byKind_isEmpty_false _ _).2 hc]; simp
      · have : ¬ args.length > (posOf ps).length := by omega
        simp [this]
    rw [this]
    simp only [Bool.false_eq_true, if_false, hc, true_and]
    cases hck : checkPositionals kwargs ((posOf ps).take args.length) with
    | error e =>
      have : ¬ freshOk ps args.length (keys kwargs) := by
        unfold freshOk; rw [← checkPositionals_ok_iff, hck]; simp
      simp [this]
    | ok u =>
      have : freshOk ps args.length (keys kwargs) := by
        unfold freshOk; rw [← checkPositionals_ok_iff, hck]
      simp [this, remaining, eq_comm]
  · have : (decide (args.length > (posOf ps).length)
        && (byKind ps .variadicPositional).isEmpty) = true := by
      simp only [countOk, not_or] at hc
      rw [(byKind_isEmpty _ _).2 hc.1]
      have : args.length > (posOf ps).length := by omega
      simp [this]
    rw [this]; simp [hc]

theorem bindPositionals_error (ps : List Param) (args : List Obj) (kwargs : Kwargs) (v : Bool)
    (e : PyErr) (h : bindPositionals ps args kwargs v = .error e) : ∃ t, e = .typeError t := by
  unfold bindPositionals at h
  simp only [] at h
  split at h
  · exact ⟨_, (Except.error.inj h).symm⟩
  · split at h
    · rename_i he
      obtain ⟨t, ht⟩ := checkPositionals_error _ _ _ he
      exact ⟨t, by rw [← Except.error.inj h, ht]⟩
    · simp at h

/-! ### Keywords -/

/-- The default that `bind` computes from a bound value. -/
def boundDefault (kwargs : Kwargs) (n : String) : Option Obj :=
  (kwargs.lookup n).bind (fun v => if v.isNoDefault then none else some v)

/-- What `bind` does to a parameter at or after the first bound keyword. -/
def rebind (kwargs : Kwargs) (p : Param) : Param :=
  if acceptsKeyword p then
    match p with
    | .required a _ n =>
      if n ∈ keys kwargs then .optional a (boundDefault kwargs n) .keywordOnly n
      else .required a .keywordOnly n
    | .optional a d _ n => .optional a (d.or (boundDefault kwargs n)) .keywordOnly n
  else p

/-- The parameter is given by keyword. -/
def isBound (kwargs : Kwargs) (p : Param) : Bool :=
  acceptsKeyword p && decide (p.name ∈ keys kwargs)

def notVP (p : Param) : Bool := !(p.kind == .variadicPositional)

/-- Parameters after binding keywords. -/
def applyKw (kwargs : Kwargs) : List Param → List Param
  | [] => []
  | p :: ps =>
    if isBound kwargs p then ((p :: ps).filter notVP).map (rebind kwargs)
    else p :: applyKw kwargs ps

theorem mapExcept_ok {α β : Type} (f : α → Except PyErr β) (g : α → β) (l : List α)
    (h : ∀ x ∈ l, f x = .ok (g x)) : mapExcept f l = .ok (l.map g) := by
  induction l with
  | nil => rfl
  | cons x l ih =>
    rw [mapExcept, h x List.mem_cons_self, ih (fun y hy => h y (List.mem_cons_of_mem _ hy))]
    rfl

theorem lookup_of_mem {β : Type} (d : List (String × β)) (k : String) (h : k ∈ keys d) :
    ∃ v, d.lookup k = some v := by
  induction d with
  | nil => simp [keys] at h
  | cons e d ih =>
    obtain ⟨k', v'⟩ := e
    rw [List.lookup_cons]
    by_cases hk : k = k'
    · subst hk; exact ⟨v', by simp⟩
    · have : (k == k') = false := by simp [hk]
      rw [this]
      simp only [keys, List.map_cons, List.mem_cons] at h
      rcases h with h | h
      · exact absurd h hk
      · exact ih h

theorem lookup_of_not_mem {β : Type} (d : List (String × β)) (k : String) (h : k ∉ keys d) :
    d.lookup k = none := by
  induction d with
  | nil => rfl
  | cons e d ih =>
    obtain ⟨k', v'⟩ := e
    simp only [keys, List.map_cons, List.mem_cons, not_or] at h
    rw [List.lookup_cons]
    have : (k == k') = false := by simp [h.1]
    rw [this]; exact ih h.2

theorem optional_new_ko (a v : Obj) (n : String) :
    OptionalParameter.new a (.kind .keywordOnly) n v =
      .ok (.optional a (if v.isNoDefault then none else some v) .keywordOnly n) := by
  unfold OptionalParameter.new validateKind
  cases h : v.isNoDefault <;> simp

theorem rebindKeyword_ok (kwargs : Kwargs) (ks : List String) (p : Param) (hv : ValidParam p)
    (hk : acceptsKeyword p = true → (p.name ∈ ks ↔ p.name ∈ keys kwargs)) :
    rebindKeyword kwargs ks p = .ok (rebind kwargs p) := by
  unfold rebindKeyword rebind
  rw [isKeywordable_eq]
  by_cases hkw : acceptsKeyword p = true
  · have hk := hk hkw
    simp only [hkw, if_true, List.contains_eq_mem, hk]
    cases p with
    | required a k n =>
      simp only [Param.name] at hk ⊢
      by_cases hm : n ∈ keys kwargs
      · obtain ⟨v, hv⟩ := lookup_of_mem _ _ hm
        simp [hm, Param.default?, hv, Param.annotation, optional_new_ko, boundDefault]
      · simp [hm, Param.isOptional, Param.annotation, RequiredParameter.new, validateKind]
    | optional a d k n =>
      simp only [Param.name] at hk ⊢
      cases d with
      | some d =>
        have := hv.2 d rfl
        simp [Param.isOptional, Param.default?, optional_new_ko, Param.annotation, this]
      | none =>
        by_cases hm : n ∈ keys kwargs
        · obtain ⟨v, hv⟩ := lookup_of_mem _ _ hm
          simp [hm, Param.default?, hv, Param.annotation, optional_new_ko, boundDefault]
        · simp [hm, Param.isOptional, Param.default?, optional_new_ko, Param.annotation,
            boundDefault, lookup_of_not_mem _ _ hm, Obj.noDefault, Obj.isNoDefault]
  · simp [hkw]

theorem findIdx_applyKw (kwargs : Kwargs) (ps : List Param) :
    (ps.findIdx? (isBound kwargs) = none → applyKw kwargs ps = ps) ∧
    (∀ i, ps.findIdx? (isBound kwargs) = some i →
      applyKw kwargs ps = ps.take i ++ ((ps.drop i).filter notVP).map (rebind kwargs)) := by
  induction ps with
  | nil => simp [applyKw]
  | cons p ps ih =>
    rw [List.findIdx?_cons, applyKw]
    cases hb : isBound kwargs p with
    | true => simp
    | false =>
      simp only [Bool.false_eq_true, if_false]
      constructor
      · intro h
        simp only [Option.map_eq_none_iff] at h
        rw [ih.1 h]
      · intro i h
        rw [Option.map_eq_some_iff] at h
        obtain ⟨j, hj, rfl⟩ := h
        rw [ih.2 j hj]; simp

theorem findIdx?_congr' {α : Type} (f g : α → Bool) (l : List α) (h : ∀ x ∈ l, f x = g x) :
    l.findIdx? f = l.findIdx? g := by
  induction l with
  | nil => rfl
  | cons x l ih =>
    rw [List.findIdx?_cons, List.findIdx?_cons, h x List.mem_cons_self,
      ih (fun y hy => h y (List.mem_cons_of_mem _ hy))]

theorem bindKeywords_eq (ps : List Param) (kwargs : Kwargs) (v : Bool)
    (hv : ∀ p ∈ ps, ValidParam p) (hn : (ps.map Param.name).Nodup) :
    bindKeywords ps kwargs v =
      if v = true ∨ ∀ k ∈ keys kwargs, k ∈ kwNames ps then .ok (applyKw kwargs ps)
      else .error (.typeError "unexpected keyword") := by
  unfold bindKeywords
  have hkw : (ps.filter isKeywordable).map Param.name = kwNames ps := by
    unfold kwNames
    congr 1
    exact List.filter_congr (fun p _ => isKeywordable_eq p)
  simp only [hkw]
  have hext : ((keys kwargs).filter (fun k => !(kwNames ps).contains k)).isEmpty = true ↔
      ∀ k ∈ keys kwargs, k ∈ kwNames ps := by
    rw [List.isEmpty_iff, List.filter_eq_nil_iff]; simp
  by_cases hc : v = true ∨ ∀ k ∈ keys kwargs, k ∈ kwNames ps
  · have : (!((keys kwargs).filter (fun k => !(kwNames ps).contains k)).isEmpty && !v) = false := by
      rcases hc with hc | hc
      · simp [hc]
      · rw [hext.2 hc]; simp
    rw [this, if_pos hc]
    simp only [Bool.false_eq_true, if_false]
    have hks : (keys kwargs).filter (fun k =>
        !((keys kwargs).filter (fun k => !(kwNames ps).contains k)).contains k)
        = (keys kwargs).filter (fun k => (kwNames ps).contains k) := by
      apply List.filter_congr
      intro k hk
      by_cases h : k ∈ kwNames ps <;> simp [h, hk]
    rw [hks]
    have hbnd : ∀ p ∈ ps, ((keys kwargs).filter (fun k => (kwNames ps).contains k)).contains p.name
        = isBound kwargs p := by
      intro p hp
      unfold isBound
      have : p.name ∈ kwNames ps ↔ acceptsKeyword p = true := by
        constructor
        · intro h
          obtain ⟨q, hq, hqkw, hqn⟩ := mem_kwNames.1 h
          rw [← name_inj hn hq hp hqn]; exact hqkw
        · intro h; exact mem_kwNames.2 ⟨p, hp, h, rfl⟩
      rw [Bool.eq_iff_iff]
      simp [this, and_comm]
    rw [findIdx?_congr' _ _ _ hbnd]
    obtain ⟨hA, hB⟩ := findIdx_applyKw kwargs ps
    by_cases hempty : ((keys kwargs).filter (fun k => (kwNames ps).contains k)).isEmpty = true
    · simp only [hempty, if_true]
      rw [hA]
      rw [List.findIdx?_eq_none_iff]
      intro p hp
      rw [← hbnd p hp, List.isEmpty_iff.1 hempty]; rfl
    · simp only [hempty, Bool.false_eq_true, if_false]
      cases hi : ps.findIdx? (isBound kwargs) with
      | none =>
        exfalso
        rw [List.findIdx?_eq_none_iff] at hi
        apply hempty
        rw [List.isEmpty_iff, List.filter_eq_nil_iff]
        intro k hk hkin
        obtain ⟨p, hp, hpkw, hpn⟩ := mem_kwNames.1 (by simpa using hkin)
        have := hi p hp
        simp [isBound, hpkw, hpn, hk] at this
      | some i =>
        have hmap : mapExcept (rebindKeyword kwargs
            ((keys kwargs).filter (fun k => (kwNames ps).contains k)))
            ((ps.drop i).filter (fun p => !(p.kind == .variadicPositional)))
            = .ok (((ps.drop i).filter notVP).map (rebind kwargs)) := by
          apply mapExcept_ok
          intro p hp
          have hp' : p ∈ ps := List.mem_of_mem_drop (List.mem_filter.1 hp).1
          apply rebindKeyword_ok _ _ _ (hv p hp')
          intro hpkw
          have := mem_kwNames.2 ⟨p, hp', hpkw, rfl⟩
          simp [this]
        simp only [hmap]
        rw [hB i hi]
  · have : (!((keys kwargs).filter (fun k => !(kwNames ps).contains k)).isEmpty && !v) = true := by
      rw [not_or] at hc
      have h1 : ((keys kwargs).filter (fun k => !(kwNames ps).contains k)).isEmpty = false := by
        rw [← Bool.not_eq_true, hext]; exact hc.2
      rw [h1]; simpa using hc.1
    rw [this, if_neg hc]; simp

/-! ### Well-formedness of the result -/

theorem rebind_name (kwargs : Kwargs) (p : Param) : (rebind kwargs p).name = p.name := by
  unfold rebind
  split
  · cases p with
    | required a k n => simp only; split <;> rfl
    | optional a d k n => rfl
  · rfl

theorem rebind_annotation (kwargs : Kwargs) (p : Param) :
    (rebind kwargs p).annotation = p.annotation := by
  unfold rebind
  split
  · cases p with
    | required a k n => simp only; split <;> rfl
    | optional a d k n => rfl
  · rfl

theorem rebind_kind (kwargs : Kwargs) (p : Param) :
    (rebind kwargs p).kind = if acceptsKeyword p then .keywordOnly else p.kind := by
  unfold rebind
  split
  · cases p with
    | required a k n => simp only; split <;> rfl
    | optional a d k n => rfl
  · rfl

theorem boundDefault_valid (kwargs : Kwargs) (n : String) (v : Obj)
    (h : boundDefault kwargs n = some v) : v.isNoDefault = false := by
  unfold boundDefault at h
  rw [Option.bind_eq_some_iff] at h
  obtain ⟨w, _, h⟩ := h
  split at h
  · simp at h
  · rename_i hw; simp at h; subst h; exact Bool.eq_false_iff.2 hw

theorem rebind_valid (kwargs : Kwargs) (p : Param) (h : ValidParam p) :
    ValidParam (rebind kwargs p) := by
  unfold rebind
  split
  · cases p with
    | required a k n =>
      simp only; split
      · exact ⟨by simp, fun v hv => boundDefault_valid _ _ _ hv⟩
      · exact ⟨by simp, by simp⟩
    | optional a d k n =>
      refine ⟨by simp, fun v hv => ?_⟩
      cases d with
      | none => exact boundDefault_valid _ _ _ (by simpa using hv)
      | some d => simp at hv; exact h.2 v (by rw [hv])
  · exact h

theorem rebind_isOptional (kwargs : Kwargs) (p : Param) :
    (rebind kwargs p).isOptional = (p.isOptional || isBound kwargs p) := by
  unfold rebind isBound
  cases hk : acceptsKeyword p with
  | false => simp
  | true =>
    cases p with
    | required a k n =>
      by_cases hm : n ∈ keys kwargs <;> simp [Param.isOptional, Param.name, hm]
    | optional a d k n => simp [Param.isOptional]

theorem applyKw_names (kwargs : Kwargs) (ps : List Param) :
    ((applyKw kwargs ps).map Param.name).Sublist (ps.map Param.name) := by
  induction ps with
  | nil => simp [applyKw]
  | cons p ps ih =>
    rw [applyKw]
    split
    · rw [List.map_map]
      have : Param.name ∘ rebind kwargs = Param.name := by
        funext q; exact rebind_name _ _
      rw [this]
      exact List.filter_sublist.map _
    · rw [List.map_cons, List.map_cons]
      exact ih.cons_cons _

theorem mem_applyKw {kwargs : Kwargs} {ps : List Param} {q : Param} (h : q ∈ applyKw kwargs ps) :
    q ∈ ps ∨ ∃ p ∈ ps, notVP p = true ∧ q = rebind kwargs p := by
  induction ps with
  | nil => simp [applyKw] at h
  | cons p ps ih =>
    rw [applyKw] at h
    split at h
    · obtain ⟨p', hp', rfl⟩ := List.mem_map.1 h
      rw [List.mem_filter] at hp'
      exact .inr ⟨p', hp'.1, hp'.2, rfl⟩
    · rcases List.mem_cons.1 h with rfl | h
      · exact .inl List.mem_cons_self
      · rcases ih h with h | ⟨p', h1, h2, h3⟩
        · exact .inl (List.mem_cons_of_mem _ h)
        · exact .inr ⟨p', List.mem_cons_of_mem _ h1, h2, h3⟩

theorem applyKw_valid (kwargs : Kwargs) (ps : List Param) (h : ∀ p ∈ ps, ValidParam p) :
    ∀ p ∈ applyKw kwargs ps, ValidParam p := by
  intro q hq
  rcases mem_applyKw hq with hq | ⟨p, hp, _, rfl⟩
  · exact h q hq
  · exact rebind_valid _ _ (h p hp)

/-- Rank after rebinding, for a parameter that is not `*args` and not before a bound one. -/
theorem rank_rebind (kwargs : Kwargs) (p : Param) (h1 : notVP p = true)
    (h2 : 1 ≤ rank p.kind) : 3 ≤ rank (rebind kwargs p).kind := by
  rw [rebind_kind]
  unfold notVP at h1
  unfold acceptsKeyword
  cases hk : p.kind <;> simp_all [rank]

theorem isBound_rank {kwargs : Kwargs} {p : Param} (h : isBound kwargs p = true) :
    1 ≤ rank p.kind ∧ rank p.kind ≤ 3 := by
  simp only [isBound, Bool.and_eq_true] at h
  have := (acceptsKeyword_iff p).1 h.1
  rcases this with h | h <;> simp [h, rank]

theorem applyKw_sorted (kwargs : Kwargs) (ps : List Param) (h : Sorted ps) :
    Sorted (applyKw kwargs ps) := by
  induction ps with
  | nil => simp [applyKw]
  | cons p ps ih =>
    have h' := h
    rw [Sorted, List.pairwise_cons] at h
    rw [applyKw]
    cases hb : isBound kwargs p with
    | true =>
      simp only [if_true]
      rw [Sorted, List.pairwise_map]
      have hall : ∀ q ∈ (p :: ps).filter notVP, notVP q = true ∧ 1 ≤ rank q.kind := by
        intro q hq
        rw [List.mem_filter] at hq
        refine ⟨hq.2, ?_⟩
        rcases List.mem_cons.1 hq.1 with rfl | hq'
        · exact (isBound_rank hb).1
        · exact Nat.le_trans (isBound_rank hb).1 (h.1 q hq')
      have hs : ((p :: ps).filter notVP).Pairwise (fun p q => rank p.kind ≤ rank q.kind) :=
        List.Pairwise.sublist List.filter_sublist h'
      refine List.Pairwise.imp_of_mem ?_ hs
      intro a b ha hb' hab
      have ha := hall a ha
      have hb' := hall b hb'
      rw [rebind_kind, rebind_kind]
      unfold notVP at ha hb'
      unfold acceptsKeyword
      cases hka : a.kind <;> cases hkb : b.kind <;> simp_all [rank]
    | false =>
      simp only [Bool.false_eq_true, if_false]
      rw [Sorted, List.pairwise_cons]
      refine ⟨?_, ih h.2⟩
      intro q hq
      rcases mem_applyKw hq with hq | ⟨p', hp', hvp, rfl⟩
      · exact h.1 q hq
      · refine Nat.le_trans (h.1 p' hp') ?_
        rw [rebind_kind]; unfold acceptsKeyword
        cases p'.kind <;> simp [rank]

theorem countP_applyKw_le (kwargs : Kwargs) (ps : List Param) (k : Kind)
    (hk : k = .variadicPositional ∨ k = .variadicKeyword) :
    (applyKw kwargs ps).countP (fun p => p.kind == k) ≤ ps.countP (fun p => p.kind == k) := by
  induction ps with
  | nil => simp [applyKw]
  | cons p ps ih =>
    rw [applyKw]
    split
    · rw [List.countP_map]
      refine Nat.le_trans ?_ (List.filter_sublist (p := notVP) |>.countP_le)
      apply Nat.le_of_eq
      apply List.countP_congr
      intro q _
      have : acceptsKeyword q = true → (q.kind == k) = false := by
        rw [acceptsKeyword_iff]; rcases hk with rfl | rfl <;> rintro (h | h) <;> simp [h]
      simp only [Function.comp, rebind_kind]
      split
      · rw [this ‹_›]; rcases hk with rfl | rfl <;> simp
      · exact Iff.rfl
    · rw [List.countP_cons, List.countP_cons]; omega

theorem pos_applyKw (kwargs : Kwargs) (ps : List Param) (h : Sorted ps) :
    posOf (applyKw kwargs ps) = (posOf ps).takeWhile (fun p => !isBound kwargs p) := by
  induction ps with
  | nil => rfl
  | cons p ps ih =>
    rw [Sorted, List.pairwise_cons] at h
    rw [applyKw]
    cases hb : isBound kwargs p with
    | true =>
      have h1 : posOf (((p :: ps).filter notVP).map (rebind kwargs)) = [] := by
        unfold posOf
        rw [List.filter_eq_nil_iff]
        intro q hq hq'
        obtain ⟨p', hp', rfl⟩ := List.mem_map.1 hq
        rw [List.mem_filter] at hp'
        rw [isPositional_iff] at hq'
        have : 1 ≤ rank p'.kind := by
          rcases List.mem_cons.1 hp'.1 with rfl | hh
          · exact (isBound_rank hb).1
          · exact Nat.le_trans (isBound_rank hb).1 (h.1 p' hh)
        have := rank_rebind kwargs p' hp'.2 this
        omega
      simp only [if_true]
      rw [h1]
      unfold posOf
      rw [List.filter_cons]
      split
      · simp [hb]
      · have : ps.filter isPositional = [] := by
          rw [List.filter_eq_nil_iff]
          intro q hq hq'
          rename_i hp
          rw [isPositional_iff] at hq' hp
          have := h.1 q hq; omega
        rw [this]; rfl
    | false =>
      simp only [Bool.false_eq_true, if_false]
      unfold posOf at ih ⊢
      rw [List.filter_cons, List.filter_cons]
      split
      · rw [List.takeWhile_cons]; simp [hb]; exact ih h.2
      · exact ih h.2

theorem applyKw_wellFormed (kwargs : Kwargs) (ps : List Param) (h : WellFormed ps) :
    WellFormed (applyKw kwargs ps) where
  distinct := h.distinct.sublist (applyKw_names _ _)
  ordered := applyKw_sorted _ _ h.ordered
  oneVarPositional := Nat.le_trans (countP_applyKw_le _ _ _ (.inl rfl)) h.oneVarPositional
  oneVarKeyword := Nat.le_trans (countP_applyKw_le _ _ _ (.inr rfl)) h.oneVarKeyword
  optionalsLast := by
    have := pos_applyKw kwargs ps h.ordered
    unfold posOf at this
    rw [this]
    exact List.Pairwise.sublist (List.takeWhile_sublist _) h.optionalsLast

theorem wellFormed_sublist {ps qs : List Param} (h : WellFormed ps) (hs : qs.Sublist ps) :
    WellFormed qs where
  distinct := h.distinct.sublist (hs.map _)
  ordered := h.ordered.sublist hs
  oneVarPositional := Nat.le_trans hs.countP_le h.oneVarPositional
  oneVarKeyword := Nat.le_trans hs.countP_le h.oneVarKeyword
  optionalsLast := h.optionalsLast.sublist (hs.filter _)

theorem remaining_wellFormed {ps : List Param} (h : WellFormed ps) (n : Nat) :
    WellFormed (remaining ps n) := wellFormed_sublist h (remaining_sublist ps h.ordered n)

/-- The whole characterisation of `bind`. -/
theorem bind_eq (s : PlainSig) (hv : ∀ p ∈ s.parameters, ValidParam p)
    (hw : WellFormed s.parameters) (args : List Obj) (kwargs : Kwargs) (t : PlainSig) :
    s.bind args kwargs = .ok t ↔
      countOk s.parameters args.length ∧ freshOk s.parameters args.length (keys kwargs) ∧
      namesOk s.parameters args.length kwargs ∧
      t = ⟨applyKw kwargs (remaining s.parameters args.length), s.returns⟩ := by
  unfold PlainSig.bind
  have hsub := remaining_sublist s.parameters hw.ordered args.length
  cases hp : bindPositionals s.parameters args kwargs
      (!(byKind s.parameters .variadicPositional).isEmpty) with
  | error e =>
    simp only [reduceCtorEq, false_iff]
    rintro ⟨h1, h2, _⟩
    have := (bindPositionals_ok_iff hw.ordered args kwargs _).2 ⟨h1, h2, rfl⟩
    rw [hp] at this; simp at this
  | ok qs =>
    obtain ⟨h1, h2, rfl⟩ := (bindPositionals_ok_iff hw.ordered args kwargs _).1 hp
    simp only [h1, h2, true_and]
    rw [bindKeywords_eq _ _ _ (fun p hp => hv p (hsub.subset hp))
      (remaining_names_nodup hw _)]
    have hcond : ((!(byKind s.parameters .variadicKeyword).isEmpty) = true ∨
        ∀ k ∈ keys kwargs, k ∈ kwNames (remaining s.parameters args.length)) ↔
        namesOk s.parameters args.length kwargs := by
      unfold namesOk hasVK
      rw [Bool.not_eq_true', byKind_isEmpty_false]
    by_cases hn : namesOk s.parameters args.length kwargs
    · rw [if_pos (hcond.2 hn)]
      simp only [hn, true_and]
      rw [new_ok_iff, validate_ok_iff]
      have := applyKw_wellFormed kwargs _ (remaining_wellFormed hw args.length)
      simp [this]
    · rw [if_neg (fun h => hn (hcond.1 h))]
      simp [hn]

theorem bind_error (s : PlainSig) (hv : ∀ p ∈ s.parameters, ValidParam p)
    (hw : WellFormed s.parameters) (args : List Obj) (kwargs : Kwargs) (e : PyErr)
    (h : s.bind args kwargs = .error e) : ∃ t, e = .typeError t := by
  unfold PlainSig.bind at h
  have hsub := remaining_sublist s.parameters hw.ordered args.length
  cases hp : bindPositionals s.parameters args kwargs
      (!(byKind s.parameters .variadicPositional).isEmpty) with
  | error e' =>
    rw [hp] at h
    obtain ⟨t, ht⟩ := bindPositionals_error _ _ _ _ _ hp
    exact ⟨t, by rw [← Except.error.inj h, ht]⟩
  | ok qs =>
    obtain ⟨h1, h2, rfl⟩ := (bindPositionals_ok_iff hw.ordered args kwargs _).1 hp
    rw [hp] at h
    simp only at h
    rw [bindKeywords_eq _ _ _ (fun p hp => hv p (hsub.subset hp))
      (remaining_names_nodup hw _)] at h
    split at h
    · rename_i he
      injection h with h
      split at he
      · simp at he
      · injection he with he
        exact ⟨_, by rw [← h, ← he]⟩
    · rename_i qs hq
      split at hq
      · injection hq with hq
        subst hq
        have := (new_ok_iff (r := s.returns)).2
          ⟨(validate_ok_iff _).2 (applyKw_wellFormed kwargs _
            (remaining_wellFormed hw args.length)), rfl⟩
        rw [this] at h; simp at h
      · simp at hq

theorem bind_isOk_iff (s : PlainSig) (hv : ∀ p ∈ s.parameters, ValidParam p)
    (hw : WellFormed s.parameters) (args : List Obj) (kwargs : Kwargs) :
    (∃ t, s.bind args kwargs = .ok t) ↔
      countOk s.parameters args.length ∧ freshOk s.parameters args.length (keys kwargs) ∧
      namesOk s.parameters args.length kwargs := by
  simp only [bind_eq s hv hw]
  constructor
  · rintro ⟨t, h1, h2, h3, _⟩; exact ⟨h1, h2, h3⟩
  · rintro ⟨h1, h2, h3⟩; exact ⟨_, h1, h2, h3, rfl⟩

end Paradigm
