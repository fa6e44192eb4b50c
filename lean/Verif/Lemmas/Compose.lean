import Verif.Lemmas.Bind

/-! Composition of bindings with calls and with further bindings. -/

namespace Paradigm

open Spec PyCall

theorem posOf_drop (ps : List Param) (n : Nat) : posOf ((posOf ps).drop n) = (posOf ps).drop n := by
  unfold posOf
  rw [List.filter_eq_self]
  intro p hp
  exact (List.mem_filter.1 (List.mem_of_mem_drop hp)).2

theorem posOf_remaining (ps : List Param) (n : Nat) :
    posOf (remaining ps n) = (posOf ps).drop n := by
  have h1 : posOf (restOf ps) = [] := by
    unfold posOf restOf; rw [List.filter_eq_nil_iff]
    intro p hp h; simp [List.mem_filter] at hp; simp [hp.2] at h
  have : posOf (remaining ps n) = posOf ((posOf ps).drop n) ++ posOf (restOf ps) := by
    unfold remaining posOf; rw [List.filter_append]
  rw [this, posOf_drop, h1, List.append_nil]

theorem restOf_remaining (ps : List Param) (n : Nat) : restOf (remaining ps n) = restOf ps := by
  unfold remaining restOf
  rw [List.filter_append, List.filter_filter]
  have : ((posOf ps).drop n).filter (fun p => !isPositional p) = [] := by
    rw [List.filter_eq_nil_iff]
    intro p hp
    have := (List.mem_filter.1 (List.mem_of_mem_drop hp)).2
    simp [this]
  rw [this, List.nil_append]
  apply List.filter_congr; intro p _; simp

theorem remaining_remaining (ps : List Param) (n m : Nat) :
    remaining (remaining ps n) m = remaining ps (n + m) := by
  show (posOf (remaining ps n)).drop m ++ restOf (remaining ps n) = _
  rw [posOf_remaining, restOf_remaining, List.drop_drop]; rfl

theorem mem_restOf {ps : List Param} {p : Param} (h : p ∈ ps) (hk : 2 ≤ rank p.kind) :
    p ∈ restOf ps := by
  unfold restOf
  rw [List.mem_filter]
  refine ⟨h, ?_⟩
  have : ¬ isPositional p = true := by rw [isPositional_iff]; omega
  simp [this]

theorem remaining_subset {ps : List Param} {n : Nat} {p : Param} (h : p ∈ remaining ps n) :
    p ∈ ps := by
  unfold remaining at h
  rcases List.mem_append.1 h with h | h
  · exact (List.mem_filter.1 (List.mem_of_mem_drop h)).1
  · exact (List.mem_filter.1 h).1

theorem hasVK_remaining (ps : List Param) (n : Nat) : hasVK (remaining ps n) ↔ hasVK ps := by
  constructor
  · rintro ⟨p, hp, hk⟩; exact ⟨p, remaining_subset hp, hk⟩
  · rintro ⟨p, hp, hk⟩
    exact ⟨p, List.mem_append.2 (.inr (mem_restOf hp (by simp [hk, rank]))), hk⟩

theorem hasVP_remaining (ps : List Param) (n : Nat) : hasVP (remaining ps n) ↔ hasVP ps := by
  constructor
  · rintro ⟨p, hp, hk⟩; exact ⟨p, remaining_subset hp, hk⟩
  · rintro ⟨p, hp, hk⟩
    exact ⟨p, List.mem_append.2 (.inr (mem_restOf hp (by simp [hk, rank]))), hk⟩

theorem countOk_remaining (ps : List Param) (n m : Nat) (h : countOk ps n) :
    countOk (remaining ps n) m ↔ countOk ps (n + m) := by
  unfold countOk at *
  rw [hasVP_remaining, posOf_remaining, List.length_drop]
  rcases h with h | h
  · simp [h]
  · constructor <;> rintro (h' | h') <;> (try exact .inl h') <;> right <;> omega

/-! ### Facts about `applyKw` -/

theorem mem_applyKw_of_mem {kwargs : Kwargs} {ps : List Param} {p : Param} (h : p ∈ ps)
    (hvp : notVP p = true) :
    p ∈ applyKw kwargs ps ∨ rebind kwargs p ∈ applyKw kwargs ps := by
  induction ps with
  | nil => simp at h
  | cons q ps ih =>
    rw [applyKw]
    split
    · right; exact List.mem_map.2 ⟨p, List.mem_filter.2 ⟨h, hvp⟩, rfl⟩
    · rcases List.mem_cons.1 h with rfl | h
      · left; exact List.mem_cons_self
      · rcases ih h with h | h
        · left; exact List.mem_cons_of_mem _ h
        · right; exact List.mem_cons_of_mem _ h

theorem rebind_acceptsKeyword (kwargs : Kwargs) (p : Param) :
    acceptsKeyword (rebind kwargs p) = acceptsKeyword p := by
  have := rebind_kind kwargs p
  by_cases h : acceptsKeyword p = true
  · rw [if_pos h] at this
    rw [h, acceptsKeyword_iff, this]; simp
  · rw [if_neg h] at this
    rw [Bool.eq_iff_iff, acceptsKeyword_iff, acceptsKeyword_iff, this]

theorem kwNames_applyKw (kwargs : Kwargs) (ps : List Param) (k : String) :
    k ∈ kwNames (applyKw kwargs ps) ↔ k ∈ kwNames ps := by
  rw [mem_kwNames, mem_kwNames]
  constructor
  · rintro ⟨p, hp, hkw, hn⟩
    rcases mem_applyKw hp with hp | ⟨q, hq, _, rfl⟩
    · exact ⟨p, hp, hkw, hn⟩
    · exact ⟨q, hq, by rw [← rebind_acceptsKeyword kwargs, hkw], by rw [← rebind_name kwargs, hn]⟩
  · rintro ⟨p, hp, hkw, hn⟩
    have hvp : notVP p = true := by
      unfold notVP; rcases (acceptsKeyword_iff p).1 hkw with h | h <;> simp [h]
    rcases mem_applyKw_of_mem (kwargs := kwargs) hp hvp with h | h
    · exact ⟨p, h, hkw, hn⟩
    · exact ⟨_, h, by rw [rebind_acceptsKeyword, hkw], by rw [rebind_name, hn]⟩

theorem hasVK_applyKw (kwargs : Kwargs) (ps : List Param) :
    hasVK (applyKw kwargs ps) ↔ hasVK ps := by
  constructor
  · rintro ⟨p, hp, hk⟩
    rcases mem_applyKw hp with hp | ⟨q, hq, _, rfl⟩
    · exact ⟨p, hp, hk⟩
    · refine ⟨q, hq, ?_⟩
      rw [rebind_kind] at hk; split at hk
      · simp at hk
      · exact hk
  · rintro ⟨p, hp, hk⟩
    have hvp : notVP p = true := by unfold notVP; simp [hk]
    rcases mem_applyKw_of_mem (kwargs := kwargs) hp hvp with h | h
    · exact ⟨p, h, hk⟩
    · refine ⟨_, h, ?_⟩
      rw [rebind_kind]
      have : ¬ acceptsKeyword p = true := by rw [acceptsKeyword_iff]; simp [hk]
      rw [if_neg this]; exact hk

theorem hasVP_applyKw (kwargs : Kwargs) (ps : List Param) (hs : Sorted ps) :
    hasVP (applyKw kwargs ps) ↔ hasVP ps ∧ ∀ p ∈ posOf ps, isBound kwargs p = false := by
  induction ps with
  | nil => simp [applyKw, hasVP, posOf]
  | cons p ps ih =>
    rw [Sorted, List.pairwise_cons] at hs
    have ih := ih hs.2
    rw [applyKw]
    cases hb : isBound kwargs p with
    | true =>
      simp only [if_true]
      constructor
      · rintro ⟨q, hq, hk⟩
        obtain ⟨q', hq', rfl⟩ := List.mem_map.1 hq
        rw [rebind_kind] at hk
        rw [List.mem_filter] at hq'
        split at hk
        · simp at hk
        · have := hq'.2; simp [notVP, hk] at this
      · rintro ⟨⟨q, hq, hk⟩, hall⟩
        exfalso
        have hr := isBound_rank hb
        by_cases hp : isPositional p = true
        · have := hall p (List.mem_filter.2 ⟨List.mem_cons_self, hp⟩)
          rw [hb] at this; simp at this
        · rw [isPositional_iff] at hp
          rcases List.mem_cons.1 hq with rfl | hq
          · simp only [isBound, acceptsKeyword, hk] at hb
            simp at hb
          · have h1 := hs.1 q hq
            rw [hk] at h1
            have : p.kind = .keywordOnly := by
              have hb' : acceptsKeyword p = true := by
                simp only [isBound, Bool.and_eq_true] at hb; exact hb.1
              rcases (acceptsKeyword_iff p).1 hb' with h | h
              · simp [h, rank] at hp
              · exact h
            rw [this] at h1; simp [rank] at h1
    | false =>
      simp only [Bool.false_eq_true, if_false]
      have e1 : hasVP (p :: applyKw kwargs ps) ↔
          p.kind = .variadicPositional ∨ hasVP (applyKw kwargs ps) := by
        simp [hasVP]
      have e2 : hasVP (p :: ps) ↔ p.kind = .variadicPositional ∨ hasVP ps := by
        simp [hasVP]
      rw [e1, e2, ih]
      have e3 : (∀ q ∈ posOf (p :: ps), isBound kwargs q = false) ↔
          ∀ q ∈ posOf ps, isBound kwargs q = false := by
        unfold posOf
        rw [List.filter_cons]
        split
        · simp [hb]
        · rfl
      rw [e3]
      constructor
      · rintro (h | ⟨h1, h2⟩)
        · refine ⟨.inl h, ?_⟩
          intro q hq
          simp only [posOf, List.mem_filter] at hq
          have := hs.1 q hq.1
          rw [isPositional_iff] at hq
          rw [h] at this
          have h2 : rank Kind.variadicPositional = 2 := rfl
          omega
        · exact ⟨.inr h1, h2⟩
      · rintro ⟨h1 | h1, h2⟩
        · exact .inl h1
        · exact .inr ⟨h1, h2⟩

theorem length_takeWhile_ge {α : Type} (f : α → Bool) (l : List α) (m : Nat) (hm : m ≤ l.length)
    (h : ∀ x ∈ l.take m, f x = true) : m ≤ (l.takeWhile f).length := by
  induction l generalizing m with
  | nil => simpa using hm
  | cons x l ih =>
    cases m with
    | zero => omega
    | succ m =>
      rw [List.take_succ_cons] at h
      rw [List.takeWhile_cons, h x List.mem_cons_self]
      simp only [if_true, List.length_cons]
      have := ih m (by simpa using hm) (fun y hy => h y (List.mem_cons_of_mem _ hy))
      omega

theorem take_takeWhile_all {α : Type} (f : α → Bool) (l : List α) (m : Nat)
    (h : m ≤ (l.takeWhile f).length) : ∀ x ∈ l.take m, f x = true := by
  induction l generalizing m with
  | nil => simp
  | cons x l ih =>
    cases m with
    | zero => simp
    | succ m =>
      rw [List.takeWhile_cons] at h
      cases hx : f x with
      | false => simp [hx] at h
      | true =>
        simp [hx] at h
        intro y hy
        rw [List.take_succ_cons] at hy
        rcases List.mem_cons.1 hy with rfl | hy
        · exact hx
        · exact ih m h y hy

theorem takeWhile_take {α : Type} (f : α → Bool) (l : List α) (m : Nat)
    (h : ∀ x ∈ l.take m, f x = true) : (l.takeWhile f).take m = l.take m := by
  induction l generalizing m with
  | nil => simp
  | cons x l ih =>
    cases m with
    | zero => simp
    | succ m =>
      rw [List.take_succ_cons] at h
      rw [List.takeWhile_cons, h x List.mem_cons_self]
      simp only [if_true, List.take_succ_cons]
      rw [ih m (fun y hy => h y (List.mem_cons_of_mem _ hy))]

/-- None of the first `m` positional parameters is given by keyword. -/
def unboundTake (kwargs : Kwargs) (ps : List Param) (m : Nat) : Prop :=
  ∀ p ∈ (posOf ps).take m, isBound kwargs p = false

theorem countOk_applyKw (kwargs : Kwargs) (ps : List Param) (hs : Sorted ps) (m : Nat) :
    countOk (applyKw kwargs ps) m ↔ countOk ps m ∧ unboundTake kwargs ps m := by
  unfold countOk unboundTake
  rw [hasVP_applyKw _ _ hs, pos_applyKw _ _ hs]
  constructor
  · rintro (⟨h1, h2⟩ | h)
    · exact ⟨.inl h1, fun p hp => h2 p (List.mem_of_mem_take hp)⟩
    · refine ⟨.inr (Nat.le_trans h (List.takeWhile_sublist _).length_le), ?_⟩
      intro p hp
      have := take_takeWhile_all _ _ _ h p hp
      simpa using this
  · rintro ⟨h1, h2⟩
    by_cases hm : m ≤ (posOf ps).length
    · right
      apply length_takeWhile_ge _ _ _ hm
      intro p hp; simp [h2 p hp]
    · left
      refine ⟨h1.resolve_right hm, ?_⟩
      rw [List.take_of_length_le (by omega)] at h2
      exact h2

theorem take_applyKw (kwargs : Kwargs) (ps : List Param) (hs : Sorted ps) (m : Nat)
    (h : unboundTake kwargs ps m) : (posOf (applyKw kwargs ps)).take m = (posOf ps).take m := by
  rw [pos_applyKw _ _ hs]
  apply takeWhile_take
  intro p hp; simp [h p hp]

theorem applyKw_append (kwargs : Kwargs) (l r : List Param)
    (h : ∀ p ∈ l, isBound kwargs p = false) :
    applyKw kwargs (l ++ r) = l ++ applyKw kwargs r := by
  induction l with
  | nil => rfl
  | cons p l ih =>
    rw [List.cons_append, applyKw, h p List.mem_cons_self]
    simp only [Bool.false_eq_true, if_false, List.cons_append]
    rw [ih (fun q hq => h q (List.mem_cons_of_mem _ hq))]

theorem remaining_applyKw (kwargs : Kwargs) (ps : List Param) (hs : Sorted ps) (m : Nat)
    (h : unboundTake kwargs ps m) :
    remaining (applyKw kwargs ps) m = applyKw kwargs (remaining ps m) := by
  have hs' := applyKw_sorted kwargs ps hs
  have e1 : applyKw kwargs ps = (posOf ps).take m ++ applyKw kwargs (remaining ps m) := by
    conv => lhs; rw [perm_take_remaining hs m]
    exact applyKw_append _ _ _ h
  have e2 := perm_take_remaining hs' m
  rw [take_applyKw _ _ hs _ h] at e2
  exact (List.append_cancel_left (e1.symm.trans e2)).symm

/-- Required parameters of `l` are given by keyword. -/
def reqL (l : List Param) (ks : List String) : Prop :=
  ∀ p ∈ l, p.isRequired = true → hasSlot p = true → acceptsKeyword p = true ∧ p.name ∈ ks

theorem hasSlot_rebind (kwargs : Kwargs) (p : Param) : hasSlot (rebind kwargs p) = hasSlot p := by
  have := rebind_kind kwargs p
  by_cases h : acceptsKeyword p = true
  · rw [if_pos h] at this
    rcases (acceptsKeyword_iff p).1 h with h | h <;> simp [hasSlot, this, h]
  · rw [if_neg h] at this
    unfold hasSlot; rw [this]

theorem rebind_isRequired (kwargs : Kwargs) (p : Param) :
    (rebind kwargs p).isRequired = (p.isRequired && !isBound kwargs p) := by
  rw [isRequired_eq, isRequired_eq, rebind_isOptional]; simp

theorem reqL_rebind (kwargs : Kwargs) (ks : List String) (p : Param) :
    ((rebind kwargs p).isRequired = true → hasSlot (rebind kwargs p) = true →
      acceptsKeyword (rebind kwargs p) = true ∧ (rebind kwargs p).name ∈ ks) ↔
    (p.isRequired = true → hasSlot p = true →
      acceptsKeyword p = true ∧ (p.name ∈ keys kwargs ∨ p.name ∈ ks)) := by
  rw [rebind_isRequired, hasSlot_rebind, rebind_acceptsKeyword, rebind_name]
  unfold isBound
  cases acceptsKeyword p <;> by_cases hm : p.name ∈ keys kwargs <;> simp [hm]

theorem reqL_applyKw (kwargs : Kwargs) (l : List Param) (ks : List String) :
    reqL (applyKw kwargs l) ks ↔
      ∀ p ∈ l, p.isRequired = true → hasSlot p = true →
        acceptsKeyword p = true ∧ (p.name ∈ keys kwargs ∨ p.name ∈ ks) := by
  induction l with
  | nil => simp [applyKw, reqL]
  | cons p l ih =>
    rw [applyKw]
    cases hb : isBound kwargs p with
    | true =>
      simp only [if_true]
      unfold reqL
      constructor
      · intro h q hq
        by_cases hvp : notVP q = true
        · exact (reqL_rebind _ _ _).1 (h _ (List.mem_map_of_mem (List.mem_filter.2 ⟨hq, hvp⟩)))
        · intro _ hs
          simp [notVP] at hvp
          simp [hasSlot, hvp] at hs
      · intro h q hq
        obtain ⟨q', hq', rfl⟩ := List.mem_map.1 hq
        exact (reqL_rebind _ _ _).2 (h q' (List.mem_filter.1 hq').1)
    | false =>
      simp only [Bool.false_eq_true, if_false]
      unfold reqL at ih ⊢
      simp only [List.mem_cons, forall_eq_or_imp]
      refine and_congr ?_ ih
      unfold isBound at hb
      cases hk : acceptsKeyword p
      · simp
      · have : p.name ∉ keys kwargs := by simpa [hk] using hb
        simp [this]

/-! ### Two bindings -/

theorem keys_append (k rk : Kwargs) : keys (k ++ rk) = keys k ++ keys rk := by simp [keys]

theorem lookup_append_left {k rk : Kwargs} {n : String} (h : n ∈ keys k) :
    (k ++ rk).lookup n = k.lookup n := by
  obtain ⟨v, hv⟩ := lookup_of_mem _ _ h
  rw [List.lookup_append, hv]; rfl

theorem lookup_append_right {k rk : Kwargs} {n : String} (h : n ∉ keys k) :
    (k ++ rk).lookup n = rk.lookup n := by
  rw [List.lookup_append, lookup_of_not_mem _ _ h]; rfl

theorem boundDefault_append_left {k rk : Kwargs} {n : String} (h : n ∈ keys k) :
    boundDefault (k ++ rk) n = boundDefault k n := by
  unfold boundDefault; rw [lookup_append_left h]

theorem boundDefault_append_right {k rk : Kwargs} {n : String} (h : n ∉ keys k) :
    boundDefault (k ++ rk) n = boundDefault rk n := by
  unfold boundDefault; rw [lookup_append_right h]

theorem boundDefault_not_mem {k : Kwargs} {n : String} (h : n ∉ keys k) :
    boundDefault k n = none := by
  unfold boundDefault; rw [lookup_of_not_mem _ _ h]; rfl

theorem rebind_required (k : Kwargs) (a : Obj) (kd : Kind) (n : String)
    (h : acceptsKeyword (.required a kd n) = true) :
    rebind k (.required a kd n) = if n ∈ keys k then
      .optional a (boundDefault k n) .keywordOnly n else .required a .keywordOnly n := by
  unfold rebind; rw [if_pos h]

theorem rebind_optional (k : Kwargs) (a : Obj) (d : Option Obj) (kd : Kind) (n : String)
    (h : acceptsKeyword (.optional a d kd n) = true) :
    rebind k (.optional a d kd n) = .optional a (d.or (boundDefault k n)) .keywordOnly n := by
  unfold rebind; rw [if_pos h]

theorem rebind_rebind (k rk : Kwargs) (hd : ∀ n ∈ keys k, n ∉ keys rk) (p : Param) :
    rebind rk (rebind k p) = rebind (k ++ rk) p := by
  by_cases hkw : acceptsKeyword p = true
  · cases p with
    | required a kd n =>
      rw [rebind_required _ _ _ _ hkw, rebind_required _ _ _ _ hkw]
      by_cases h1 : n ∈ keys k
      · have h2 := hd n h1
        rw [if_pos h1, rebind_optional _ _ _ _ _ rfl]
        simp [h1, keys_append, boundDefault_append_left h1, boundDefault_not_mem h2]
      · rw [if_neg h1, rebind_required _ _ _ _ rfl]
        simp [h1, keys_append, boundDefault_append_right h1]
    | optional a d kd n =>
      rw [rebind_optional _ _ _ _ _ hkw, rebind_optional _ _ _ _ _ hkw,
        rebind_optional _ _ _ _ _ rfl]
      simp only [Param.optional.injEq, and_true, true_and]
      by_cases h1 : n ∈ keys k
      · rw [boundDefault_append_left h1, boundDefault_not_mem (hd n h1)]; simp
      · rw [boundDefault_append_right h1, boundDefault_not_mem h1]; simp
  · have : rebind k p = p := by unfold rebind; rw [if_neg hkw]
    rw [this]; unfold rebind; rw [if_neg hkw, if_neg hkw]

theorem isBound_rebind (k rk : Kwargs) (p : Param) : isBound rk (rebind k p) = isBound rk p := by
  unfold isBound; rw [rebind_acceptsKeyword, rebind_name]

theorem rebind_congr_unbound_right (k rk : Kwargs) (p : Param) (h : isBound rk p = false) :
    rebind (k ++ rk) p = rebind k p := by
  by_cases hkw : acceptsKeyword p = true
  · have hn : p.name ∉ keys rk := by unfold isBound at h; simpa [hkw] using h
    unfold rebind
    rw [if_pos hkw, if_pos hkw]
    have hb : boundDefault (k ++ rk) p.name = boundDefault k p.name := by
      by_cases h1 : p.name ∈ keys k
      · exact boundDefault_append_left h1
      · rw [boundDefault_append_right h1, boundDefault_not_mem h1, boundDefault_not_mem hn]
    cases p with
    | required a kd n => simp only [Param.name] at hn hb; simp [keys_append, hn, hb]
    | optional a d kd n => simp only [Param.name] at hb; simp [hb]
  · unfold rebind; rw [if_neg hkw, if_neg hkw]

theorem rebind_congr_unbound_left (k rk : Kwargs) (p : Param) (h : isBound k p = false) :
    rebind (k ++ rk) p = rebind rk p := by
  by_cases hkw : acceptsKeyword p = true
  · have hn : p.name ∉ keys k := by unfold isBound at h; simpa [hkw] using h
    unfold rebind
    rw [if_pos hkw, if_pos hkw]
    have hb := boundDefault_append_right (rk := rk) hn
    cases p with
    | required a kd n => simp only [Param.name] at hn hb; simp [keys_append, hn, hb]
    | optional a d kd n => simp only [Param.name] at hb; simp [hb]
  · unfold rebind; rw [if_neg hkw, if_neg hkw]

theorem isBound_append (k rk : Kwargs) (p : Param) :
    isBound (k ++ rk) p = (isBound k p || isBound rk p) := by
  unfold isBound
  cases acceptsKeyword p <;> simp [keys_append]

theorem notVP_rebind (k : Kwargs) (p : Param) (h : notVP p = true) :
    notVP (rebind k p) = true := by
  unfold notVP at *
  rw [rebind_kind]; split
  · rfl
  · exact h

theorem applyKw_map_rebind (k rk : Kwargs) (hd : ∀ n ∈ keys k, n ∉ keys rk) (l : List Param)
    (hl : ∀ p ∈ l, notVP p = true) :
    applyKw rk (l.map (rebind k)) = l.map (rebind (k ++ rk)) := by
  induction l with
  | nil => rfl
  | cons p l ih =>
    rw [List.map_cons, applyKw, isBound_rebind]
    cases hb : isBound rk p with
    | true =>
      simp only [if_true]
      rw [List.filter_eq_self.2, ← List.map_cons, List.map_map]
      · apply List.map_congr_left
        intro q _
        exact rebind_rebind k rk hd q
      · intro q hq
        rw [← List.map_cons] at hq
        obtain ⟨q', hq', rfl⟩ := List.mem_map.1 hq
        exact notVP_rebind _ _ (hl q' hq')
    | false =>
      simp only [Bool.false_eq_true, if_false, List.map_cons]
      rw [ih (fun q hq => hl q (List.mem_cons_of_mem _ hq)), rebind_congr_unbound_right _ _ _ hb]

theorem map_rebind_applyKw (k rk : Kwargs) (hd : ∀ n ∈ keys k, n ∉ keys rk) (l : List Param) :
    ((applyKw k l).filter notVP).map (rebind rk) = (l.filter notVP).map (rebind (k ++ rk)) := by
  induction l with
  | nil => rfl
  | cons p l ih =>
    rw [applyKw]
    cases hb : isBound k p with
    | true =>
      simp only [if_true]
      rw [List.filter_eq_self.2, List.map_map]
      · apply List.map_congr_left
        intro q _
        exact rebind_rebind k rk hd q
      · intro q hq
        obtain ⟨q', hq', rfl⟩ := List.mem_map.1 hq
        exact notVP_rebind _ _ (List.mem_filter.1 hq').2
    | false =>
      simp only [Bool.false_eq_true, if_false]
      rw [List.filter_cons, List.filter_cons]
      split
      · rw [List.map_cons, List.map_cons, ih, rebind_congr_unbound_left _ _ _ hb]
      · exact ih

theorem applyKw_applyKw (k rk : Kwargs) (hd : ∀ n ∈ keys k, n ∉ keys rk) (l : List Param) :
    applyKw rk (applyKw k l) = applyKw (k ++ rk) l := by
  induction l with
  | nil => rfl
  | cons p l ih =>
    conv => rhs; rw [applyKw, isBound_append]
    rw [applyKw]
    cases hb : isBound k p with
    | true =>
      simp only [if_true, Bool.true_or]
      rw [applyKw_map_rebind k rk hd]
      intro q hq; exact (List.mem_filter.1 hq).2
    | false =>
      simp only [Bool.false_eq_true, if_false, Bool.false_or]
      rw [applyKw]
      cases hb2 : isBound rk p with
      | true =>
        simp only [if_true]
        rw [List.filter_cons, List.filter_cons]
        split
        · rw [List.map_cons, List.map_cons, map_rebind_applyKw k rk hd,
            rebind_congr_unbound_left _ _ _ hb]
        · exact map_rebind_applyKw k rk hd l
      | false =>
        simp only [Bool.false_eq_true, if_false]
        rw [ih]

end Paradigm
