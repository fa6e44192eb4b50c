import Verif.Lemmas.WellFormed

/-! Characterisations of `expects`, `all_set`, `bind` and Python calls by membership conditions. -/

namespace Paradigm

open Spec PyCall

/-! ### Dictionaries -/

theorem mem_keys_dictSet {β : Type} (d : List (String × β)) (k : String) (v : β) (x : String) :
    x ∈ keys (dictSet d k v) ↔ x = k ∨ x ∈ keys d := by
  induction d with
  | nil => simp [dictSet, keys]
  | cons e d ih =>
    obtain ⟨k', v'⟩ := e
    unfold dictSet
    by_cases h : k' = k
    · subst h; simp [keys]
    · simp only [beq_iff_eq, h, if_false]
      simp only [keys, List.map_cons, List.mem_cons] at ih ⊢
      rw [ih]; constructor
      · rintro (h | h | h) <;> simp [h]
      · rintro (h | h | h) <;> simp [h]

theorem dictSet_fresh {β : Type} (d : List (String × β)) (k : String) (v : β)
    (h : k ∉ keys d) : dictSet d k v = d ++ [(k, v)] := by
  induction d with
  | nil => rfl
  | cons e d ih =>
    obtain ⟨k', v'⟩ := e
    simp only [keys, List.map_cons, List.mem_cons, not_or] at h
    have : ¬ k' = k := fun e => h.1 e.symm
    simp only [dictSet, beq_iff_eq, this, if_false, List.cons_append]
    rw [ih]; exact h.2

theorem mem_keys_foldl (ps : List Param) (d : List (String × Param)) (x : String) :
    x ∈ keys (ps.foldl (fun d p => dictSet d p.name p) d) ↔ x ∈ ps.map Param.name ∨ x ∈ keys d := by
  induction ps generalizing d with
  | nil => simp
  | cons p ps ih =>
    simp only [List.foldl_cons, ih, mem_keys_dictSet, List.map_cons, List.mem_cons]
    constructor
    · rintro (h | h | h) <;> simp [h]
    · rintro ((h | h) | h) <;> simp [h]

theorem mem_keys_byName (ps : List Param) (x : String) :
    x ∈ keys (byName ps) ↔ x ∈ ps.map Param.name := by
  unfold byName; rw [mem_keys_foldl]; simp [keys]

theorem foldl_byName (ps : List Param) (d : List (String × Param))
    (h1 : (ps.map Param.name).Nodup) (h2 : ∀ p ∈ ps, p.name ∉ keys d) :
    ps.foldl (fun d p => dictSet d p.name p) d = d ++ ps.map (fun p => (p.name, p)) := by
  induction ps generalizing d with
  | nil => simp
  | cons p ps ih =>
    rw [List.map_cons, List.nodup_cons] at h1
    rw [List.foldl_cons, ih _ h1.2, dictSet_fresh _ _ _ (h2 p List.mem_cons_self)]
    · simp
    · intro q hq hk
      rw [mem_keys_dictSet] at hk
      rcases hk with hk | hk
      · exact h1.1 (List.mem_map.2 ⟨q, hq, hk⟩)
      · exact h2 q (List.mem_cons_of_mem _ hq) hk

theorem byName_eq (ps : List Param) (h : (ps.map Param.name).Nodup) :
    byName ps = ps.map (fun p => (p.name, p)) := by
  unfold byName; rw [foldl_byName _ _ h (by simp [keys])]; rfl

/-! ### Kinds -/

theorem isPositionable_eq (p : Param) : isPositionable p = isPositional p := by
  unfold isPositionable isPositional; cases p.kind <;> rfl

theorem isKeywordable_eq (p : Param) : isKeywordable p = acceptsKeyword p := by
  unfold isKeywordable acceptsKeyword; cases p.kind <;> rfl

/-- Positional parameters. -/
def posOf (ps : List Param) : List Param := ps.filter isPositional
/-- Other parameters. -/
def restOf (ps : List Param) : List Param := ps.filter (fun p => !isPositional p)
/-- Parameters left after `n` positional arguments. -/
def remaining (ps : List Param) (n : Nat) : List Param := (posOf ps).drop n ++ restOf ps
/-- There is a `*args` parameter. -/
def hasVP (ps : List Param) : Prop := ∃ p ∈ ps, p.kind = .variadicPositional
/-- There is a `**kwargs` parameter. -/
def hasVK (ps : List Param) : Prop := ∃ p ∈ ps, p.kind = .variadicKeyword
/-- Names of parameters which accept keywords. -/
def kwNames (ps : List Param) : List String := (ps.filter acceptsKeyword).map Param.name

theorem mem_kwNames {ps : List Param} {k : String} :
    k ∈ kwNames ps ↔ ∃ p ∈ ps, acceptsKeyword p = true ∧ p.name = k := by
  simp [kwNames, and_assoc]

abbrev Sorted (ps : List Param) : Prop := ps.Pairwise (fun p q => rank p.kind ≤ rank q.kind)

theorem takeWhile_pos (ps : List Param) (h : Sorted ps) :
    ps.takeWhile isPositionable = posOf ps := by
  induction ps with
  | nil => rfl
  | cons p ps ih =>
    rw [Sorted, List.pairwise_cons] at h
    rw [List.takeWhile_cons, isPositionable_eq, posOf, List.filter_cons]
    cases hp : isPositional p with
    | true => simp only [if_true]; rw [ih h.2]; rfl
    | false =>
      symm; simp only [Bool.false_eq_true, if_false]
      rw [List.filter_eq_nil_iff]
      intro q hq hq'
      rw [isPositional_iff] at hq'
      have hp' : ¬ rank p.kind ≤ 1 := by rw [← isPositional_iff]; simp [hp]
      have := h.1 q hq; omega

theorem sorted_eq_append (ps : List Param) (h : Sorted ps) : ps = posOf ps ++ restOf ps := by
  induction ps with
  | nil => rfl
  | cons p ps ih =>
    rw [Sorted, List.pairwise_cons] at h
    have := ih h.2
    unfold posOf restOf at *
    rw [List.filter_cons, List.filter_cons]
    cases hp : isPositional p with
    | true => simp; exact this
    | false =>
      have hnil : ps.filter isPositional = [] := by
        rw [List.filter_eq_nil_iff]
        intro q hq hq'
        rw [isPositional_iff] at hq'
        have hp' : ¬ rank p.kind ≤ 1 := by rw [← isPositional_iff]; simp [hp]
        have := h.1 q hq; omega
      rw [hnil] at this ⊢
      simpa using this

theorem drop_pos (ps : List Param) (h : Sorted ps) :
    ps.drop (posOf ps).length = restOf ps := by
  conv => lhs; arg 2; rw [sorted_eq_append ps h]
  simp

theorem remaining_sublist (ps : List Param) (h : Sorted ps) (n : Nat) :
    (remaining ps n).Sublist ps := by
  conv => rhs; rw [sorted_eq_append ps h]
  exact List.Sublist.append (List.drop_sublist _ _) (List.Sublist.refl _)

theorem byKind_pos (ps : List Param) (h : Sorted ps) :
    byKind ps .positionalOnly ++ byKind ps .positionalOrKeyword = posOf ps := by
  induction ps with
  | nil => rfl
  | cons p ps ih =>
    rw [Sorted, List.pairwise_cons] at h
    have ih := ih h.2
    unfold byKind posOf at *
    simp only [List.filter_cons]
    have nil : ∀ k, rank k < rank p.kind → ps.filter (fun p => p.kind == k) = [] := by
      intro k hk
      rw [List.filter_eq_nil_iff]
      intro q hq hq'
      have := h.1 q hq
      rw [beq_iff_eq.1 hq'] at this; omega
    cases hk : p.kind
    · simp [isPositional, hk]; exact ih
    · have := nil .positionalOnly (by simp [hk, rank])
      rw [this] at ih ⊢
      simp [isPositional, hk]; exact ih
    all_goals
      rw [nil .positionalOnly (by simp [hk, rank]),
        nil .positionalOrKeyword (by simp [hk, rank])] at ih ⊢
      have hp : isPositional p = false := by simp [isPositional, hk]
      simpa [hp] using ih.symm

theorem byKind_isEmpty (ps : List Param) (k : Kind) :
    (byKind ps k).isEmpty = true ↔ ¬ ∃ p ∈ ps, p.kind = k := by
  rw [List.isEmpty_iff, byKind, List.filter_eq_nil_iff]; simp

theorem byKind_isEmpty_false (ps : List Param) (k : Kind) :
    (byKind ps k).isEmpty = false ↔ ∃ p ∈ ps, p.kind = k := by
  rw [← Bool.not_eq_true, byKind_isEmpty, Classical.not_not]

theorem acceptsKeyword_iff (p : Param) :
    acceptsKeyword p = true ↔ p.kind = .positionalOrKeyword ∨ p.kind = .keywordOnly := by
  unfold acceptsKeyword; cases p.kind <;> simp

/-- Keyword parameters that `expects`/`all_set` collect are those accepting keywords among the
remaining parameters. -/
theorem restKeywords_eq (ps : List Param) (n : Nat) :
    byKind ((posOf ps).drop n) .positionalOrKeyword ++ byKind ps .keywordOnly
      = (remaining ps n).filter acceptsKeyword := by
  unfold remaining
  rw [List.filter_append]
  congr 1
  · unfold byKind
    apply List.filter_congr
    intro p hp
    have hp := List.mem_of_mem_drop hp
    simp only [posOf, List.mem_filter] at hp
    rw [isPositional_iff] at hp
    unfold acceptsKeyword
    cases hk : p.kind <;> simp_all [rank]
  · unfold byKind restOf
    rw [List.filter_filter]
    apply List.filter_congr
    intro p _
    unfold acceptsKeyword isPositional
    cases hk : p.kind <;> simp

theorem restPositionalsOnly_eq (ps : List Param) (n : Nat) :
    byKind ((posOf ps).drop n) .positionalOnly
      = (remaining ps n).filter (fun p => p.kind == .positionalOnly) := by
  unfold remaining
  rw [List.filter_append]
  have : (restOf ps).filter (fun p => p.kind == .positionalOnly) = [] := by
    rw [List.filter_eq_nil_iff]
    intro p hp
    simp only [restOf, List.mem_filter] at hp
    unfold isPositional at hp
    cases hk : p.kind <;> simp_all
  rw [this, List.append_nil]; rfl

/-- `args` are not too many. -/
def countOk (ps : List Param) (n : Nat) : Prop := hasVP ps ∨ n ≤ (posOf ps).length

/-- All keywords are known ones. -/
def namesOk (ps : List Param) (n : Nat) (kwargs : Kwargs) : Prop :=
  hasVK ps ∨ ∀ k ∈ keys kwargs, k ∈ kwNames (remaining ps n)

theorem any_not_contains (l m : List String) :
    l.any (fun k => !m.contains k) = true ↔ ¬ ∀ k ∈ l, k ∈ m := by
  simp

theorem expects_iff (s : PlainSig) (h : Sorted s.parameters) (args : List Obj) (kwargs : Kwargs) :
    s.expects args kwargs = true ↔
      countOk s.parameters args.length ∧ namesOk s.parameters args.length kwargs := by
  unfold PlainSig.expects
  simp only [byKind_pos _ h, restKeywords_eq]
  by_cases h1 : hasVP s.parameters
  · have e1 : (byKind s.parameters .variadicPositional).isEmpty = false :=
      (byKind_isEmpty_false _ _).2 h1
    simp only [e1, Bool.false_and, Bool.false_eq_true, if_false, countOk, h1, true_or, true_and,
      namesOk]
    by_cases h2 : hasVK s.parameters
    · have e2 : (byKind s.parameters .variadicKeyword).isEmpty = false :=
        (byKind_isEmpty_false _ _).2 h2
      simp [e2, h2]
    · have e2 : (byKind s.parameters .variadicKeyword).isEmpty = true :=
        (byKind_isEmpty _ _).2 h2
      simp only [e2, Bool.true_and, h2, false_or, Bool.not_eq_true', ← Bool.not_eq_true,
        any_not_contains, Classical.not_not, mem_keys_byName]
      rfl
  · have e1 : (byKind s.parameters .variadicPositional).isEmpty = true :=
      (byKind_isEmpty _ _).2 h1
    simp only [e1, Bool.true_and, countOk, h1, false_or, namesOk]
    by_cases h3 : args.length ≤ (posOf s.parameters).length
    · have : ¬ args.length > (posOf s.parameters).length := by omega
      simp only [this, decide_false, Bool.false_eq_true, if_false, h3, true_and]
      by_cases h2 : hasVK s.parameters
      · have e2 : (byKind s.parameters .variadicKeyword).isEmpty = false :=
          (byKind_isEmpty_false _ _).2 h2
        simp [e2, h2]
      · have e2 : (byKind s.parameters .variadicKeyword).isEmpty = true :=
          (byKind_isEmpty _ _).2 h2
        simp only [e2, Bool.true_and, h2, false_or, Bool.not_eq_true', ← Bool.not_eq_true,
          any_not_contains, Classical.not_not, mem_keys_byName]
        rfl
    · have : args.length > (posOf s.parameters).length := by omega
      simp [this, h3]

/-- Required parameters that are left are given by keyword. -/
def requiredOk (ps : List Param) (n : Nat) (kwargs : Kwargs) : Prop :=
  ∀ p ∈ remaining ps n, p.isRequired = true → hasSlot p = true →
    acceptsKeyword p = true ∧ p.name ∈ keys kwargs

theorem allSet_eq_expects_and (s : PlainSig) (args : List Obj) (kwargs : Kwargs) :
    s.allSet args kwargs = (s.expects args kwargs &&
      (allOptional (byKind ((byKind s.parameters .positionalOnly
          ++ byKind s.parameters .positionalOrKeyword).drop args.length) .positionalOnly) &&
        allOptional (((byName (byKind ((byKind s.parameters .positionalOnly
          ++ byKind s.parameters .positionalOrKeyword).drop args.length) .positionalOrKeyword
          ++ byKind s.parameters .keywordOnly)).filter
            (fun np => !(keys kwargs).contains np.1)).map Prod.snd))) := by
  unfold PlainSig.allSet PlainSig.expects
  simp only []
  split
  · simp
  · split
    · rename_i h; rw [h]; rfl
    · rename_i h; rw [Bool.not_eq_true] at h; rw [h]; rfl

theorem remaining_names_nodup {ps : List Param} (h : WellFormed ps) (n : Nat) :
    ((remaining ps n).map Param.name).Nodup :=
  List.Nodup.sublist ((remaining_sublist ps h.ordered n).map _) h.distinct

theorem allSet_iff (s : PlainSig) (h : WellFormed s.parameters) (args : List Obj)
    (kwargs : Kwargs) :
    s.allSet args kwargs = true ↔
      countOk s.parameters args.length ∧ namesOk s.parameters args.length kwargs ∧
      requiredOk s.parameters args.length kwargs := by
  rw [allSet_eq_expects_and, Bool.and_eq_true, expects_iff _ h.ordered, and_assoc]
  simp only [byKind_pos _ h.ordered, restKeywords_eq, restPositionalsOnly_eq]
  rw [byName_eq _ (List.Nodup.sublist (List.Sublist.map _ List.filter_sublist)
    (remaining_names_nodup h _))]
  refine and_congr_right fun _ => and_congr_right fun _ => ?_
  unfold requiredOk allOptional
  simp only [Bool.and_eq_true, List.all_eq_true, List.mem_filter, List.mem_map]
  constructor
  · rintro ⟨a1, a2⟩ p hp hr hs
    have hopt : p.isOptional = false := by rw [isRequired_eq] at hr; simpa using hr
    have hkw : acceptsKeyword p = true := by
      cases hk : p.kind with
      | positionalOnly => have := a1 p ⟨hp, by simp [hk]⟩; simp [hopt] at this
      | _ => simp_all [hasSlot, acceptsKeyword]
    refine ⟨hkw, Classical.byContradiction fun hn => ?_⟩
    have := a2 p ⟨(p.name, p), ⟨⟨p, ⟨hp, hkw⟩, rfl⟩, by simpa using hn⟩, rfl⟩
    simp [hopt] at this
  · intro a
    constructor
    · rintro p ⟨hp, hk⟩
      cases ho : p.isOptional with
      | true => rfl
      | false =>
        have hk := beq_iff_eq.1 hk
        have := a p hp (by simp [isRequired_eq, ho]) (by simp [hasSlot, hk])
        simp [acceptsKeyword, hk] at this
    · rintro p ⟨np, ⟨⟨q, ⟨hq, hkw⟩, rfl⟩, hn⟩, rfl⟩
      simp only at hn ⊢
      cases ho : q.isOptional with
      | true => rfl
      | false =>
        have := a q hq (by simp [isRequired_eq, ho])
          (by rw [acceptsKeyword_iff] at hkw; rcases hkw with hkw | hkw <;> simp [hasSlot, hkw])
        simp [this.2] at hn

/-! ### Python calls -/

theorem fillPositionals_eq (ps : List Param) (args : List Obj) :
    fillPositionals ps args = ((ps.map Param.name).zip args, args.drop ps.length) := by
  induction ps generalizing args with
  | nil => cases args <;> simp [fillPositionals]
  | cons p ps ih =>
    cases args with
    | nil => simp [fillPositionals]
    | cons a args => simp [fillPositionals, ih]

theorem any_fst_eq {β : Type} (l : List (String × β)) (k : String) :
    l.any (fun s => s.1 == k) = true ↔ k ∈ keys l := by
  simp only [keys, List.any_eq_true, beq_iff_eq, List.mem_map]

theorem any_kw_eq (ps : List Param) (k : String) :
    ps.any (fun p => acceptsKeyword p && p.name == k) = true ↔ k ∈ kwNames ps := by
  simp [mem_kwNames]

theorem fillKeywords_ok_iff (ps : List Param) (v : Bool) (kwargs : Kwargs) (frame frame' : Frame)
    (hnd : (keys kwargs).Nodup) (h : fillKeywords ps v kwargs frame = .ok frame') :
    (∀ k ∈ keys kwargs, (k ∈ kwNames ps → k ∉ keys frame.slots) ∧ (k ∉ kwNames ps → v = true)) ∧
    frame'.slots = frame.slots ++ kwargs.filter (fun kv => decide (kv.1 ∈ kwNames ps)) ∧
    frame'.varargs = frame.varargs ∧
    frame'.varkw = frame.varkw ++ kwargs.filter (fun kv => decide (kv.1 ∉ kwNames ps)) := by
  induction kwargs generalizing frame with
  | nil => simp [fillKeywords] at h; subst h; simp [keys]
  | cons kv kwargs ih =>
    obtain ⟨k, v'⟩ := kv
    simp only [keys, List.map_cons, List.nodup_cons] at hnd
    rw [fillKeywords] at h
    simp only [any_kw_eq, any_fst_eq] at h
    by_cases h1 : k ∈ kwNames ps
    · simp only [h1, if_true] at h
      by_cases h2 : k ∈ keys frame.slots
      · simp [h2] at h
      · simp only [h2, if_false] at h
        obtain ⟨i1, i2, i3, i4⟩ := ih _ hnd.2 h
        refine ⟨?_, ?_, i3, ?_⟩
        · intro x hx
          simp only [keys, List.map_cons, List.mem_cons] at hx
          rcases hx with rfl | hx
          · exact ⟨fun _ => h2, fun h => absurd h1 h⟩
          · refine ⟨fun hh => ?_, (i1 x hx).2⟩
            have := (i1 x hx).1 hh
            simp [keys] at this ⊢
            exact fun y hy => this.1 y hy
        · rw [i2]; simp [h1]
        · rw [i4]; simp [h1]
    · simp only [h1, if_false] at h
      by_cases h2 : v = true
      · simp only [h2, if_true] at h
        subst h2
        obtain ⟨i1, i2, i3, i4⟩ := ih _ hnd.2 h
        refine ⟨?_, ?_, i3, ?_⟩
        · intro x hx
          simp only [keys, List.map_cons, List.mem_cons] at hx
          rcases hx with rfl | hx
          · exact ⟨fun h => absurd h h1, fun _ => rfl⟩
          · exact i1 x hx
        · rw [i2]; simp [h1]
        · rw [i4]; simp [h1]
      · simp [h2] at h

theorem fillKeywords_total (ps : List Param) (v : Bool) (kwargs : Kwargs) (frame : Frame)
    (hnd : (keys kwargs).Nodup)
    (h : ∀ k ∈ keys kwargs,
      (k ∈ kwNames ps → k ∉ keys frame.slots) ∧ (k ∉ kwNames ps → v = true)) :
    ∃ frame', fillKeywords ps v kwargs frame = .ok frame' := by
  induction kwargs generalizing frame with
  | nil => exact ⟨_, rfl⟩
  | cons kv kwargs ih =>
    obtain ⟨k, v'⟩ := kv
    simp only [keys, List.map_cons, List.nodup_cons] at hnd
    rw [fillKeywords]
    simp only [any_kw_eq, any_fst_eq]
    have hk := h k (by simp [keys])
    have htail : ∀ x ∈ keys kwargs, x ∈ keys ((k, v') :: kwargs) := by
      intro x hx; simp only [keys, List.map_cons, List.mem_cons]; exact .inr hx
    by_cases h1 : k ∈ kwNames ps
    · simp only [h1, if_true, hk.1 h1, if_false]
      apply ih _ hnd.2
      intro x hx
      refine ⟨fun hh => ?_, (h x (htail x hx)).2⟩
      have := (h x (htail x hx)).1 hh
      simp only [keys, List.map_append, List.mem_append, List.map_cons, List.map_nil,
        List.mem_singleton, not_or]
      exact ⟨this, fun e => hnd.1 (e ▸ hx)⟩
    · have hv := hk.2 h1
      subst hv
      simp only [h1, if_false, if_true]
      apply ih _ hnd.2
      intro x hx
      exact h x (htail x hx)

theorem checkMissing_ok_iff (frame : Frame) (ps : List Param) :
    checkMissing frame ps = .ok () ↔
      ∀ p ∈ ps, hasSlot p = true → p.isRequired = true → p.name ∈ keys frame.slots := by
  induction ps with
  | nil => simp [checkMissing]
  | cons p ps ih =>
    rw [checkMissing]
    cases h1 : hasSlot p <;> cases h2 : p.isRequired <;>
      cases h3 : frame.slots.any (fun s => s.1 == p.name) <;>
      simp only [Bool.and_self, Bool.and_true, Bool.and_false,
        Bool.not_true, Bool.not_false, Bool.false_eq_true, if_false, if_true, ih, List.mem_cons,
        forall_eq_or_imp, h1, h2, false_implies, true_and, reduceCtorEq, true_implies, false_iff]
    · intro hh
      have := (any_fst_eq _ _).2 hh.1
      simp [h3] at this
    · rw [any_fst_eq] at h3
      simp [h3]

/-- Keywords are neither unexpected nor doubly given. -/
def keysOk (ps : List Param) (n : Nat) (ks : List String) : Prop :=
  ∀ k ∈ ks, k ∈ kwNames (remaining ps n) ∨ (hasVK ps ∧ k ∉ kwNames ((posOf ps).take n))

theorem mem_iff_take_or_remaining {ps : List Param} (h : Sorted ps) (n : Nat) (p : Param) :
    p ∈ ps ↔ p ∈ (posOf ps).take n ∨ p ∈ remaining ps n := by
  conv => lhs; rw [sorted_eq_append ps h]
  unfold remaining
  conv => lhs; arg 1; arg 1; rw [← List.take_append_drop n (posOf ps)]
  simp only [List.mem_append, or_assoc]

theorem perm_take_remaining {ps : List Param} (h : Sorted ps) (n : Nat) :
    ps = (posOf ps).take n ++ remaining ps n := by
  conv => lhs; rw [sorted_eq_append ps h]
  unfold remaining
  rw [← List.append_assoc, List.take_append_drop]

theorem name_not_both {ps : List Param} (h : WellFormed ps) (n : Nat) {p q : Param}
    (hp : p ∈ (posOf ps).take n) (hq : q ∈ remaining ps n) : p.name ≠ q.name := by
  have := h.distinct
  rw [perm_take_remaining h.ordered n, List.map_append, List.nodup_append] at this
  exact this.2.2 _ (List.mem_map_of_mem hp) _ (List.mem_map_of_mem hq)

theorem name_inj {ps : List Param} (h : (ps.map Param.name).Nodup) {p q : Param}
    (hp : p ∈ ps) (hq : q ∈ ps) (hn : p.name = q.name) : p = q := by
  induction ps with
  | nil => simp at hp
  | cons x ps ih =>
    rw [List.map_cons, List.nodup_cons] at h
    rcases List.mem_cons.1 hp with hp | hp <;> rcases List.mem_cons.1 hq with hq | hq
    · rw [hp, hq]
    · exact absurd (List.mem_map.2 ⟨q, hq, by rw [← hn, hp]⟩) h.1
    · exact absurd (List.mem_map.2 ⟨p, hp, by rw [hn, hq]⟩) h.1
    · exact ih h.2 hp hq

theorem keys_zip_names (l : List Param) (args : List Obj) :
    keys ((l.map Param.name).zip args) = (l.take args.length).map Param.name := by
  induction l generalizing args with
  | nil => simp [keys]
  | cons p l ih =>
    cases args with
    | nil => simp [keys]
    | cons a args => simp only [keys, List.map_cons, List.zip_cons_cons, List.length_cons,
        List.take_succ_cons]; rw [← ih]; rfl

theorem any_kind_iff (ps : List Param) (k : Kind) :
    ps.any (fun p => p.kind == k) = true ↔ ∃ p ∈ ps, p.kind = k := by simp

theorem accepts_iff {ps : List Param} (h : WellFormed ps) (args : List Obj) (kwargs : Kwargs)
    (hnd : (keys kwargs).Nodup) :
    Accepts ps args kwargs ↔
      countOk ps args.length ∧ keysOk ps args.length (keys kwargs) ∧
      requiredOk ps args.length kwargs := by
  unfold Accepts PyCall.call
  rw [fillPositionals_eq]
  simp only []
  have hposeq : ps.filter isPositional = posOf ps := rfl
  rw [hposeq]
  by_cases hc : countOk ps args.length
  · have hcond : (!(args.drop (posOf ps).length).isEmpty
        && !(ps.any fun p => p.kind == .variadicPositional)) = false := by
      rcases hc with hv | hl
      · have := (any_kind_iff ps .variadicPositional).2 hv
        rw [this]; simp
      · simp [List.drop_eq_nil_of_le hl]
    rw [hcond]
    simp only [Bool.false_eq_true, if_false, hc, true_and]
    have hkeys : ∀ (ks : List String), keysOk ps args.length ks ↔ ∀ k ∈ ks,
        (k ∈ kwNames ps → k ∉ ((posOf ps).take args.length).map Param.name) ∧
        (k ∉ kwNames ps → (ps.any fun p => p.kind == .variadicKeyword) = true) := by
      intro ks
      unfold keysOk
      refine forall_congr' fun k => imp_congr_right fun _ => ?_
      rw [any_kind_iff]
      change _ ↔ _ ∧ (_ → hasVK ps)
      constructor
      · rintro (hm | ⟨hv, hm⟩)
        · constructor
          · intro _ hin
            obtain ⟨p, hp, hpn⟩ := List.mem_map.1 hin
            obtain ⟨q, hq, _, hqn⟩ := mem_kwNames.1 hm
            exact name_not_both h _ hp hq (hpn.trans hqn.symm)
          · intro hn
            obtain ⟨q, hq, hkw, hqn⟩ := mem_kwNames.1 hm
            exact absurd (mem_kwNames.2 ⟨q, (mem_iff_take_or_remaining h.ordered _ q).2 (.inr hq),
              hkw, hqn⟩) hn
        · refine ⟨fun hkw hin => ?_, fun _ => hv⟩
          obtain ⟨p, hp, hpn⟩ := List.mem_map.1 hin
          obtain ⟨q, hq, hqkw, hqn⟩ := mem_kwNames.1 hkw
          have hp' := (mem_iff_take_or_remaining h.ordered args.length p).2 (.inl hp)
          have := name_inj h.distinct hp' hq (hpn.trans hqn.symm)
          subst this
          exact hm (mem_kwNames.2 ⟨p, hp, hqkw, hpn⟩)
      · rintro ⟨a, b⟩
        by_cases hkw : k ∈ kwNames ps
        · left
          obtain ⟨q, hq, hqkw, hqn⟩ := mem_kwNames.1 hkw
          rcases (mem_iff_take_or_remaining h.ordered args.length q).1 hq with hq | hq
          · exact absurd (List.mem_map.2 ⟨q, hq, hqn⟩) (a hkw)
          · exact mem_kwNames.2 ⟨q, hq, hqkw, hqn⟩
        · right
          refine ⟨b hkw, fun hin => hkw ?_⟩
          obtain ⟨p, hp, hpkw, hpn⟩ := mem_kwNames.1 hin
          exact mem_kwNames.2 ⟨p, (mem_iff_take_or_remaining h.ordered args.length p).2 (.inl hp),
            hpkw, hpn⟩
    have hreq : ∀ frame : Frame,
        frame.slots = ((posOf ps).map Param.name).zip args
          ++ kwargs.filter (fun kv => decide (kv.1 ∈ kwNames ps)) →
        (checkMissing frame ps = .ok () ↔ requiredOk ps args.length kwargs) := by
      intro frame hf
      rw [checkMissing_ok_iff, hf]
      have hmem : ∀ x, x ∈ keys (((posOf ps).map Param.name).zip args
          ++ kwargs.filter (fun kv => decide (kv.1 ∈ kwNames ps))) ↔
          x ∈ ((posOf ps).take args.length).map Param.name ∨ (x ∈ keys kwargs ∧ x ∈ kwNames ps) := by
        intro x
        have : keys (((posOf ps).map Param.name).zip args
          ++ kwargs.filter (fun kv => decide (kv.1 ∈ kwNames ps)))
          = keys (((posOf ps).map Param.name).zip args)
            ++ keys (kwargs.filter (fun kv => decide (kv.1 ∈ kwNames ps))) := by simp [keys]
        rw [this, List.mem_append, keys_zip_names]
        refine or_congr_right ?_
        simp only [keys, List.mem_map, List.mem_filter, decide_eq_true_eq]
        constructor
        · rintro ⟨kv, ⟨h1, h2⟩, rfl⟩; exact ⟨⟨kv, h1, rfl⟩, h2⟩
        · rintro ⟨⟨kv, h1, rfl⟩, h2⟩; exact ⟨kv, ⟨h1, h2⟩, rfl⟩
      constructor
      · intro hall p hp hr hs
        have hp' := (mem_iff_take_or_remaining h.ordered args.length p).2 (.inr hp)
        rcases (hmem _).1 (hall p hp' hs hr) with hin | ⟨hk, hkw⟩
        · obtain ⟨q, hq, hqn⟩ := List.mem_map.1 hin
          exact absurd hqn (name_not_both h _ hq hp)
        · obtain ⟨q, hq, hqkw, hqn⟩ := mem_kwNames.1 hkw
          have := name_inj h.distinct hp' hq hqn.symm
          subst this
          exact ⟨hqkw, hk⟩
      · intro hall p hp hs hr
        rw [hmem]
        rcases (mem_iff_take_or_remaining h.ordered args.length p).1 hp with hp' | hp'
        · exact .inl (List.mem_map_of_mem hp')
        · obtain ⟨hkw, hk⟩ := hall p hp' hr hs
          exact .inr ⟨hk, mem_kwNames.2 ⟨p, hp, hkw, rfl⟩⟩
    constructor
    · rintro ⟨frame, hf⟩
      cases hfk : fillKeywords ps (ps.any fun p => p.kind == .variadicKeyword) kwargs
          ⟨((posOf ps).map Param.name).zip args, args.drop (posOf ps).length, []⟩ with
      | error e => rw [hfk] at hf; simp at hf
      | ok frame' =>
        rw [hfk] at hf
        obtain ⟨c1, c2, _, _⟩ := fillKeywords_ok_iff _ _ _ _ _ hnd hfk
        refine ⟨?_, ?_⟩
        · rw [hkeys]
          simp only [keys_zip_names] at c1
          exact c1
        · rw [← hreq frame' c2]
          simp only at hf
          cases hm : checkMissing frame' ps with
          | ok u => rfl
          | error e => rw [hm] at hf; simp at hf
    · rintro ⟨hk, hr⟩
      rw [hkeys] at hk
      obtain ⟨frame', hfk⟩ := fillKeywords_total ps (ps.any fun p => p.kind == .variadicKeyword)
        kwargs ⟨((posOf ps).map Param.name).zip args, args.drop (posOf ps).length, []⟩ hnd
        (by simp only [keys_zip_names]; exact hk)
      refine ⟨frame', ?_⟩
      rw [hfk]
      have c := fillKeywords_ok_iff _ _ _ _ _ hnd hfk
      simp only [(hreq frame' c.2.1).2 hr]
  · have hcond : (!(args.drop (posOf ps).length).isEmpty
        && !(ps.any fun p => p.kind == .variadicPositional)) = true := by
      simp only [countOk, not_or] at hc
      have h1 : (ps.any fun p => p.kind == .variadicPositional) = false := by
        rw [← Bool.not_eq_true, any_kind_iff]; exact hc.1
      have h2 : (args.drop (posOf ps).length) ≠ [] := by
        rw [Ne, List.drop_eq_nil_iff]; exact hc.2
      rw [h1]; cases hd : args.drop (posOf ps).length <;> simp_all
    rw [hcond]
    simp [hc]

end Paradigm
