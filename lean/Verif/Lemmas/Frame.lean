import Verif.Lemmas.Compose
import Verif.Spec.Arguments

/-! Lemmas about what `bind` leaves untouched, and about its dependence on the keyword list. -/

namespace Paradigm

open Spec PyCall

/-- `applyKw` without the removal of `*args`. -/
def rebindFrom (kwargs : Kwargs) : List Param → List Param
  | [] => []
  | p :: ps => if isBound kwargs p then (p :: ps).map (rebind kwargs) else p :: rebindFrom kwargs ps

theorem filter_notVP_of_rank {l : List Param} (h : ∀ q ∈ l, 3 ≤ rank q.kind) :
    l.filter notVP = l := by
  rw [List.filter_eq_self]
  intro q hq
  have := h q hq
  unfold notVP
  cases hk : q.kind <;> simp_all [rank]

theorem any_isBound_false {kwargs : Kwargs} {l : List Param}
    (h : ∀ q ∈ l, isPositional q = false) :
    (posOf l).any (isBound kwargs) = false := by
  have : posOf l = [] := by
    rw [posOf, List.filter_eq_nil_iff]
    intro q hq; simp [h q hq]
  rw [this]; rfl

theorem applyKw_eq_rebindFrom (kwargs : Kwargs) (l : List Param) (hs : Sorted l) :
    applyKw kwargs l = rebindFrom kwargs
      (if (posOf l).any (isBound kwargs) then l.filter notVP else l) := by
  induction l with
  | nil => rfl
  | cons p l ih =>
    have hsc := hs
    rw [Sorted, List.pairwise_cons] at hs
    rw [applyKw]
    by_cases hb : isBound kwargs p = true
    · rw [if_pos hb]
      have hkw : acceptsKeyword p = true := by
        unfold isBound at hb; exact (Bool.and_eq_true _ _ ▸ hb).1
      have hnv : notVP p = true := by
        rw [acceptsKeyword_iff] at hkw
        rcases hkw with h | h <;> simp [notVP, h]
      by_cases hp : isPositional p = true
      · have : (posOf (p :: l)).any (isBound kwargs) = true := by
          rw [posOf, List.filter_cons, if_pos hp]; simp [hb]
        rw [if_pos this, List.filter_cons, if_pos hnv, rebindFrom, if_pos hb]
      · have hr : 3 ≤ rank p.kind := by
          rw [acceptsKeyword_iff] at hkw
          rcases hkw with h | h
          · simp [isPositional, h] at hp
          · simp [h, rank]
        have hall : ∀ q ∈ p :: l, 3 ≤ rank q.kind := by
          intro q hq
          rcases List.mem_cons.1 hq with rfl | hq
          · exact hr
          · exact Nat.le_trans hr (hs.1 q hq)
        rw [filter_notVP_of_rank hall, ite_self, rebindFrom, if_pos hb]
    · rw [if_neg hb, ih hs.2]
      by_cases hp : isPositional p = true
      · have hnv : notVP p = true := by
          rw [isPositional_iff] at hp
          unfold notVP
          cases hk : p.kind <;> simp_all [rank]
        have : (posOf (p :: l)).any (isBound kwargs) = (posOf l).any (isBound kwargs) := by
          have : posOf (p :: l) = p :: posOf l := by rw [posOf, List.filter_cons, if_pos hp]; rfl
          rw [this, List.any_cons]; simp [hb]
        rw [this]
        split
        · rw [List.filter_cons, if_pos hnv, rebindFrom, if_neg hb]
        · rw [rebindFrom, if_neg hb]
      · have hno : ∀ q ∈ p :: l, isPositional q = false := by
          intro q hq
          rcases List.mem_cons.1 hq with rfl | hq
          · simpa using hp
          · have h1 := hs.1 q hq
            rw [isPositional_iff] at hp
            have : ¬ isPositional q = true := by rw [isPositional_iff]; omega
            simpa using this
        rw [any_isBound_false hno, any_isBound_false (fun q hq => hno q (List.mem_cons_of_mem _ hq))]
        simp only [Bool.false_eq_true, if_false]
        rw [rebindFrom, if_neg hb]

theorem length_rebindFrom (kwargs : Kwargs) (l : List Param) :
    (rebindFrom kwargs l).length = l.length := by
  induction l with
  | nil => rfl
  | cons p l ih =>
    rw [rebindFrom]; split
    · simp
    · simp [ih]

theorem getElem_rebindFrom (kwargs : Kwargs) (l : List Param) (i : Nat) (h : i < l.length) :
    (rebindFrom kwargs l)[i]'(by rw [length_rebindFrom]; exact h) =
      if (l.take (i + 1)).any (isBound kwargs) then rebind kwargs l[i] else l[i] := by
  induction l generalizing i with
  | nil => simp at h
  | cons p l ih =>
    by_cases hb : isBound kwargs p = true
    · have : rebindFrom kwargs (p :: l) = (p :: l).map (rebind kwargs) := by
        rw [rebindFrom, if_pos hb]
      simp only [this, List.getElem_map]
      rw [if_pos]
      simp [hb]
    · have : rebindFrom kwargs (p :: l) = p :: rebindFrom kwargs l := by
        rw [rebindFrom, if_neg hb]
      simp only [this]
      cases i with
      | zero => simp [hb]
      | succ i =>
        simp only [List.getElem_cons_succ]
        rw [ih i (by simpa using h)]
        simp only [List.take_succ_cons, List.any_cons]
        simp [hb]

theorem rebind_unbound_default (kwargs : Kwargs) (p : Param) (h : isBound kwargs p = false) :
    (rebind kwargs p).isOptional = p.isOptional ∧ (rebind kwargs p).default? = p.default? := by
  unfold rebind
  by_cases hk : acceptsKeyword p = true
  · rw [if_pos hk]
    have hn : p.name ∉ keys kwargs := by
      intro hn; simp [isBound, hk, hn] at h
    cases p with
    | required a k n =>
      simp only [Param.name] at hn
      simp [hn, Param.isOptional, Param.default?]
    | optional a d k n =>
      simp only [Param.name] at hn
      simp [boundDefault_not_mem hn, Param.isOptional, Param.default?]
  · rw [if_neg hk]; simp

/-! ### Dependence on the keyword list -/

theorem perm_keys {k k' : Kwargs} (h : k.Perm k') : (keys k).Perm (keys k') := h.map _

theorem contains_congr {l l' : List String} (h : ∀ x, x ∈ l ↔ x ∈ l') (x : String) :
    l.contains x = l'.contains x := by
  rw [Bool.eq_iff_iff]; simp [h]

theorem lookup_of_pair_mem {d : Kwargs} {n : String} {v : Obj} (hnd : (keys d).Nodup)
    (hv : (n, v) ∈ d) : d.lookup n = some v := by
  revert hnd v
  suffices key : ∀ (d : Kwargs), (keys d).Nodup → ∀ v, (n, v) ∈ d → d.lookup n = some v from
    fun {v} hnd hv => key d hnd v hv
  intro d
  induction d with
  | nil => intro _ v hv; simp at hv
  | cons kv d ih =>
    intro hnd v hv
    obtain ⟨x, w⟩ := kv
    simp only [keys, List.map_cons, List.nodup_cons] at hnd
    rw [List.lookup_cons]
    rcases List.mem_cons.1 hv with h1 | h1
    · cases h1; simp
    · have : n ≠ x := by
        rintro rfl
        exact hnd.1 (List.mem_map.2 ⟨(_, v), h1, rfl⟩)
      have hb : (n == x) = false := by simpa using this
      rw [hb]; exact ih hnd.2 v h1

theorem lookup_perm {k k' : Kwargs} (h : k.Perm k') (hnd : (keys k).Nodup) (n : String) :
    k.lookup n = k'.lookup n := by
  by_cases hn : n ∈ keys k
  · obtain ⟨⟨n', v⟩, hv, rfl⟩ := List.mem_map.1 hn
    rw [lookup_of_pair_mem hnd hv, lookup_of_pair_mem ((perm_keys h).nodup hnd) (h.mem_iff.1 hv)]
  · have hn' : n ∉ keys k' := fun h' => hn ((perm_keys h).mem_iff.2 h')
    rw [lookup_of_not_mem _ _ hn, lookup_of_not_mem _ _ hn']

theorem any_congr_perm {l l' : List String} (h : l.Perm l') (f : String → Bool) :
    l.any f = l'.any f := by
  rw [Bool.eq_iff_iff]; simp [h.mem_iff]

theorem isEmpty_perm {α : Type} {l l' : List α} (h : l.Perm l') : l.isEmpty = l'.isEmpty := by
  rw [Bool.eq_iff_iff, List.isEmpty_iff, List.isEmpty_iff]
  constructor
  · rintro rfl; exact h.symm.eq_nil
  · rintro rfl; exact h.eq_nil

theorem expects_congr_keys (s : PlainSig) (args args' : List Obj) (k k' : Kwargs)
    (ha : args.length = args'.length) (hk : ∀ x, x ∈ keys k ↔ x ∈ keys k') :
    s.expects args k = s.expects args' k' := by
  have hany : ∀ f : String → Bool, (keys k).any f = (keys k').any f := by
    intro f; rw [Bool.eq_iff_iff]; simp [hk]
  unfold PlainSig.expects
  simp only [ha, hany]

theorem allSet_congr_keys (s : PlainSig) (args args' : List Obj) (k k' : Kwargs)
    (ha : args.length = args'.length) (hk : ∀ x, x ∈ keys k ↔ x ∈ keys k') :
    s.allSet args k = s.allSet args' k' := by
  have hany : ∀ f : String → Bool, (keys k).any f = (keys k').any f := by
    intro f; rw [Bool.eq_iff_iff]; simp [hk]
  unfold PlainSig.allSet
  simp only [ha, hany, contains_congr hk]

theorem checkPositionals_congr {k k' : Kwargs} (hk : ∀ x, x ∈ keys k ↔ x ∈ keys k')
    (l : List Param) : checkPositionals k l = checkPositionals k' l := by
  induction l with
  | nil => rfl
  | cons p l ih => rw [checkPositionals, checkPositionals, contains_congr hk, ih]

theorem mapExcept_congr {α β : Type} (f g : α → Except PyErr β) (l : List α)
    (h : ∀ x ∈ l, f x = g x) : mapExcept f l = mapExcept g l := by
  induction l with
  | nil => rfl
  | cons a l ih =>
    rw [mapExcept, mapExcept, h a (List.mem_cons_self), ih (fun x hx => h x (List.mem_cons_of_mem _ hx))]

theorem bind_perm (s : PlainSig) (args : List Obj) {k k' : Kwargs} (h : k.Perm k')
    (hnd : (keys k).Nodup) : s.bind args k = s.bind args k' := by
  have hk : ∀ x, x ∈ keys k ↔ x ∈ keys k' := fun x => (perm_keys h).mem_iff
  have hkw : ∀ ps v, bindKeywords ps k v = bindKeywords ps k' v := by
    intro ps v
    unfold bindKeywords
    simp only
    generalize hK : (ps.filter isKeywordable).map Param.name = K
    have he : ((keys k).filter (fun x => !K.contains x)).Perm
        ((keys k').filter (fun x => !K.contains x)) := (perm_keys h).filter _
    have hc : ((keys k).filter (fun x => !((keys k).filter (fun x => !K.contains x)).contains x)).Perm
        ((keys k').filter (fun x => !((keys k').filter (fun x => !K.contains x)).contains x)) := by
      have : (fun x => !((keys k).filter (fun x => !K.contains x)).contains x)
          = (fun x => !((keys k').filter (fun x => !K.contains x)).contains x) := by
        funext x; rw [contains_congr (fun y => he.mem_iff)]
      rw [this]; exact (perm_keys h).filter _
    rw [isEmpty_perm he, isEmpty_perm hc]
    have hcc := contains_congr (fun y => hc.mem_iff)
    split
    · rfl
    · split
      · rfl
      · have e1 : ∀ p : Param, ((keys k).filter (fun x => !((keys k).filter
            (fun x => !K.contains x)).contains x)).contains p.name
            = ((keys k').filter (fun x => !((keys k').filter
              (fun x => !K.contains x)).contains x)).contains p.name := fun p => hcc p.name
        simp only [e1]
        have e2 : ∀ p : Param, rebindKeyword k ((keys k).filter (fun x => !((keys k).filter
            (fun x => !K.contains x)).contains x)) p = rebindKeyword k' ((keys k').filter
            (fun x => !((keys k').filter (fun x => !K.contains x)).contains x)) p := by
          intro p
          unfold rebindKeyword
          rw [hcc, lookup_perm h hnd]
        have e3 := funext e2
        rw [e3]
  have hp : ∀ v, bindPositionals s.parameters args k v = bindPositionals s.parameters args k' v := by
    intro v
    unfold bindPositionals
    simp only [checkPositionals_congr hk]
  unfold PlainSig.bind
  simp only [hp, hkw]

theorem bind_isOk_congr (s : PlainSig) (hs : ConstructiblePlain s) (args args' : List Obj)
    (k k' : Kwargs) (ha : args.length = args'.length) (hk : ∀ x, x ∈ keys k ↔ x ∈ keys k') :
    (∃ t, s.bind args k = .ok t) ↔ ∃ t, s.bind args' k' = .ok t := by
  obtain ⟨hv, hw⟩ := (constructiblePlain_iff s).1 hs
  rw [bind_isOk_iff s hv hw, bind_isOk_iff s hv hw, ha]
  unfold freshOk namesOk
  simp only [hk]

end Paradigm
