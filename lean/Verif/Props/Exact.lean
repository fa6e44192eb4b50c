import Verif.Props.Overloads

/-!
# C05, C06, C08, C09, C10, C16 and C18 for all calls

The calls that the partial theorems leave out, together with the others: what exactly has to be added to
the answers of the code to get those of Python.
-/

namespace Paradigm.Props

open Spec PyCall

/-- Python rejects keywords that repeat the name of a parameter filled positionally. -/
theorem accepts_not_collides {ps : List Param} (hw : WellFormed ps) {args : List Obj} {kwargs : Kwargs}
    (hnd : (keys kwargs).Nodup) (h : Accepts ps args kwargs) :
    ¬ KwCollides ps args.length (keys kwargs) := by
  rintro ⟨-, p, hp, hkw, hn⟩
  obtain ⟨-, h2, -⟩ := (accepts_iff hw args kwargs hnd).1 h
  rcases h2 _ hn with h | ⟨-, h⟩
  · obtain ⟨q, hq, -, hqn⟩ := mem_kwNames.1 h
    exact name_not_both hw _ hp hq hqn.symm
  · exact h (mem_kwNames.2 ⟨p, hp, hkw, rfl⟩)

theorem kwCollides_mono {ps : List Param} {n n' : Nat} {names names' : List String} (hn : n ≤ n')
    (hs : ∀ x ∈ names, x ∈ names') (h : KwCollides ps n names) : KwCollides ps n' names' := by
  obtain ⟨h1, p, hp, hkw, hx⟩ := h
  exact ⟨h1, p, List.take_subset_take_left _ hn hp, hkw, hs _ hx⟩

/-- **C05**, all calls: `bind` succeeds exactly for what is expected and does not collide. -/
theorem C05_bind_iff (s : PlainSig) (hs : ConstructiblePlain s) (args : List Obj) (kwargs : Kwargs) :
    (∃ t, s.bind args kwargs = .ok t) ↔
      s.expects args kwargs = true ∧ ¬ Collides s.parameters args.length (keys kwargs) := by
  constructor
  · rintro ⟨t, ht⟩
    have hc : ¬ Collides s.parameters args.length (keys kwargs) := by
      intro hc
      obtain ⟨tag, he⟩ := C05_collision_always_raises s hs args kwargs hc
      rw [he] at ht
      cases ht
    exact ⟨(C05_expects_iff_bind_partial s hs args kwargs hc).2 ⟨t, ht⟩, hc⟩
  · rintro ⟨h, hc⟩
    exact (C05_expects_iff_bind_partial s hs args kwargs hc).1 h

/-- **C06**, all calls: Python accepts exactly the calls for which `all_set` holds and no keyword repeats
the name of a parameter filled positionally. -/
theorem C06_accepts_iff (s : PlainSig) (hs : ConstructiblePlain s) (args : List Obj) (kwargs : Kwargs)
    (hnd : (keys kwargs).Nodup) :
    Accepts s.parameters args kwargs ↔
      s.allSet args kwargs = true ∧ ¬ KwCollides s.parameters args.length (keys kwargs) := by
  constructor
  · intro h
    exact ⟨C06_accepts_implies_allSet s hs args kwargs hnd h,
      accepts_not_collides ((constructiblePlain_iff s).1 hs).2 hnd h⟩
  · rintro ⟨h, hc⟩
    exact (C06_allSet_iff_accepts_partial s hs args kwargs hnd hc).1 h

/-- **C06**, all calls of overloaded signatures. -/
theorem C06_overloaded_iff (s : Sig) (hs : Constructible s) (args : List Obj) (kwargs : Kwargs)
    (hnd : (keys kwargs).Nodup) :
    AcceptsSig s args kwargs ↔ ∃ o ∈ flattenSignature s, o.allSet args kwargs = true ∧
      ¬ KwCollides o.parameters args.length (keys kwargs) := by
  rw [acceptsSig_members]
  refine exists_congr fun o => and_congr_right fun ho => C06_accepts_iff o ?_ args kwargs hnd
  cases s with
  | plain p => rw [List.mem_singleton.1 ho]; exact hs
  | overloaded ss => exact hs.1 o ho

/-- **C08** for Python: a call can be completed to one that Python accepts exactly if it is expected and no
keyword repeats the name of a parameter filled positionally. -/
theorem C08_completable_iff (s : PlainSig) (hs : ConstructiblePlain s) (args : List Obj)
    (kwargs : Kwargs) (hnd : (keys kwargs).Nodup) :
    (∃ (more : List Obj) (moreKw : Kwargs), (keys (kwargs ++ moreKw)).Nodup ∧
      Accepts s.parameters (args ++ more) (kwargs ++ moreKw)) ↔
      s.expects args kwargs = true ∧ ¬ KwCollides s.parameters args.length (keys kwargs) := by
  constructor
  · rintro ⟨more, moreKw, hn, h⟩
    obtain ⟨h1, h2⟩ := (C06_accepts_iff s hs _ _ hn).1 h
    refine ⟨(C08_expects_iff_completable s hs args kwargs hnd).2 ⟨more, moreKw, hn, h1⟩, fun hc => h2 ?_⟩
    refine kwCollides_mono (by simp) (fun x hx => ?_) hc
    rw [keys_append]
    exact List.mem_append.2 (.inl hx)
  · rintro ⟨h, hc⟩
    obtain ⟨more, moreKw, hn, h1, h2⟩ := expects_completion s hs args kwargs hnd h
    exact ⟨more, moreKw, hn, (C06_accepts_iff s hs _ _ hn).2 ⟨h1, fun h => hc (h2 h)⟩⟩

/-- **C09**, all calls: Python accepts the combined call exactly if it accepts the later one for what was
bound, and no later keyword repeats the name of a parameter filled before. -/
theorem C09_combined_iff (s t : PlainSig) (hs : ConstructiblePlain s) (a : List Obj) (k : Kwargs)
    (hk : (keys k).Nodup) (hb : s.bind a k = .ok t) (r : List Obj) (rk : Kwargs) (hrk : (keys rk).Nodup) :
    Accepts s.parameters (a ++ r) (merge k rk) ↔
      Accepts t.parameters r rk ∧ ¬ KwCollides s.parameters a.length (keys rk) := by
  constructor
  · intro h
    have hc : ¬ KwCollides s.parameters a.length (keys rk) := by
      intro hc
      refine accepts_not_collides ((constructiblePlain_iff s).1 hs).2 (keys_merge_nodup k rk hk hrk) h ?_
      exact kwCollides_mono (by simp) (fun x hx => (keys_merge k rk x).2 (.inr hx)) hc
    exact ⟨(C09_bind_partial_application_partial s t hs a k hk hb r rk hrk hc).2 h, hc⟩
  · rintro ⟨h, hc⟩
    exact (C09_bind_partial_application_partial s t hs a k hk hb r rk hrk hc).1 h

/-- **C10**, all calls: binding at once gives a signature exactly if binding in two steps gives it and no
keyword repeats the name of a parameter filled positionally. -/
theorem C10_at_once_iff (s : PlainSig) (hs : ConstructiblePlain s) (a r : List Obj) (k rk : Kwargs)
    (hnd : (keys (k ++ rk)).Nodup) (u : PlainSig) :
    s.bind (a ++ r) (k ++ rk) = .ok u ↔
      (∃ t, s.bind a k = .ok t ∧ t.bind r rk = .ok u) ∧
      ¬ Collides s.parameters (a.length + r.length) (keys (k ++ rk)) := by
  constructor
  · intro h
    have hc := ((C05_bind_iff s hs _ _).1 ⟨u, h⟩).2
    rw [List.length_append] at hc
    exact ⟨(C10_bind_twice_partial s hs a r k rk hnd hc u).2 h, hc⟩
  · rintro ⟨h, hc⟩
    exact (C10_bind_twice_partial s hs a r k rk hnd hc u).1 h

/-- **C16**, all calls: binding an overloaded signature succeeds exactly if some overload expects the
arguments, and those that do can be bound. -/
theorem C16_bind_iff (ss : List PlainSig) (hs : Constructible (.overloaded ss)) (args : List Obj)
    (kwargs : Kwargs) :
    (∃ t, (Sig.overloaded ss).bind args kwargs = .ok t) ↔
      (∃ s ∈ ss, s.expects args kwargs = true) ∧
      ∀ s ∈ ss, s.expects args kwargs = true → ¬ Collides s.parameters args.length (keys kwargs) := by
  rw [overloaded_bind_isOk]
  refine and_congr_right fun _ => forall_congr' fun s => forall_congr' fun h => forall_congr' fun he => ?_
  rw [C05_bind_iff s (hs.1 s h), he]
  simp

/-- **C18**, all calls: what the overloaded signature accepts as a whole, the bound one accepts for the
rest. -/
theorem C18_complete (s t : Sig) (hs : Constructible s) (a : List Obj) (k : Kwargs)
    (hk : (keys k).Nodup) (hb : s.bind a k = .ok t) (r : List Obj) (rk : Kwargs) (hrk : (keys rk).Nodup)
    (h : AcceptsSig s (a ++ r) (merge k rk)) : AcceptsSig t r rk := by
  cases s with
  | plain s =>
    cases hb' : s.bind a k with
    | error e => simp [Sig.bind, hb'] at hb
    | ok u =>
      simp only [Sig.bind, hb', Except.ok.injEq] at hb
      subst hb
      exact ((C09_combined_iff s u hs a k hk hb' r rk hrk).1 h).1
  | overloaded ss =>
    obtain ⟨ts, hts, hcol⟩ := C16_result ss a k t hb
    rw [acceptsSig_members] at h ⊢
    rw [collapse_flatten hcol]
    obtain ⟨o, ho, hacc⟩ := h
    have hexp : o.expects a k = true :=
      C13_expects_downward_plain o _ _ _ _ (List.prefix_append a r)
        (fun x hx => (keys_merge k rk x).2 (.inl hx))
        (C07_allSet_implies_expects_plain o _ _
          (C06_accepts_implies_allSet o (hs.1 o ho) _ _ (keys_merge_nodup k rk hk hrk) hacc))
    have : o.bind a k ∈ ts.map Except.ok := by
      rw [← hts]; exact List.mem_map.2 ⟨o, List.mem_filter.2 ⟨ho, hexp⟩, rfl⟩
    obtain ⟨u, hu, hou⟩ := List.mem_map.1 this
    exact ⟨u, hu, ((C09_combined_iff o u (hs.1 o ho) a k hk hou.symm r rk hrk).1 hacc).1⟩

/-- **C18**, all calls: the combined call is accepted exactly if an overload that can be bound accepts the
later one, and no later keyword repeats the name of a parameter filled before. -/
theorem C18_combined_iff (ss : List PlainSig) (hs : Constructible (.overloaded ss)) (a : List Obj)
    (k : Kwargs) (hk : (keys k).Nodup) (t : Sig) (hb : (Sig.overloaded ss).bind a k = .ok t)
    (r : List Obj) (rk : Kwargs) (hrk : (keys rk).Nodup) :
    AcceptsSig (.overloaded ss) (a ++ r) (merge k rk) ↔
      ∃ o ∈ ss, ¬ KwCollides o.parameters a.length (keys rk) ∧
        ∃ u ∈ flattenSignature t, o.bind a k = .ok u ∧ Accepts u.parameters r rk := by
  obtain ⟨ts, hts, hcol⟩ := C16_result ss a k t hb
  rw [acceptsSig_members, collapse_flatten hcol]
  constructor
  · rintro ⟨o, ho, hacc⟩
    have hexp : o.expects a k = true :=
      C13_expects_downward_plain o _ _ _ _ (List.prefix_append a r)
        (fun x hx => (keys_merge k rk x).2 (.inl hx))
        (C07_allSet_implies_expects_plain o _ _
          (C06_accepts_implies_allSet o (hs.1 o ho) _ _ (keys_merge_nodup k rk hk hrk) hacc))
    have : o.bind a k ∈ ts.map Except.ok := by
      rw [← hts]; exact List.mem_map.2 ⟨o, List.mem_filter.2 ⟨ho, hexp⟩, rfl⟩
    obtain ⟨u, hu, hou⟩ := List.mem_map.1 this
    obtain ⟨h1, h2⟩ := (C09_combined_iff o u (hs.1 o ho) a k hk hou.symm r rk hrk).1 hacc
    exact ⟨o, ho, h2, u, hu, hou.symm, h1⟩
  · rintro ⟨o, ho, hc, u, -, hou, hacc⟩
    exact ⟨o, ho, (C09_combined_iff o u (hs.1 o ho) a k hk hou r rk hrk).2 ⟨hacc, hc⟩⟩

/-! Both sides of the equivalences occur: `g(a, **kw)` and the calls `(1, b=2)` and `(1, a=2)`. -/

example : Accepts sigG.parameters [one] [("b", two)] ∧ sigG.allSet [one] [("a", two)] = true ∧
    KwCollides sigG.parameters 1 ["a"] ∧ ¬ Accepts sigG.parameters [one] [("a", two)] :=
  ⟨⟨_, rfl⟩, by decide, ⟨⟨pKw, by simp [sigG], rfl⟩, pA, .head _, rfl, by decide⟩, by
    rintro ⟨f, hf⟩
    have he : PyCall.call sigG.parameters [one] [("a", two)] = .error (.multipleValues "a") := rfl
    rw [he] at hf; cases hf⟩

example : ∃ t, sigG.bind [one] [] = .ok t ∧ Accepts t.parameters [] [("b", two)] ∧
    Accepts t.parameters [] [("a", two)] := ⟨_, rfl, ⟨_, rfl⟩, ⟨_, rfl⟩⟩

example : ∃ t, ovl2.bind [one] [] = .ok t ∧ AcceptsSig ovl2 ([one] ++ [two]) (merge [] [("z", one)]) :=
  ⟨_, rfl, ⟨sigXYK, by simp, ⟨_, rfl⟩⟩⟩

end Paradigm.Props
