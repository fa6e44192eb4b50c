import Verif.Props.Binding

/-!
# C04 (overloaded), C13 (overloaded `bind`), C16–C18
-/

namespace Paradigm.Props

open Spec PyCall

/-- Sample overloads `[g(a, **kw), i2(x, a)]`. -/
def pX : Param := .required int_ .positionalOrKeyword "x"
def sigXA : PlainSig := ⟨[pX, pA], int_⟩
def pY : Param := .required int_ .positionalOrKeyword "y"
/-- `(x, y, **kw)` -/
def sigXYK : PlainSig := ⟨[pX, pY, pKw], int_⟩

theorem sigXA_ok : ConstructiblePlain sigXA := by
  refine ⟨?_, rfl⟩
  intro p hp
  rw [validParam_iff]
  simp only [sigXA, List.mem_cons, List.not_mem_nil, or_false] at hp
  rcases hp with rfl | rfl <;> simp [ValidParam, pA, pX]

theorem sigXYK_ok : ConstructiblePlain sigXYK := by
  refine ⟨?_, rfl⟩
  intro p hp
  rw [validParam_iff]
  simp only [sigXYK, List.mem_cons, List.not_mem_nil, or_false] at hp
  rcases hp with rfl | rfl | rfl <;> simp [ValidParam, pX, pY, pKw]

def ovl : Sig := .overloaded [sigG, sigXA]
def ovl2 : Sig := .overloaded [sigG, sigXYK]

theorem ovl_ok : Constructible ovl := by
  refine ⟨?_, ⟨ovl, rfl⟩⟩
  intro s hs
  simp only [List.mem_cons, List.not_mem_nil, or_false] at hs
  rcases hs with rfl | rfl
  · exact sigG_ok
  · exact sigXA_ok

theorem ovl2_ok : Constructible ovl2 := by
  refine ⟨?_, ⟨ovl2, rfl⟩⟩
  intro s hs
  simp only [List.mem_cons, List.not_mem_nil, or_false] at hs
  rcases hs with rfl | rfl
  · exact sigG_ok
  · exact sigXYK_ok

theorem two_le_of_constructible {ss : List PlainSig} (h : Constructible (.overloaded ss)) :
    2 ≤ ss.length := by
  obtain ⟨_, t, ht⟩ := h
  rw [overloaded_new_plain] at ht
  split at ht
  · simp at ht
  · omega

/-! ### C04 -/

/-- **C04.** Binding nothing is the identity. -/
theorem C04_bind_nothing (s : Sig) (hs : Constructible s) : s.bind [] [] = .ok s := by
  cases s with
  | plain s => simp [Sig.bind, C04_bind_nothing_plain s hs]
  | overloaded ss =>
    have h2 := two_le_of_constructible hs
    have hf : ss.filter (fun s => s.expects [] []) = ss := by
      rw [List.filter_eq_self]
      intro s hs'
      obtain ⟨_, hw⟩ := (constructiblePlain_iff s).1 (hs.1 s hs')
      rw [expects_iff s hw.ordered]
      exact ⟨.inr (by simp), .inr (by simp [keys])⟩
    have hm : mapExcept (fun s : PlainSig => s.bind [] []) ss = .ok ss := by
      have := mapExcept_ok (fun s : PlainSig => s.bind [] []) id ss
        (fun s h => C04_bind_nothing_plain s (hs.1 s h))
      simpa using this
    simp only [Sig.bind, hf, hm, fromSignatures_plain]
    match ss, h2 with
    | a :: b :: l, _ => rfl

example : Constructible ovl := ovl_ok

/-! ### C13, overloaded `bind` -/

/-- **C13** for `bind`, full statement. -/
def C13_bind_statement : Prop :=
  ∀ (s : Sig), Constructible s → ∀ (args args' : List Obj) (kwargs kwargs' : Kwargs),
    args' <+: args → (∀ k ∈ keys kwargs', k ∈ keys kwargs) →
    (∃ t, s.bind args kwargs = .ok t) → ∃ t, s.bind args' kwargs' = .ok t

/-- **C13** for `bind` of overloaded signatures is violated by the code:
`[g(a, **kw), (x, y, **kw)]` can bind `(1, 2, a=1)` but not `(1, a=1)`. -/
theorem C13_overloaded_bind_refuted : ¬ C13_bind_statement := by
  intro h
  obtain ⟨t, ht⟩ := h ovl2 ovl2_ok [one, two] [one] [("a", one)] [("a", one)] ⟨[two], rfl⟩
    (fun _ h => h) ⟨_, rfl⟩
  have he : ovl2.bind [one] [("a", one)] = .error (.typeError "multiple values") := rfl
  rw [he] at ht; cases ht

/-- **C13** for `bind`, what holds: all plain signatures; overloaded ones when the smaller argument
list collides with no overload. -/
theorem C13_bind_downward_partial (s : Sig) (hs : Constructible s)
    (args args' : List Obj) (kwargs kwargs' : Kwargs)
    (ha : args' <+: args) (hk : ∀ k ∈ keys kwargs', k ∈ keys kwargs)
    (hc : ∀ ss, s = .overloaded ss → ∀ o ∈ ss,
      ¬ Collides o.parameters args'.length (keys kwargs'))
    (h : ∃ t, s.bind args kwargs = .ok t) : ∃ t, s.bind args' kwargs' = .ok t := by
  cases s with
  | plain s =>
    obtain ⟨t, ht⟩ := h
    cases hb : s.bind args kwargs with
    | error e => simp [Sig.bind, hb] at ht
    | ok u =>
      obtain ⟨u', hu'⟩ := C13_bind_downward_plain s hs args args' kwargs kwargs' ha hk ⟨u, hb⟩
      exact ⟨.plain u', by simp [Sig.bind, hu']⟩
  | overloaded ss =>
    rw [overloaded_bind_isOk] at h ⊢
    obtain ⟨⟨s, hs', he⟩, _⟩ := h
    refine ⟨⟨s, hs', C13_expects_downward_plain s _ _ _ _ ha hk he⟩, fun o ho heo => ?_⟩
    exact (C05_expects_iff_bind_partial o (hs.1 o ho) args' kwargs' (hc ss rfl o ho)).1 heo

example : ∃ t, ovl2.bind [one, two] [("z", one)] = .ok t := ⟨_, rfl⟩

/-! ### C16 -/

/-- The overloaded result the documentation promises for a list of bound overloads. -/
def collapse : List PlainSig → Option Sig
  | [] => none
  | [s] => some (.plain s)
  | ss => some (.overloaded ss)

/-- **C16**, full statement. -/
def C16_statement : Prop :=
  ∀ (ss : List PlainSig), Constructible (.overloaded ss) → ∀ (args : List Obj) (kwargs : Kwargs),
    (keys kwargs).Nodup →
    ((∃ tag, (Sig.overloaded ss).bind args kwargs = .error (.typeError tag)) ↔
      ∀ s ∈ ss, s.expects args kwargs = false) ∧
    ∀ t, (Sig.overloaded ss).bind args kwargs = .ok t →
      ∃ ts : List PlainSig, (ss.filter (·.expects args kwargs)).map (·.bind args kwargs)
        = ts.map .ok ∧ collapse ts = some t

/-- **C16** is violated by the code: `[g(a, **kw), (x, a)]` raises on `(1, a=2)` although the second
overload accepts the call. -/
theorem C16_refuted : ¬ C16_statement := by
  intro h
  have h1 := (h [sigG, sigXA] ovl_ok [one] [("a", two)] (by simp [keys])).1.1 ⟨_, rfl⟩
  have : sigXA.expects [one] [("a", two)] = false := h1 sigXA (by simp)
  revert this; decide

theorem mapExcept_eq_map {α β : Type} (f : α → Except PyErr β) (l : List α) (r : List β)
    (h : mapExcept f l = .ok r) : l.map f = r.map .ok := by
  induction l generalizing r with
  | nil => simp [mapExcept] at h; simp [← h]
  | cons a l ih =>
    rw [mapExcept] at h
    cases hf : f a with
    | error e => rw [hf] at h; simp at h
    | ok y =>
      rw [hf] at h
      cases hm : mapExcept f l with
      | error e => rw [hm] at h; simp at h
      | ok r' =>
        rw [hm] at h; simp only [Except.ok.injEq] at h
        rw [← h, List.map_cons, List.map_cons, ih r' hm, hf]

/-- The result half of C16 needs no exclusion. -/
theorem C16_result (ss : List PlainSig) (args : List Obj) (kwargs : Kwargs) (t : Sig)
    (h : (Sig.overloaded ss).bind args kwargs = .ok t) :
    ∃ ts : List PlainSig, (ss.filter (·.expects args kwargs)).map (·.bind args kwargs)
      = ts.map .ok ∧ collapse ts = some t := by
  rw [Sig.bind] at h
  cases hm : mapExcept (fun s : PlainSig => s.bind args kwargs)
      (ss.filter (fun s => s.expects args kwargs)) with
  | error e => rw [hm] at h; simp at h
  | ok r =>
    rw [hm] at h
    refine ⟨r, mapExcept_eq_map _ _ _ hm, ?_⟩
    simp only [fromSignatures_plain] at h
    match r with
    | [] => simp at h
    | [s] => simp at h; simp [collapse, h]
    | a :: b :: l => simp at h; simp [collapse, h]

theorem overloaded_bind_error (ss : List PlainSig) (hs : ∀ s ∈ ss, ConstructiblePlain s)
    (args : List Obj) (kwargs : Kwargs) (e : PyErr)
    (h : (Sig.overloaded ss).bind args kwargs = .error e) : ∃ tag, e = .typeError tag := by
  rw [Sig.bind] at h
  cases hm : mapExcept (fun s : PlainSig => s.bind args kwargs)
      (ss.filter (fun s => s.expects args kwargs)) with
  | error e' =>
    rw [hm] at h
    simp only [Except.error.injEq] at h
    subst h
    have hs' : ∀ s ∈ ss.filter (fun s => s.expects args kwargs), ConstructiblePlain s :=
      fun s h => hs s (List.mem_filter.1 h).1
    generalize ss.filter (fun s => s.expects args kwargs) = l at hm hs'
    induction l with
    | nil => simp [mapExcept] at hm
    | cons a l ih =>
      rw [mapExcept] at hm
      rcases C03_bind_legal a (hs' a (List.mem_cons_self)) args kwargs with ⟨t, ht, _⟩ | ⟨tag, ht⟩
      · rw [ht] at hm
        cases hm' : mapExcept (fun s : PlainSig => s.bind args kwargs) l with
        | error e'' =>
          rw [hm'] at hm
          simp only [Except.error.injEq] at hm
          subst hm
          exact ih hm' (fun s h => hs' s (List.mem_cons_of_mem _ h))
        | ok r => rw [hm'] at hm; simp at hm
      · rw [ht] at hm
        simp only [Except.error.injEq] at hm
        exact ⟨tag, hm.symm⟩
  | ok r =>
    rw [hm] at h
    simp only [fromSignatures_plain] at h
    match r with
    | [] => simp at h; exact ⟨_, h.symm⟩
    | [s] => simp at h
    | a :: b :: l => simp at h

/-- **C16**, what holds: the whole statement unless, with `**kwargs` present in some overload, a
keyword repeats the name of a parameter filled positionally there. -/
theorem C16_overloaded_bind_partial (ss : List PlainSig) (hs : Constructible (.overloaded ss))
    (args : List Obj) (kwargs : Kwargs)
    (hc : ∀ s ∈ ss, ¬ Collides s.parameters args.length (keys kwargs)) :
    ((∃ tag, (Sig.overloaded ss).bind args kwargs = .error (.typeError tag)) ↔
      ∀ s ∈ ss, s.expects args kwargs = false) ∧
    ∀ t, (Sig.overloaded ss).bind args kwargs = .ok t →
      ∃ ts : List PlainSig, (ss.filter (·.expects args kwargs)).map (·.bind args kwargs)
        = ts.map .ok ∧ collapse ts = some t := by
  refine ⟨?_, fun t h => C16_result ss args kwargs t h⟩
  have hok := overloaded_bind_isOk ss args kwargs
  constructor
  · rintro ⟨tag, h⟩ s hs'
    rw [h] at hok
    simp only [reduceCtorEq, exists_false, false_iff, not_and] at hok
    cases he : s.expects args kwargs with
    | false => rfl
    | true =>
      refine absurd ?_ (hok ⟨s, hs', he⟩)
      intro o ho heo
      exact (C05_expects_iff_bind_partial o (hs.1 o ho) args kwargs (hc o ho)).1 heo
  · intro h
    cases hb : (Sig.overloaded ss).bind args kwargs with
    | error e =>
      obtain ⟨tag, rfl⟩ := overloaded_bind_error ss hs.1 args kwargs e hb
      exact ⟨tag, rfl⟩
    | ok t =>
      rw [hb] at hok
      simp only [Except.ok.injEq, exists_eq', true_iff] at hok
      obtain ⟨⟨s, hs', he⟩, _⟩ := hok
      rw [h s hs'] at he; simp at he

/-- **C03** for overloaded signatures. -/
theorem C03_overloaded_bind_legal (s : Sig) (hs : Constructible s) (args : List Obj)
    (kwargs : Kwargs) :
    (∃ t, s.bind args kwargs = .ok t ∧ Constructible t) ∨
    (∃ tag, s.bind args kwargs = .error (.typeError tag)) := by
  cases s with
  | plain s =>
    rcases C03_bind_legal s hs args kwargs with ⟨t, ht, hc, _⟩ | ⟨tag, ht⟩
    · exact .inl ⟨.plain t, by simp [Sig.bind, ht], hc⟩
    · exact .inr ⟨tag, by simp [Sig.bind, ht]⟩
  | overloaded ss =>
    cases hb : (Sig.overloaded ss).bind args kwargs with
    | error e =>
      obtain ⟨tag, rfl⟩ := overloaded_bind_error ss hs.1 args kwargs e hb
      exact .inr ⟨tag, rfl⟩
    | ok t =>
      refine .inl ⟨t, rfl, ?_⟩
      obtain ⟨ts, hts, hcol⟩ := C16_result ss args kwargs t hb
      have hall : ∀ u ∈ ts, ConstructiblePlain u := by
        intro u hu
        have : Except.ok u ∈ (ss.filter (·.expects args kwargs)).map (·.bind args kwargs) := by
          rw [hts]; exact List.mem_map.2 ⟨u, hu, rfl⟩
        obtain ⟨s, hs', hsu⟩ := List.mem_map.1 this
        rcases C03_bind_legal s (hs.1 s (List.mem_filter.1 hs').1) args kwargs with
          ⟨t', ht', hc, _⟩ | ⟨tag, ht'⟩
        · rw [ht'] at hsu
          cases hsu; exact hc
        · rw [ht'] at hsu; cases hsu
      match ts with
      | [] => simp [collapse] at hcol
      | [u] =>
        simp only [collapse, Option.some.injEq] at hcol
        subst hcol; exact hall u (by simp)
      | a :: b :: l =>
        simp only [collapse, Option.some.injEq] at hcol
        subst hcol
        refine ⟨hall, .overloaded (a :: b :: l), ?_⟩
        rw [overloaded_new_plain]; simp

example : ∃ t, ovl.bind [one] [] = .ok t ∧ t = .overloaded [⟨[pKw], int_⟩, ⟨[pA], int_⟩] :=
  ⟨_, rfl, rfl⟩
example : ∃ t, ovl.bind [one, two] [] = .ok t ∧ t = .plain ⟨[], int_⟩ := ⟨_, rfl, rfl⟩
example : ∀ s ∈ [sigG, sigXA], ¬ Collides s.parameters 1 ["z"] := by
  intro s hs
  simp only [List.mem_cons, List.not_mem_nil, or_false] at hs
  rcases hs with rfl | rfl <;> rintro ⟨_, p, hp, hn⟩
  · simp [filledBy, sigG, List.filter_cons, isPositional, Param.kind, pA, pKw] at hp
    subst hp; simp [Param.name] at hn
  · simp [filledBy, sigXA, List.filter_cons, isPositional, Param.kind, pA, pX] at hp
    subst hp; simp [Param.name] at hn

/-! ### C17 -/

/-- The plain members of a sequence of signatures, in order. -/
def members : List Sig → List PlainSig
  | [] => []
  | .plain s :: l => s :: members l
  | .overloaded ss :: l => ss ++ members l

theorem members_eq (l : List Sig) : (l.map flattenSignature).flatten = members l := by
  induction l with
  | nil => rfl
  | cons s l ih =>
    cases s <;> simp only [List.map_cons, List.flatten_cons, ih, flattenSignature, members,
      List.cons_append, List.nil_append]

theorem fromSignatures_eq (l : List Sig) : fromSignatures l = match collapse (members l) with
    | some s => .ok s
    | none => .error (.valueError "too few signatures") := by
  have h := fromSignatures_plain (members l)
  have : fromSignatures l = fromSignatures ((members l).map Sig.plain) := by
    delta fromSignatures
    dsimp only
    rw [flatten_plain, members_eq]
  rw [this, h]
  match members l with
  | [] => rfl
  | [s] => rfl
  | a :: b :: l => rfl

/-- **C17.** Combining yields the members in order, overloaded iff there are at least two. -/
theorem C17_combine (l : List Sig) :
    (members l = [] → ∃ tag, fromSignatures l = .error (.valueError tag)) ∧
    (∀ s, members l = [s] → fromSignatures l = .ok (.plain s)) ∧
    (2 ≤ (members l).length → fromSignatures l = .ok (.overloaded (members l))) := by
  rw [fromSignatures_eq]
  refine ⟨fun h => ⟨_, by rw [h]; rfl⟩, fun s h => by rw [h]; rfl, fun h => ?_⟩
  match hm : members l with
  | [] => rw [hm] at h; simp at h
  | [s] => rw [hm] at h; simp at h
  | a :: b :: l => rfl

theorem members_append (l r : List Sig) : members (l ++ r) = members l ++ members r := by
  induction l with
  | nil => rfl
  | cons s l ih => cases s <;> simp [members, ih]

theorem members_ne_nil {l : List Sig} (hl : l ≠ []) (h : ∀ s ∈ l, Constructible s) :
    members l ≠ [] := by
  cases l with
  | nil => exact absurd rfl hl
  | cons s l =>
    cases s with
    | plain s => simp [members]
    | overloaded ss =>
      have := two_le_of_constructible (h _ List.mem_cons_self)
      intro h0
      simp only [members, List.append_eq_nil_iff] at h0
      rw [h0.1] at this; simp at this

/-- **C17.** Combining in (non-empty) groups first gives the same result. -/
theorem C17_combine_groups (gs : List (List Sig)) (hne : ∀ g ∈ gs, g ≠ [])
    (hc : ∀ g ∈ gs, ∀ s ∈ g, Constructible s) :
    ∃ rs, gs.map fromSignatures = rs.map .ok ∧ fromSignatures rs = fromSignatures gs.flatten := by
  suffices h : ∃ rs, gs.map fromSignatures = rs.map .ok ∧ members rs = members gs.flatten by
    obtain ⟨rs, h1, h2⟩ := h
    exact ⟨rs, h1, by rw [fromSignatures_eq, fromSignatures_eq, h2]⟩
  induction gs with
  | nil => exact ⟨[], rfl, rfl⟩
  | cons g gs ih =>
    obtain ⟨rs, h1, h2⟩ := ih (fun g h => hne g (List.mem_cons_of_mem _ h))
      (fun g h => hc g (List.mem_cons_of_mem _ h))
    have hg := members_ne_nil (hne g List.mem_cons_self) (hc g List.mem_cons_self)
    obtain ⟨r, hr, hm⟩ : ∃ r, fromSignatures g = .ok r ∧ members [r] = members g := by
      rw [fromSignatures_eq]
      match hmg : members g with
      | [] => exact absurd hmg hg
      | [s] => exact ⟨_, rfl, rfl⟩
      | a :: b :: l => exact ⟨_, rfl, by simp [members]⟩
    refine ⟨r :: rs, by simp [hr, h1], ?_⟩
    have : members (r :: rs) = members [r] ++ members rs := members_append [r] rs
    rw [this, hm, h2, List.flatten_cons, members_append]

example : members [.plain sigF, ovl] = [sigF, sigG, sigXA] := rfl

/-! ### C18 -/

/-- A call is accepted by an overloaded signature when some overload accepts it. -/
def AcceptsSig : Sig → List Obj → Kwargs → Prop
  | .plain s, args, kwargs => Accepts s.parameters args kwargs
  | .overloaded ss, args, kwargs => ∃ s ∈ ss, Accepts s.parameters args kwargs

/-- **C18**, full statement. -/
def C18_statement : Prop :=
  ∀ (s t : Sig), Constructible s → ∀ (a : List Obj) (k : Kwargs), (keys k).Nodup →
    s.bind a k = .ok t → ∀ (r : List Obj) (rk : Kwargs), (keys rk).Nodup →
      (AcceptsSig t r rk ↔ AcceptsSig s (a ++ r) (merge k rk))

/-- **C18** is violated by the code (already for one overload, see C09). -/
theorem C18_refuted : ¬ C18_statement := by
  intro h
  have h1 : AcceptsSig (.overloaded [⟨[pKw], int_⟩, ⟨[pY, pKw], int_⟩]) [] [("a", two)] :=
    ⟨⟨[pKw], int_⟩, by simp, ⟨_, rfl⟩⟩
  have := (h ovl2 _ ovl2_ok [one] [] (by simp [keys]) rfl [] [("a", two)] (by simp [keys])).1 h1
  obtain ⟨s, hs, f, hf⟩ := this
  simp only [List.mem_cons, List.not_mem_nil, or_false] at hs
  rcases hs with rfl | rfl
  · have he : PyCall.call sigG.parameters ([one] ++ []) (merge [] [("a", two)])
      = .error (.multipleValues "a") := rfl
    rw [he] at hf; cases hf
  · have he : PyCall.call sigXYK.parameters ([one] ++ []) (merge [] [("a", two)])
      = .error (.missing "y") := rfl
    rw [he] at hf; cases hf

theorem acceptsSig_members (s : Sig) (args : List Obj) (kwargs : Kwargs) :
    AcceptsSig s args kwargs ↔ ∃ p ∈ flattenSignature s, Accepts p.parameters args kwargs := by
  cases s <;> simp [AcceptsSig, flattenSignature]

theorem collapse_flatten {ts : List PlainSig} {t : Sig} (h : collapse ts = some t) :
    flattenSignature t = ts := by
  match ts with
  | [] => simp [collapse] at h
  | [s] => simp only [collapse, Option.some.injEq] at h; rw [← h]; rfl
  | a :: b :: l => simp only [collapse, Option.some.injEq] at h; rw [← h]; rfl

/-- **C18**, what holds: the statement under the exclusions of C09 (later keywords) and of C05
(overloads that reject the bound arguments must reject the combined call). -/
theorem C18_overloaded_partial_application_partial (s t : Sig) (hs : Constructible s)
    (a : List Obj) (k : Kwargs) (hk : (keys k).Nodup) (hb : s.bind a k = .ok t)
    (r : List Obj) (rk : Kwargs) (hrk : (keys rk).Nodup)
    (hc : ∀ o ∈ flattenSignature s, ¬ KwCollides o.parameters a.length (keys rk)) :
    AcceptsSig t r rk ↔ AcceptsSig s (a ++ r) (merge k rk) := by
  cases s with
  | plain s =>
    cases hb' : s.bind a k with
    | error e => simp [Sig.bind, hb'] at hb
    | ok u =>
      simp only [Sig.bind, hb', Except.ok.injEq] at hb
      subst hb
      exact C09_bind_partial_application_partial s u hs a k hk hb' r rk hrk
        (hc s (by simp [flattenSignature]))
  | overloaded ss =>
    obtain ⟨ts, hts, hcol⟩ := C16_result ss a k t hb
    rw [acceptsSig_members, acceptsSig_members, collapse_flatten hcol]
    simp only [flattenSignature] at hc ⊢
    constructor
    · rintro ⟨u, hu, hacc⟩
      have : Except.ok u ∈ (ss.filter (·.expects a k)).map (·.bind a k) := by
        rw [hts]; exact List.mem_map.2 ⟨u, hu, rfl⟩
      obtain ⟨o, ho, hou⟩ := List.mem_map.1 this
      have ho' := (List.mem_filter.1 ho).1
      exact ⟨o, ho', (C09_bind_partial_application_partial o u (hs.1 o ho') a k hk hou r rk hrk
        (hc o ho')).1 hacc⟩
    · rintro ⟨o, ho, hacc⟩
      -- the overload accepts the combined call, so it expects the bound part
      have hexp : o.expects a k = true :=
        C13_expects_downward_plain o _ _ _ _ (List.prefix_append a r)
          (fun x hx => (keys_merge k rk x).2 (.inl hx))
          (C07_allSet_implies_expects_plain o _ _
            (C06_accepts_implies_allSet o (hs.1 o ho) _ _ (keys_merge_nodup k rk hk hrk) hacc))
      have : o.bind a k ∈ ts.map Except.ok := by
        rw [← hts]; exact List.mem_map.2 ⟨o, List.mem_filter.2 ⟨ho, hexp⟩, rfl⟩
      obtain ⟨u, hu, hou⟩ := List.mem_map.1 this
      exact ⟨u, hu, (C09_bind_partial_application_partial o u (hs.1 o ho) a k hk hou.symm r rk hrk
        (hc o ho)).2 hacc⟩

example : ∃ t, ovl2.bind [one] [] = .ok t ∧ AcceptsSig t [two] [("z", one)] :=
  ⟨.overloaded [⟨[pKw], int_⟩, ⟨[pY, pKw], int_⟩], rfl, ⟨⟨[pY, pKw], int_⟩, by simp, ⟨_, rfl⟩⟩⟩
example : ∀ o ∈ flattenSignature ovl2, ¬ KwCollides o.parameters 1 ["z"] := by
  intro s hs
  simp only [ovl2, flattenSignature, List.mem_cons, List.not_mem_nil, or_false] at hs
  rcases hs with rfl | rfl <;> rintro ⟨_, p, hp, _, hn⟩
  · simp [filledBy, sigG, List.filter_cons, isPositional, Param.kind, pA, pKw] at hp
    subst hp; simp [Param.name] at hn
  · simp [filledBy, sigXYK, List.filter_cons, isPositional, Param.kind, pY, pX, pKw] at hp
    subst hp; simp [Param.name] at hn

/-! ### C06 and C08 for overloaded signatures -/

/-- **C06** for overloaded signatures: `all_set` holds exactly when some overload accepts the call
(missing: the collisions excluded for plain signatures). -/
theorem C06_overloaded_partial (ss : List PlainSig) (hs : Constructible (.overloaded ss))
    (args : List Obj) (kwargs : Kwargs) (hnd : (keys kwargs).Nodup)
    (hc : ∀ s ∈ ss, ¬ KwCollides s.parameters args.length (keys kwargs)) :
    (Sig.overloaded ss).allSet args kwargs = true ↔ AcceptsSig (.overloaded ss) args kwargs := by
  simp only [Sig.allSet, List.any_eq_true, AcceptsSig]
  exact exists_congr fun s => and_congr_right fun h =>
    C06_allSet_iff_accepts_partial s (hs.1 s h) args kwargs hnd (hc s h)

/-- **C08** for overloaded signatures. -/
theorem C08_overloaded (ss : List PlainSig) (hs : Constructible (.overloaded ss))
    (args : List Obj) (kwargs : Kwargs) (hnd : (keys kwargs).Nodup) :
    (Sig.overloaded ss).expects args kwargs = true ↔
      ∃ (more : List Obj) (moreKw : Kwargs), (keys (kwargs ++ moreKw)).Nodup ∧
        (Sig.overloaded ss).allSet (args ++ more) (kwargs ++ moreKw) = true := by
  simp only [Sig.allSet, Sig.expects, List.any_eq_true]
  constructor
  · rintro ⟨s, h, he⟩
    obtain ⟨more, moreKw, h1, h2⟩ :=
      (C08_expects_iff_completable s (hs.1 s h) args kwargs hnd).1 he
    exact ⟨more, moreKw, h1, s, h, h2⟩
  · rintro ⟨more, moreKw, h1, s, h, h2⟩
    exact ⟨s, h, (C08_expects_iff_completable s (hs.1 s h) args kwargs hnd).2 ⟨more, moreKw, h1, h2⟩⟩

example : ovl.expects [one, two] [] = true ∧ ovl.allSet [one, two] [] = true
    ∧ sigG.allSet [one, two] [] = false := by decide

end Paradigm.Props
