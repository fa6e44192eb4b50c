import Verif.Props.Readable
import Verif.Props.Exact

/-!
# C112: exactly which partial objects of declared callables get a signature
-/

namespace Paradigm.Props

open Spec PyCall

theorem formalsAccept_iff {fs : List Formal} {ps : List Param} (hpt : Pointwise Declares fs ps)
    (hw : WellFormed ps) {args : List Obj} {kwargs : Kwargs} (hnd : (keys kwargs).Nodup) :
    Accepts ps args kwargs ↔ FormalsAccept fs args kwargs := by
  constructor
  · exact fun g => ⟨_, hpt, g⟩
  · rintro ⟨qs, hqs, g⟩
    have both : Pointwise (fun p q : Param => p.name = q.name ∧ p.kind = q.kind ∧
        p.isOptional = q.isOptional) ps qs := by
      clear g hw
      induction fs generalizing ps qs with
      | nil => cases hpt.nil_left; cases hqs.nil_left; trivial
      | cons f fs ih =>
        obtain ⟨q, qs, rfl, h1, h2⟩ := hpt.cons_left
        obtain ⟨p, ps, rfl, h3, h4⟩ := hqs.cons_left
        refine ⟨⟨by rw [h1.name, h3.name], by rw [h1.kind, h3.kind], ?_⟩, ih h2 _ h4⟩
        rw [Bool.eq_iff_iff, h1.optional, h3.optional]
    exact (accepts_congr hw (wellFormed_congr both hw) (both.imp fun p _ q _ g =>
      ⟨g.1, g.2.1, by have := g.2.2; cases p <;> cases q <;> simp_all [Param.isRequired, Param.isOptional]⟩)
      hnd).2 g

theorem declares_filter : ∀ {fs : List Formal} {ps : List Param}, Pointwise Declares fs ps →
    Pointwise Declares (fs.filter fun f => f.kind = .positionalOnly ∨ f.kind = .positionalOrKeyword)
      (ps.filter isPositional)
  | [], ps, h => by cases h.nil_left; trivial
  | f :: fs, ps, h => by
    obtain ⟨p, ps, rfl, h1, h2⟩ := h.cons_left
    have ih := declares_filter h2
    have : isPositional p = decide (f.kind = .positionalOnly ∨ f.kind = .positionalOrKeyword) := by
      unfold isPositional
      rw [h1.kind]
      cases f.kind <;> rfl
    rw [List.filter_cons, List.filter_cons, this]
    split
    · exact ⟨h1, ih⟩
    · exact ih

theorem pointwise_take {α β : Type} {r : α → β → Prop} : ∀ {as : List α} {bs : List β} (n : Nat),
    Pointwise r as bs → Pointwise r (as.take n) (bs.take n)
  | as, bs, 0, _ => by simp [Pointwise]
  | [], bs, n + 1, h => by cases h.nil_left; trivial
  | a :: as, bs, n + 1, h => by
    obtain ⟨b, bs, rfl, h1, h2⟩ := h.cons_left
    exact ⟨h1, pointwise_take n h2⟩

theorem formalsCollide_iff {fs : List Formal} {ps : List Param} (hpt : Pointwise Declares fs ps) (n : Nat)
    (names : List String) : Collides ps n names ↔ FormalsCollide fs n names := by
  have hf := pointwise_take n (declares_filter hpt)
  unfold Collides FormalsCollide HasVarKeyword filledBy
  constructor
  · rintro ⟨⟨p, hp, hk⟩, p', hp', hn⟩
    obtain ⟨f, hf1, hf2⟩ := hpt.exists_left hp
    obtain ⟨f', hf3, hf4⟩ := hf.exists_left hp'
    exact ⟨⟨f, hf1, hf2.kind ▸ hk⟩, f', hf3, hf4.name ▸ hn⟩
  · rintro ⟨⟨f, hf1, hk⟩, f', hf3, hn⟩
    obtain ⟨p, hp, h1⟩ := hpt.exists_right hf1
    obtain ⟨p', hp', h2⟩ := hf.exists_right hf3
    exact ⟨⟨p, hp, h1.kind.trans hk⟩, p', hp', h2.name.symm ▸ hn⟩

/-- No parameter can be given both by position and by keyword. -/
def Separate (fs : List Formal) : Prop := ∀ f ∈ fs, f.kind ≠ .positionalOrKeyword

theorem readFormals_separate (a : Arguments) : Separate (readFormals a) := by
  intro f hf
  obtain ⟨g, hg, rfl⟩ := List.mem_map.1 hf
  split
  · simp
  · assumption

theorem roleFormals_separate {fs : List Formal} (h : Separate fs) (role : Role) :
    Separate (roleFormals role fs) := by
  cases role with
  | function => exact h
  | constructor => exact fun f hf => h f (List.mem_of_mem_tail hf)
  | method =>
    cases fs with
    | nil => exact h
    | cons f fs =>
      intro g hg
      rcases List.mem_cons.1 hg with rfl | hg
      · simp
      · exact h g (List.mem_cons_of_mem _ hg)
  | classMethod =>
    cases fs with
    | nil => exact h
    | cons f fs =>
      intro g hg
      rcases List.mem_cons.1 hg with rfl | hg
      · simp
      · exact h g (List.mem_cons_of_mem _ hg)

/-- As read, a call can be completed exactly if it is expected. -/
theorem formalsComplete_iff {fs : List Formal} {s : PlainSig} (hpt : Pointwise Declares fs s.parameters)
    (hsep : Separate fs) (hs : ConstructiblePlain s) {args : List Obj} {kwargs : Kwargs}
    (hnd : (keys kwargs).Nodup) : s.expects args kwargs = true ↔ FormalsComplete fs args kwargs := by
  have hno : ¬ KwCollides s.parameters args.length (keys kwargs) := by
    rintro ⟨-, p, hp, hk, -⟩
    obtain ⟨f, hf, hd⟩ := hpt.exists_left (List.mem_filter.1 (List.mem_of_mem_take hp)).1
    refine hsep f hf ?_
    have h1 := (List.mem_filter.1 (List.mem_of_mem_take hp)).2
    rw [← hd.kind]
    unfold isPositional at h1
    unfold acceptsKeyword at hk
    revert h1 hk
    cases p.kind <;> simp
  have := C08_completable_iff s hs args kwargs hnd
  constructor
  · intro h
    obtain ⟨more, moreKw, hn, ha⟩ := this.2 ⟨h, hno⟩
    exact ⟨more, moreKw, hn, (formalsAccept_iff hpt ((constructiblePlain_iff s).1 hs).2 hn).1 ha⟩
  · rintro ⟨more, moreKw, hn, ha⟩
    exact (this.1 ⟨more, moreKw, hn, (formalsAccept_iff hpt ((constructiblePlain_iff s).1 hs).2 hn).2 ha⟩).1

theorem bind_formals {fs : List FunctionDef} {ss : List PlainSig} {s : Sig} (hm : MadeOf ss s)
    (hs : Constructible s) {rest : FunctionDef → Role → List Formal} {has : FunctionDef → Role → Prop}
    (hpt : Pointwise (fun d p => ∃ r, has d r ∧ Pointwise Declares (rest d r) p.parameters) fs ss)
    (hone : ∀ d r r', has d r → has d r' → r = r') (hsep : ∀ d r, Separate (rest d r)) (a : List Obj)
    (k : Kwargs) (hk : (keys k).Nodup) :
    (∃ t, s.bind a k = .ok t) ↔
      (∃ d ∈ fs, ∃ r, has d r ∧ FormalsComplete (rest d r) a k) ∧
      ∀ d ∈ fs, ∀ r, has d r → FormalsComplete (rest d r) a k →
        ¬ FormalsCollide (rest d r) a.length (keys k) := by
  have hall : ∀ p ∈ ss, ConstructiblePlain p := by
    intro p hp
    rw [← hm.flatten] at hp
    cases s with
    | plain p' => rw [List.mem_singleton.1 hp]; exact hs
    | overloaded ps => exact hs.1 p hp
  have key : (∃ t, s.bind a k = .ok t) ↔ (∃ p ∈ ss, p.expects a k = true) ∧
      ∀ p ∈ ss, p.expects a k = true → ¬ Collides p.parameters a.length (keys k) := by
    rw [← hm.flatten]
    cases s with
    | plain p =>
      have := C05_bind_iff p hs a k
      simp only [flattenSignature, List.mem_singleton, exists_eq_left, forall_eq]
      constructor
      · rintro ⟨t, ht⟩
        cases hb : p.bind a k with
        | error e => rw [Sig.bind, hb] at ht; cases ht
        | ok u => exact ⟨(this.1 ⟨u, hb⟩).1, fun _ => (this.1 ⟨u, hb⟩).2⟩
      · rintro ⟨h1, h2⟩
        obtain ⟨u, hu⟩ := this.2 ⟨h1, h2 h1⟩
        exact ⟨.plain u, by rw [Sig.bind, hu]⟩
    | overloaded ps => exact C16_bind_iff ps hs a k
  rw [key]
  refine and_congr ⟨?_, ?_⟩ ⟨?_, ?_⟩
  · rintro ⟨p, hp, he⟩
    obtain ⟨d, hd, r, hr, hpr⟩ := hpt.exists_left hp
    exact ⟨d, hd, r, hr, (formalsComplete_iff hpr (hsep d r) (hall p hp) hk).1 he⟩
  · rintro ⟨d, hd, r, hr, hc⟩
    obtain ⟨p, hp, r', hr', hpr⟩ := hpt.exists_right hd
    cases hone d r r' hr hr'
    exact ⟨p, hp, (formalsComplete_iff hpr (hsep d r) (hall p hp) hk).2 hc⟩
  · intro h d hd r hr hc
    obtain ⟨p, hp, r', hr', hpr⟩ := hpt.exists_right hd
    cases hone d r r' hr hr'
    rw [← formalsCollide_iff hpr]
    exact h p hp ((formalsComplete_iff hpr (hsep d r) (hall p hp) hk).2 hc)
  · intro h p hp he
    obtain ⟨d, hd, r, hr, hpr⟩ := hpt.exists_left hp
    rw [formalsCollide_iff hpr]
    exact h d hd r hr ((formalsComplete_iff hpr (hsep d r) (hall p hp) hk).1 he)

section

variable (R : Runtime) (f : Fn) (q : QPath) (fs : List FunctionDef) (hd : R.depth ≠ 0)
  (hev : ∀ m p x, R.ev m p x ≠ .error .signatureNotFound) (hdef : DefinedBy R.stubs q fs) (hne : fs ≠ [])
  (hfs : ∀ d ∈ fs, Parsed d.args) (a : List Obj) (k : Kwargs) (hk : (keys k).Nodup)

include hd hev hdef hne hfs hk

/-- **C112**, callables looked up by their own names: if the stubs define one, then a partial object of it gets
a signature exactly if all definitions can be read, the arguments can be completed to a call that one of
them, as it is read, accepts, and in no such definition a keyword goes to `**kwargs` that has the name of a
parameter filled by position. -/
theorem C112_callable (hq : LooksAt R false f q) (c : Callable) (raw : Except PyErr RawSig)
    (hc : LookedUpAs c f raw) :
    (∃ t, fromCallable R (.partial_ c a k) = .ok t) ↔
      (∀ d ∈ fs, Readable R d f q.1 q.2.dropLast) ∧
      (∃ d ∈ fs, ∃ role, HasRole R d f q.1 q.2.dropLast role ∧
        FormalsComplete (roleFormals role (readFormals d.args)) a k) ∧
      ∀ d ∈ fs, ∀ role, HasRole R d f q.1 q.2.dropLast role →
        FormalsComplete (roleFormals role (readFormals d.args)) a k →
        ¬ FormalsCollide (roleFormals role (readFormals d.args)) a.length (keys k) := by
  obtain ⟨h1, h2⟩ := fromFn_found hd hq hdef hne hev
  rw [← C110_callable R f q fs hd hev hdef hne hfs hq c raw hc]
  have he : fromCallable R (.partial_ c a k) = (fromCallable R c >>= fun s => s.bind a k) := rfl
  rw [he]
  cases hs : fromCallable R c with
  | error e => exact ⟨fun ⟨t, ht⟩ => (nomatch ht), fun ⟨⟨t, ht⟩, _⟩ => (nomatch ht)⟩
  | ok s =>
    have hs' := hs
    rw [hc.fromCallable R, orElse_found h1] at hs'
    obtain ⟨ss, hpt, hm⟩ := (h2 s).1 hs'
    have := bind_formals (has := fun d => HasRole R d f q.1 q.2.dropLast)
      (rest := fun d role => roleFormals role (readFormals d.args)) hm (fromCallable_constructible R c s hs)
      (hpt.imp fun d _ p _ hp => by
        obtain ⟨_, role, hx, _, hr, hps⟩ := fromFunctionDef_asRead hp
        cases hx
        exact ⟨role, hr, hps⟩)
      (fun d r r' h h' => hasRole_unique h h') (fun d r => roleFormals_separate (readFormals_separate _) r) a k hk
    exact this.trans ⟨fun h => ⟨⟨s, rfl⟩, h⟩, fun h => h.2⟩

/-- **C112**, classes. -/
theorem C112_class (l : Labels) (hl : f = .ofClass l) (hq : LooksAt R true f q) (raw : Except PyErr RawSig) :
    (∃ t, fromCallable R (.partial_ (.cls l raw) a k) = .ok t) ↔
      (∀ d ∈ fs, Readable R d f q.1 q.2.dropLast) ∧
      (∃ d ∈ fs, FormalsComplete (readFormals d.args).tail a k) ∧
      ∀ d ∈ fs, FormalsComplete (readFormals d.args).tail a k →
        ¬ FormalsCollide (readFormals d.args).tail a.length (keys k) := by
  rw [← C110_class R f q fs hd hev hdef hne hfs l hl hq raw]
  have he : fromCallable R (.partial_ (.cls l raw) a k) =
      (fromCallable R (.cls l raw) >>= fun s => s.bind a k) := rfl
  rw [he]
  subst hl
  cases hs : fromCallable R (.cls l raw) with
  | error e => exact ⟨fun ⟨t, ht⟩ => (nomatch ht), fun ⟨⟨t, ht⟩, _⟩ => (nomatch ht)⟩
  | ok s =>
    obtain ⟨ss, hpt, hm⟩ := (fromClass_found hd hq hdef hne hev).1 hs
    have := bind_formals (has := fun d role => role = .constructor)
      (rest := fun d _ => (readFormals d.args).tail) hm (fromCallable_constructible R _ s hs)
      (hpt.imp fun d _ p _ hp => by
        obtain ⟨_, role, hx, _, hr, hps⟩ := fromFunctionDef_asRead hp
        cases hx
        cases hasRole_unique hr (show HasRole R d (.ofClass l) _ _ .constructor from rfl)
        exact ⟨_, rfl, hps⟩)
      (fun d r r' h h' => h.trans h'.symm)
      (fun d r => roleFormals_separate (readFormals_separate d.args) .constructor) a k hk
    refine this.trans ⟨fun h => ⟨⟨s, rfl⟩, ?_, fun d hd => h.2 d hd _ rfl⟩, fun h => ⟨?_, fun d hd _ _ => h.2.2 d hd⟩⟩
    · obtain ⟨d, hd, _, _, hc⟩ := h.1
      exact ⟨d, hd, hc⟩
    · obtain ⟨d, hd, hc⟩ := h.2.1
      exact ⟨d, hd, _, rfl, hc⟩

/-- **C112**, methods of instances: the first parameter is filled. -/
theorem C112_bound (hq : LooksAt R false f q) (c : Callable) (self : Obj) (hc : InstanceBound c self f)
    (hrole : ∀ d ∈ fs, ¬ HasRole R d f q.1 q.2.dropLast .function) (hinst : f.isType = false) :
    (∃ t, fromCallable R (.partial_ c a k) = .ok t) ↔
      (∀ d ∈ fs, Readable R d f q.1 q.2.dropLast) ∧
      (∃ d ∈ fs, FormalsComplete (readFormals d.args).tail a k) ∧
      ∀ d ∈ fs, FormalsComplete (readFormals d.args).tail a k →
        ¬ FormalsCollide (readFormals d.args).tail a.length (keys k) := by
  have hex := C110_bound R f q fs hd hev hdef hne hfs hq c self hc hrole hinst
  obtain ⟨h1, h2⟩ := fromFn_found hd hq hdef hne hev
  have he : fromCallable R (.partial_ c a k) = (fromCallable R c >>= fun s => s.bind a k) := rfl
  have hor : ∃ raw, fromCallable R c = orElse (fromInstance R self (.ok f)) (fromInspect raw) := by
    cases hc with
    | method _ _ _ raw => exact ⟨raw, rfl⟩
    | builtin _ _ _ _ raw => exact ⟨raw, rfl⟩
    | methodWrapper _ _ raw => exact ⟨raw, rfl⟩
  obtain ⟨raw, hor⟩ := hor
  have hi : fromInstance R self (.ok f) = (fromFn R f >>= fun t => t.bind [self] []) := rfl
  rw [← hex, he]
  cases hs : fromCallable R c with
  | error e => exact ⟨fun ⟨t, ht⟩ => (nomatch ht), fun ⟨⟨t, ht⟩, _⟩ => (nomatch ht)⟩
  | ok s =>
    have hs' := hs
    rw [hor, hi] at hs'
    have hread := hex.1 ⟨s, hs⟩
    cases hu : fromFn R f with
    | error e =>
      rw [hu] at h1 hs'
      have : orElse (.error e) (fromInspect raw) = .error e := orElse_found h1
      have hs'' : orElse (.error e) (fromInspect raw) = .ok s := hs'
      rw [this] at hs''
      cases hs''
    | ok u =>
      obtain ⟨ss, hpt, hm⟩ := (h2 u).1 hu
      obtain ⟨ss', s', hpt', hm', hb⟩ := bind_firsts
        (P := fun d p => ConstructiblePlain p ∧ ∃ x xs, readFormals d.args = x :: xs ∧ p.parameters ≠ [] ∧
          (∀ y ys, p.parameters = y :: ys → y.kind = .positionalOnly) ∧ Pointwise Declares xs p.parameters.tail)
        (fun d p ⟨hcp, x, xs, _, hne', hfirst, _⟩ => ⟨hcp, by
          cases hp : p.parameters with
          | nil => exact absurd hp hne'
          | cons y ys => exact ⟨y, ys, rfl, hfirst y ys hp⟩⟩)
        (hpt.imp fun d hdm p _ hp => by
          refine ⟨fromFunctionDef_constructible hp, ?_⟩
          obtain ⟨_, role, hx, _, hr, hps⟩ := fromFunctionDef_asRead hp
          cases hx
          have hne' : readFormals d.args ≠ [] := (hread d hdm).first role hr fun e => hrole d hdm (e ▸ hr)
          cases hf : readFormals d.args with
          | nil => exact absurd hf hne'
          | cons x xs =>
            rw [hf] at hps
            have : Pointwise Declares ({ x with default := none, kind := .positionalOnly } :: xs) p.parameters := by
              cases role with
              | function => exact absurd hr (hrole d hdm)
              | constructor => rw [show f.isType = true from hr] at hinst; cases hinst
              | method => exact hps
              | classMethod => exact hps
            obtain ⟨p1, ps, h3, h4, h5⟩ := this.cons_left
            rw [h3]
            refine ⟨x, xs, rfl, by simp, ?_, h5⟩
            intro y ys hy
            cases hy
            exact h4.kind) hm self
      have hse : s = s' := by
        rw [hu] at hs'
        have hs'' : orElse (u.bind [self] []) (fromInspect raw) = .ok s := hs'
        rw [hb] at hs''
        cases hs''
        rfl
      subst hse
      have := bind_formals (has := fun d role => role = .method)
        (rest := fun d _ => (readFormals d.args).tail) hm' (fromCallable_constructible R _ s hs)
        (hpt'.imp fun d _ p _ ⟨first, hp⟩ => by
          obtain ⟨_, x, xs, hf, _, _, h5⟩ := hp
          refine ⟨_, rfl, ?_⟩
          rw [hf]
          exact h5)
        (fun d r r' h h' => h.trans h'.symm)
        (fun d r => roleFormals_separate (readFormals_separate d.args) .constructor) a k hk
      refine this.trans ⟨fun h => ⟨⟨s, rfl⟩, ?_, fun d hd => h.2 d hd _ rfl⟩,
        fun h => ⟨?_, fun d hd _ _ => h.2.2 d hd⟩⟩
      · obtain ⟨d, hd, _, _, hc⟩ := h.1
        exact ⟨d, hd, hc⟩
      · obtain ⟨d, hd, hc⟩ := h.2.1
        exact ⟨d, hd, _, rfl, hc⟩

end

/-! ### Samples -/

theorem home_partial (raw : Except PyErr RawSig) (a : List Obj) (k : Kwargs) (hk : (keys k).Nodup) :
    (∃ t, fromCallable homeRuntime (.partial_ (.function labF raw) a k) = .ok t) ↔
      (∀ d ∈ [defF], Readable homeRuntime d fnF ["m"] []) ∧
      (∃ d ∈ [defF], ∃ role, HasRole homeRuntime d fnF ["m"] [] role ∧
        FormalsComplete (roleFormals role (readFormals d.args)) a k) ∧
      ∀ d ∈ [defF], ∀ role, HasRole homeRuntime d fnF ["m"] [] role →
        FormalsComplete (roleFormals role (readFormals d.args)) a k →
        ¬ FormalsCollide (roleFormals role (readFormals d.args)) a.length (keys k) :=
  C112_callable homeRuntime fnF (["m"], ["f"]) [defF] (by decide) (fun _ _ => evalSample_found)
    ⟨_, rfl, rfl⟩ (by simp) (by simp only [List.mem_singleton, forall_eq]; exact defF_parsed) a k hk
    ⟨[], rfl⟩ (.function labF raw) raw (.function labF raw)

/-- `functools.partial(f, 1)` gets a signature, so that `f(1)` can be completed. -/
example : (∃ t, fromCallable homeRuntime (.partial_ (.function labF (.error .keyError)) [one] []) = .ok t) ∧
    ∃ role, FormalsComplete (roleFormals role (readFormals defF.args)) [one] [] := by
  have h : ∃ t, fromCallable homeRuntime (.partial_ (.function labF (.error .keyError)) [one] []) = .ok t :=
    ⟨_, rfl⟩
  obtain ⟨-, ⟨d, hd, role, -, hc⟩, -⟩ := (home_partial (.error .keyError) [one] [] (by decide)).1 h
  cases List.mem_singleton.1 hd
  exact ⟨h, role, hc⟩

/-- `functools.partial(f, 1, a=2)` does not. -/
example (raw : Except PyErr RawSig) :
    ¬ ∃ t, fromCallable homeRuntime (.partial_ (.function labF raw) [one] [("a", two)]) = .ok t := by
  intro h
  obtain ⟨-, ⟨d, hd, role, hr, hc⟩, hno⟩ := (home_partial raw [one] [("a", two)] (by decide)).1 h
  refine hno d hd role hr hc ?_
  cases List.mem_singleton.1 hd
  cases hasRole_unique hr (show HasRole homeRuntime defF fnF ["m"] [] .function from
    ⟨rfl, by simp [defF], fun ⟨kinds, h1, h2⟩ => by cases h1; cases h2⟩)
  refine ⟨⟨_, List.mem_of_getElem? (i := 5) rfl, rfl⟩, _, List.mem_of_getElem? (i := 0) rfl, ?_⟩
  decide

/-- A class, and a method of an instance. -/
example (raw : Except PyErr RawSig) :
    (∃ t, fromCallable homeRuntime (.partial_ (.cls labC raw) [one] []) = .ok t) ∧
      FormalsComplete (readFormals defInit.args).tail [one] [] := by
  have h : ∃ t, fromCallable homeRuntime (.partial_ (.cls labC raw) [one] []) = .ok t := ⟨_, rfl⟩
  obtain ⟨-, ⟨d, hd, hc⟩, -⟩ :=
    (C112_class homeRuntime clsC (["m"], ["C", "__init__"]) [defInit] (by decide) (fun _ _ => evalSample_found)
      ⟨_, rfl, rfl⟩ (by simp)
      (by simp only [List.mem_singleton, forall_eq]; exact ⟨by decide, by decide, by decide⟩) [one] [] (by decide)
      labC rfl ⟨[(["m"], ["C"])], [(["m"], ["C", "__init__"])], rfl, ⟨rfl, trivial⟩, List.mem_singleton.2 rfl,
        fun b hb => .inl (List.mem_singleton.1 hb)⟩ raw).1 h
  cases List.mem_singleton.1 hd
  exact ⟨h, hc⟩

example (raw : Except PyErr RawSig) :
    (∃ t, fromCallable instanceRuntime (.partial_ (.method two (some (one, .ok boundF)) raw) [two] []) = .ok t) ∧
      FormalsComplete (readFormals defX.args).tail [two] [] := by
  have h : ∃ t, fromCallable instanceRuntime (.partial_ (.method two (some (one, .ok boundF)) raw) [two] []) =
    .ok t := ⟨_, rfl⟩
  obtain ⟨-, ⟨d, hd, hc⟩, -⟩ :=
    (C112_bound instanceRuntime boundF (["m"], ["C", "f"]) [defX] (by decide) (fun _ _ => evalSample_found)
      ⟨_, rfl, rfl⟩ (by simp)
      (by simp only [List.mem_singleton, forall_eq]; exact ⟨by decide, by decide, by decide⟩) [two] [] (by decide)
      ⟨[], rfl⟩ _ one (.method _ _ _ _)
      (by
        simp only [List.mem_singleton, forall_eq]
        exact fun h => h.2.2 ⟨_, rfl, rfl⟩) rfl).1 h
  cases List.mem_singleton.1 hd
  exact ⟨h, hc⟩

end Paradigm.Props
