import Verif.Spec.Pipeline
import Verif.Lemmas.AsRead
import Verif.Lemmas.Found
import Verif.Props.Callables

/-! From the call of a callable to the call of a definition. -/

namespace Paradigm

open Spec PyCall Props

/-- No parameter can be given both by position and by keyword. -/
def Unmixed (s : Sig) : Prop :=
  ∀ o ∈ flattenSignature s, ∀ p ∈ o.parameters, p.kind ≠ .positionalOrKeyword

theorem Unmixed.kwCollides {s : Sig} (h : Unmixed s) {o : PlainSig} (ho : o ∈ flattenSignature s)
    (n : Nat) (names : List String) : ¬ KwCollides o.parameters n names := by
  rintro ⟨_, p, hp, hk, _⟩
  have hm := List.mem_filter.1 ((List.take_subset _ _) hp)
  have hk' := h o ho p hm.1
  have hpos := hm.2
  revert hk hk' hpos
  cases hkk : p.kind <;> simp [acceptsKeyword, isPositional, hkk]

theorem rebind_unmixed {k : Kwargs} {p : Param} (h : p.kind ≠ .positionalOrKeyword) :
    (rebind k p).kind ≠ .positionalOrKeyword := by
  unfold rebind
  split
  · split
    · split <;> simp [Param.kind]
    · simp [Param.kind]
  · exact h

theorem unmixed_plain_bind {s t : PlainSig} (hs : ConstructiblePlain s)
    (h : ∀ p ∈ s.parameters, p.kind ≠ .positionalOrKeyword) {a : List Obj} {k : Kwargs}
    (hb : s.bind a k = .ok t) : ∀ p ∈ t.parameters, p.kind ≠ .positionalOrKeyword := by
  obtain ⟨hv, hw⟩ := (constructiblePlain_iff s).1 hs
  obtain ⟨_, _, _, rfl⟩ := (bind_eq s hv hw a k t).1 hb
  intro p hp
  rcases mem_applyKw hp with hp | ⟨q, hq, _, rfl⟩
  · exact h p (remaining_subset hp)
  · exact rebind_unmixed (h q (remaining_subset hq))

theorem Unmixed.bind {s t : Sig} (h : Unmixed s) (hs : Constructible s) {a : List Obj} {k : Kwargs}
    (hb : s.bind a k = .ok t) : Unmixed t := by
  cases s with
  | plain s =>
    cases hb' : s.bind a k with
    | error e => simp [Sig.bind, hb'] at hb
    | ok u =>
      simp only [Sig.bind, hb', Except.ok.injEq] at hb
      subst hb
      intro o ho
      simp only [flattenSignature, List.mem_singleton] at ho
      subst ho
      exact unmixed_plain_bind hs (h s (by simp [flattenSignature])) hb'
  | overloaded ss =>
    obtain ⟨ts, hts, hcol⟩ := C16_result ss a k t hb
    intro o ho
    rw [collapse_flatten hcol] at ho
    have : Except.ok o ∈ (ss.filter (·.expects a k)).map (·.bind a k) := by
      rw [hts]; exact List.mem_map.2 ⟨o, ho, rfl⟩
    obtain ⟨u, hu, huo⟩ := List.mem_map.1 this
    have hu' := (List.mem_filter.1 hu).1
    exact unmixed_plain_bind (hs.1 u hu') (h u (by simpa [flattenSignature] using hu')) huo

theorem Unmixed.bound {s t : Sig} (h : Unmixed s) (hs : Constructible s) {a : List Obj} {k : Kwargs}
    (hk : (keys k).Nodup) (hb : s.bind a k = .ok t) (r : List Obj) (rk : Kwargs)
    (hrk : (keys rk).Nodup) : AcceptsSig t r rk ↔ AcceptsSig s (a ++ r) (merge k rk) :=
  C18_overloaded_partial_application_partial s t hs a k hk hb r rk hrk
    fun _ ho => h.kwCollides ho _ _

theorem Unmixed.allSet {s : Sig} (h : Unmixed s) (hs : Constructible s) (args : List Obj)
    (kwargs : Kwargs) (hnd : (keys kwargs).Nodup) :
    s.allSet args kwargs = true ↔ AcceptsSig s args kwargs := by
  cases s with
  | plain s =>
    exact C06_allSet_iff_accepts_partial s hs args kwargs hnd
      (h.kwCollides (by simp [flattenSignature]) _ _)
  | overloaded ss =>
    exact C06_overloaded_partial ss hs args kwargs hnd fun o ho =>
      h.kwCollides (by simpa [flattenSignature] using ho) _ _

theorem Spec.MadeOf.flatten {ss : List PlainSig} {s : Sig} (h : MadeOf ss s) :
    flattenSignature s = ss := by
  obtain ⟨hne, h1, h2⟩ := h
  match ss with
  | [] => exact absurd rfl hne
  | [p] => rw [h1 p rfl]; rfl
  | a :: b :: l => rw [h2 (by simp)]; rfl

theorem fromFunctionDef_unmixed {R : Runtime} {d : FunctionDef} {c : Fn} {m parent : Path}
    {s : PlainSig} (h : fromFunctionDef R d c m parent = .ok (.plain s)) :
    ∀ p ∈ s.parameters, p.kind ≠ .positionalOrKeyword := by
  obtain ⟨s', role, he, _, _, hpt⟩ := fromFunctionDef_asRead h
  cases he
  intro p hp
  obtain ⟨x, hx, hxp⟩ := hpt.exists_left hp
  rw [hxp.kind]
  exact roleFormals_unmixed x hx

theorem givenBy_unmixed {R : Runtime} {c : Fn} {q : QPath} {fs : List FunctionDef} {s : Sig}
    (h : GivenBy R c q fs s) : Unmixed s := by
  obtain ⟨ss, hpt, hm⟩ := h
  intro o ho
  rw [hm.flatten] at ho
  obtain ⟨_, _, hdo⟩ := hpt.exists_left ho
  exact fromFunctionDef_unmixed hdo

theorem fromPaths_found {R : Runtime} (hd : R.depth ≠ 0) {c : Fn} {q : QPath}
    {others : List QPath} {fs : List FunctionDef} (h : DefinedBy R.stubs q fs) (hne : fs ≠ [])
    (hno : ∀ f ∈ fs, fromFunctionDef R f c q.1 q.2.dropLast ≠ .error .signatureNotFound) :
    fromPaths R c (q :: others) ≠ .error .signatureNotFound := by
  obtain ⟨m, object⟩ := q
  rw [fromPaths, loadAstNodes_definedBy h hne]
  simp only []
  cases hm : mapExcept (fun node => fromStatement R R.depth node c m object.dropLast)
      (fs.map .functionDef) with
  | ok sigs =>
    simp only []
    rw [fromSignatures_eq]
    cases collapse (members sigs) <;> simp
  | error e =>
    obtain ⟨f, hf, he⟩ := functionDefs_error hd hm
    have hno' : e ≠ .signatureNotFound := by rintro rfl; exact hno f hf he
    cases e <;> first | exact absurd rfl hno' | (intro h; cases h)

theorem orElse_found {r f : Except PyErr Sig} (h : r ≠ .error .signatureNotFound) :
    orElse r f = r := by
  unfold orElse
  split
  · exact absurd rfl h
  · rfl

/-- The definitions at the place looked at give the signature, if any. -/
theorem fromFn_given {R : Runtime} (hd : R.depth ≠ 0) {f : Fn} {q : QPath} {fs : List FunctionDef}
    (hq : LooksAt R false f q) (h : DefinedBy R.stubs q fs) (hne : fs ≠ [])
    (hno : ∀ d ∈ fs, fromFunctionDef R d f q.1 q.2.dropLast ≠ .error .signatureNotFound) :
    fromFn R f ≠ .error .signatureNotFound ∧ ∀ s, fromFn R f = .ok s ↔ GivenBy R f q fs s := by
  obtain ⟨others, hq⟩ := hq
  have hfn : fromFn R f = fromPaths R f (q :: others) := by rw [fromFn, hq]; rfl
  rw [hfn]
  exact ⟨fromPaths_found hd h hne hno, fun s => fromPaths_definedBy hd h hne hno⟩

theorem fromFn_found {R : Runtime} (hd : R.depth ≠ 0) {f : Fn} {q : QPath} {fs : List FunctionDef}
    (hq : LooksAt R false f q) (h : DefinedBy R.stubs q fs) (hne : fs ≠ [])
    (hev : ∀ m p x, R.ev m p x ≠ .error .signatureNotFound) :
    fromFn R f ≠ .error .signatureNotFound ∧ ∀ s, fromFn R f = .ok s ↔ GivenBy R f q fs s :=
  fromFn_given hd hq h hne fun _ _ => fromFunctionDef_found (hev _ _)

theorem fromClass_given {R : Runtime} (hd : R.depth ≠ 0) {l : Labels} {q : QPath}
    {fs : List FunctionDef} (hq : LooksAt R true (.ofClass l) q) (h : DefinedBy R.stubs q fs) (hne : fs ≠ [])
    (hno : ∀ d ∈ fs, fromFunctionDef R d (.ofClass l) q.1 q.2.dropLast ≠ .error .signatureNotFound)
    {raw : Except PyErr RawSig} {s : Sig} :
    fromCallable R (.cls l raw) = .ok s ↔ GivenBy R (.ofClass l) q fs s := by
  obtain ⟨paths, builders, hp, hb, ha⟩ := hq
  rw [fromCallable]
  generalize Fn.ofClass l = f at hp hno ⊢
  have hpe : paths.isEmpty = false := by
    cases paths with
    | nil => exact absurd hb.nil_left (List.ne_nil_of_mem ha.1)
    | cons q paths => rfl
  -- the class handler does not come to the fallback
  have he : fromClass R f = fromPaths R f [q] := by
    unfold fromClass
    rw [hp]
    show (if paths.isEmpty then _ else _) = _
    rw [hpe, if_neg (by simp), resolveBuilder_agreed hb ha]
    show (loadAstNodes R q.1 q.2 >>= _) = _
    obtain ⟨m, object⟩ := q
    rw [fromPaths, loadAstNodes_definedBy h hne]
    show (mapExcept (fun node => fromStatement R R.depth node f m object.dropLast)
      (fs.map .functionDef) >>= _) = _
    dsimp only
    cases hm : mapExcept (fun node => fromStatement R R.depth node f m object.dropLast)
        (fs.map .functionDef) with
    | ok sigs => rfl
    | error e =>
      obtain ⟨d, hd', he⟩ := functionDefs_error hd hm
      have hno' : e ≠ .signatureNotFound := by rintro rfl; exact hno d hd' he
      cases e <;> first | exact absurd rfl hno' | rfl
  rw [he, orElse_found (fromPaths_found hd h hne hno)]
  exact fromPaths_definedBy hd h hne hno

theorem fromClass_found {R : Runtime} (hd : R.depth ≠ 0) {l : Labels} {q : QPath}
    {fs : List FunctionDef} (hq : LooksAt R true (.ofClass l) q) (h : DefinedBy R.stubs q fs) (hne : fs ≠ [])
    (hev : ∀ m p x, R.ev m p x ≠ .error .signatureNotFound) {raw : Except PyErr RawSig} {s : Sig} :
    fromCallable R (.cls l raw) = .ok s ↔ GivenBy R (.ofClass l) q fs s :=
  fromClass_given hd hq h hne fun _ _ => fromFunctionDef_found (hev _ _)

theorem Spec.CallsOn.readsOn {c : Callable} {args : List Obj} {kwargs : Kwargs} {asClass : Bool} {f : Fn}
    {A : List Obj} {K : Kwargs} (h : CallsOn c args kwargs asClass f A K) :
    ReadsOn c args kwargs asClass f A K := by
  induction h with
  | function l raw => exact .alone _ _ raw _ _ (.function l raw)
  | descriptor l raw => exact .alone _ _ raw _ _ (.descriptor l raw)
  | builtin qualname obj raw => exact .alone _ _ raw _ _ (.builtin qualname obj raw)
  | moduleBuiltin name spec qualname obj raw =>
    exact .alone _ _ raw _ _ (.moduleBuiltin name spec qualname obj raw)
  | cls l raw => exact .cls l raw _ _
  | method obj self g raw => exact .bound _ _ _ _ _ (.method obj self g raw)
  | instanceBuiltin qualname obj self g raw => exact .bound _ _ _ _ _ (.builtin qualname obj self g raw)
  | methodWrapper self g raw => exact .bound _ _ _ _ _ (.methodWrapper self g raw)
  | partial_ func a k args kwargs asClass f A K hk _ ih => exact .partial_ _ _ _ _ _ _ _ _ _ hk ih

/-- The signature of a callable accepts what the definitions of the function that is run accept, as
far as their own signatures go. -/
theorem runs_accepts {R : Runtime} (hd : R.depth ≠ 0)
    (hev : ∀ m p x, R.ev m p x ≠ .error .signatureNotFound) {c : Callable} {args : List Obj}
    {kwargs : Kwargs} {asClass : Bool} {f : Fn} {A : List Obj} {K : Kwargs}
    (hr : ReadsOn c args kwargs asClass f A K) {q : QPath} {fs : List FunctionDef}
    (hq : LooksAt R asClass f q) (h : DefinedBy R.stubs q fs) (hne : fs ≠ [])
    (hnd : (keys kwargs).Nodup) {s : Sig} (hs : fromCallable R c = .ok s) :
    (keys K).Nodup ∧ Unmixed s ∧
      ∃ base, GivenBy R f q fs base ∧ (AcceptsSig s args kwargs ↔ AcceptsSig base A K) := by
  have plainly : ∀ (f : Fn) raw s args kwargs, LooksAt R false f q →
      orElse (fromFn R f) (fromInspect raw) = .ok s → Unmixed s ∧ ∃ base, GivenBy R f q fs base ∧
        (AcceptsSig s args kwargs ↔ AcceptsSig base args kwargs) := by
    intro f raw s args kwargs hq hs
    obtain ⟨h1, h2⟩ := fromFn_found hd hq h hne hev
    rw [orElse_found h1, h2] at hs
    exact ⟨givenBy_unmixed hs, s, hs, Iff.rfl⟩
  have bound : ∀ (g : Fn) self raw s args kwargs, (keys kwargs).Nodup → LooksAt R false g q →
      orElse (fromInstance R self (.ok g)) (fromInspect raw) = .ok s →
      Unmixed s ∧ ∃ base, GivenBy R g q fs base ∧
        (AcceptsSig s args kwargs ↔ AcceptsSig base (self :: args) kwargs) := by
    intro g self raw s args kwargs hnd hq hs
    obtain ⟨h1, h2⟩ := fromFn_found hd hq h hne hev
    have hi : fromInstance R self (.ok g) = (fromFn R g >>= fun t => t.bind [self] []) := rfl
    cases hu : fromFn R g with
    | error e =>
      rw [hu] at h1 hi
      have hi : fromInstance R self (.ok g) = .error e := hi
      rw [hi, orElse_found (by simpa using h1)] at hs
      cases hs
    | ok u =>
      rw [hu] at hi
      have hi : fromInstance R self (.ok g) = u.bind [self] [] := hi
      have hc := fromFn_constructible hu
      have hb : u.bind [self] [] = .ok s := by
        rw [hi] at hs
        rcases C03_overloaded_bind_legal u hc [self] [] with ⟨t, ht, _⟩ | ⟨tag, ht⟩
        · rw [ht] at hs ⊢; exact hs
        · rw [ht] at hs; cases hs
      have hg := (h2 u).1 hu
      have hm := givenBy_unmixed hg
      refine ⟨hm.bind hc hb, u, hg, ?_⟩
      have := hm.bound hc (k := []) (by simp [keys]) hb args kwargs hnd
      rwa [merge_disjoint (k := []) (by simpa using hnd)] at this
  induction hr generalizing s with
  | alone c f raw args kwargs hl =>
    rw [hl.fromCallable R] at hs
    exact ⟨hnd, plainly f raw s args kwargs hq hs⟩
  | bound c self g args kwargs hb =>
    refine ⟨hnd, ?_⟩
    cases hb with
    | method _ _ _ raw => exact bound g self raw s args kwargs hnd hq hs
    | builtin _ _ _ _ raw => exact bound g self raw s args kwargs hnd hq hs
    | methodWrapper _ _ raw => exact bound g self raw s args kwargs hnd hq hs
  | cls l raw args kwargs =>
    have := (fromClass_found hd hq h hne hev).1 hs
    exact ⟨hnd, givenBy_unmixed this, s, this, Iff.rfl⟩
  | partial_ func a k args kwargs asClass f A K hk hr ih =>
    simp only [fromCallable, except_bind_ok] at hs
    obtain ⟨t, ht, hb⟩ := hs
    obtain ⟨h1, h2, base, h3, h4⟩ := ih hq (keys_merge_nodup k kwargs hk hnd) ht
    have hc := fromCallable_constructible R func t ht
    exact ⟨h1, h2.bind hc hb, base, h3, (h2.bound hc hk hb args kwargs hnd).trans h4⟩

end Paradigm
