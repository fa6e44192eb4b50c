import Verif.Lemmas.Readable
import Verif.Lemmas.Written
import Verif.Props.AsRead

/-!
# C110: exactly which declared callables get a signature
-/

namespace Paradigm.Props

open Spec PyCall

/-- **C110**, definitions: one that Python's parser accepts is converted exactly if no parameter before `/`
has a default, the annotations and defaults it needs can be evaluated, its decorators and its module are
known as far as they matter, and there is a first parameter where one is needed. -/
theorem C110_definition (R : Runtime) (d : FunctionDef) (c : Fn) (m parent : Path) (ha : Parsed d.args) :
    (∃ s, fromFunctionDef R d c m parent = .ok s) ↔ Readable R d c m parent :=
  readable_iff ha

theorem givenBy_some {R : Runtime} {f : Fn} {q : QPath} {fs : List FunctionDef} (hne : fs ≠ [])
    (hfs : ∀ d ∈ fs, Parsed d.args) :
    (∃ s, GivenBy R f q fs s) ↔ ∀ d ∈ fs, Readable R d f q.1 q.2.dropLast := by
  constructor
  · rintro ⟨s, ss, hpt, _⟩ d hd
    obtain ⟨p, _, hp⟩ := hpt.exists_right hd
    exact (readable_iff (hfs d hd)).1 ⟨_, hp⟩
  · intro h
    obtain ⟨ss, hss⟩ := mapExcept_total (f := fun d => fromFunctionDef R d f q.1 q.2.dropLast) (as := fs)
      fun d hd => (readable_iff (hfs d hd)).2 (h d hd)
    have hpt := mapExcept_pointwise.1 hss
    have plain : ∃ ps : List PlainSig, Pointwise (fun d p => fromFunctionDef R d f q.1 q.2.dropLast =
        .ok (.plain p)) fs ps := by
      clear hss hne h hfs
      induction fs generalizing ss with
      | nil => exact ⟨[], trivial⟩
      | cons d fs ih =>
        obtain ⟨s, ss, rfl, h1, h2⟩ := hpt.cons_left
        obtain ⟨ps, hps⟩ := ih _ h2
        obtain ⟨p, _, rfl, _⟩ := fromFunctionDef_asRead h1
        exact ⟨p :: ps, h1, hps⟩
    obtain ⟨ps, hps⟩ := plain
    obtain ⟨s, hs⟩ := madeOf_some (ss := ps) (by
      rintro rfl
      exact hne (List.length_eq_zero_iff.1 hps.length))
    exact ⟨s, ps, hps, hs⟩

section

variable (R : Runtime) (f : Fn) (q : QPath) (fs : List FunctionDef) (hd : R.depth ≠ 0)
  (hev : ∀ m p x, R.ev m p x ≠ .error .signatureNotFound) (hdef : DefinedBy R.stubs q fs) (hne : fs ≠ [])
  (hfs : ∀ d ∈ fs, Parsed d.args)

include hd hev hdef hne hfs

/-- **C110**, callables looked up by their own names: if the stubs define one then it gets a signature
exactly if all of the definitions can be read; what `inspect` reports does not matter. -/
theorem C110_callable (hq : LooksAt R false f q) (c : Callable) (raw : Except PyErr RawSig)
    (hc : LookedUpAs c f raw) :
    (∃ s, fromCallable R c = .ok s) ↔ ∀ d ∈ fs, Readable R d f q.1 q.2.dropLast := by
  obtain ⟨h1, h2⟩ := fromFn_found hd hq hdef hne hev
  rw [hc.fromCallable R, orElse_found h1, ← givenBy_some hne hfs]
  exact exists_congr h2

/-- **C110**, classes. -/
theorem C110_class (l : Labels) (hl : f = .ofClass l) (hq : LooksAt R true f q) (raw : Except PyErr RawSig) :
    (∃ s, fromCallable R (.cls l raw) = .ok s) ↔ ∀ d ∈ fs, Readable R d f q.1 q.2.dropLast := by
  subst hl
  rw [← givenBy_some hne hfs]
  exact exists_congr fun s => fromClass_found hd hq hdef hne hev

/-- **C110**, methods of instances. -/
theorem C110_bound (hq : LooksAt R false f q) (c : Callable) (self : Obj) (hc : InstanceBound c self f)
    (hrole : ∀ d ∈ fs, ¬ HasRole R d f q.1 q.2.dropLast .function) (hinst : f.isType = false) :
    (∃ s, fromCallable R c = .ok s) ↔ ∀ d ∈ fs, Readable R d f q.1 q.2.dropLast := by
  obtain ⟨h1, h2⟩ := fromFn_found hd hq hdef hne hev
  have hi : fromInstance R self (.ok f) = (fromFn R f >>= fun t => t.bind [self] []) := rfl
  have hor : ∃ raw, fromCallable R c = orElse (fromInstance R self (.ok f)) (fromInspect raw) := by
    cases hc with
    | method _ _ _ raw => exact ⟨raw, rfl⟩
    | builtin _ _ _ _ raw => exact ⟨raw, rfl⟩
    | methodWrapper _ _ raw => exact ⟨raw, rfl⟩
  obtain ⟨raw, hor⟩ := hor
  rw [hor, hi, ← givenBy_some hne hfs]
  cases hu : fromFn R f with
  | error e =>
    rw [hu] at h1 h2
    show (∃ s, orElse (.error e) (fromInspect raw) = .ok s) ↔ _
    rw [orElse_found h1]
    exact exists_congr fun s => h2 s
  | ok u =>
    have hg := (h2 u).1 hu
    refine ⟨fun _ => ⟨u, hg⟩, fun _ => ?_⟩
    obtain ⟨ss, hpt, hm⟩ := hg
    obtain ⟨_, s', _, _, hb⟩ := bind_firsts
      (P := fun d p => d ∈ fs ∧ fromFunctionDef R d f q.1 q.2.dropLast = .ok (.plain p))
      (fun d p ⟨hdm, hp⟩ => by
        refine ⟨fromFunctionDef_constructible hp, ?_⟩
        obtain ⟨_, role, he, _, hr, hps⟩ := fromFunctionDef_asRead hp
        cases he
        have hne' : readFormals d.args ≠ [] :=
          ((readable_iff (hfs d hdm)).1 ⟨_, hp⟩).first role hr fun e => hrole d hdm (e ▸ hr)
        cases hf : readFormals d.args with
        | nil => exact absurd hf hne'
        | cons x xs =>
          rw [hf] at hps
          cases role with
          | function => exact absurd hr (hrole d hdm)
          | constructor => rw [show f.isType = true from hr] at hinst; cases hinst
          | method =>
            obtain ⟨p1, ps, h3, h4, _⟩ := hps.cons_left
            exact ⟨p1, ps, h3, h4.kind⟩
          | classMethod =>
            obtain ⟨p1, ps, h3, h4, _⟩ := hps.cons_left
            exact ⟨p1, ps, h3, h4.kind⟩)
      (hpt.imp fun d hdm p _ hp => ⟨hdm, hp⟩) hm self
    show ∃ s, orElse (u.bind [self] []) (fromInspect raw) = .ok s
    rw [hb]
    exact ⟨s', rfl⟩

end

/-! ### Samples -/

/-- `def f(a: int, b: int = 1, ...)` can be read, as a function and as a constructor. -/
example : Readable runtimeSample defF fnF ["m"] [] ∧ Readable runtimeSample defF clsC ["m"] [] :=
  ⟨(C110_definition runtimeSample defF fnF ["m"] [] defF_parsed).1 ⟨_, rfl⟩,
    (C110_definition runtimeSample defF clsC ["m"] [] defF_parsed).1 ⟨_, rfl⟩⟩

/-- `def f(a=1, /)` cannot, and a static method without parameters cannot. -/
example : ¬ Readable runtimeSample
      { name := "f", args := { posonlyargs := [⟨"a", none⟩], defaults := [.constant (.int 1)] } } fnF ["m"] [] ∧
    ¬ Readable runtimeSample { name := "f", args := {}, decorators := [.name "staticmethod" true] } fnF
      ["m"] ["C"] := by
  constructor
  · intro h
    have := h.defaults
    simp at this
  · intro h
    refine h.first .method ⟨rfl, fun d hd => ?_, ⟨_, rfl, rfl⟩⟩ (by simp) rfl
    cases List.mem_singleton.1 hd
    rintro ⟨path, h1, h2⟩
    cases h1
    have : runtimeSample.resolve ["m"] ["C"] ["staticmethod"] = .ok (["builtins"], ["staticmethod"]) := rfl
    rw [this] at h2
    simp at h2

/-- `def f(a, /)` can be read, so that `f` gets a signature. -/
example (raw : Except PyErr RawSig) :
    (∃ s, fromCallable slashedRuntime (.function labF raw) = .ok s) ∧
      Readable slashedRuntime { name := "f", args := { posonlyargs := [intArg "a"] } } fnF ["m"] [] := by
  have h := C110_callable slashedRuntime fnF (["m"], ["f"])
    [{ name := "f", args := { posonlyargs := [intArg "a"] } }] (by decide) (fun _ _ => evalSample_found)
    ⟨_, rfl, rfl⟩ (by simp)
    (by simp only [List.mem_singleton, forall_eq]; exact ⟨by decide, by decide, by decide⟩)
    ⟨[], rfl⟩ (.function labF raw) raw (.function labF raw)
  have h' : ∃ s, fromCallable slashedRuntime (.function labF raw) = .ok s := ⟨_, rfl⟩
  exact ⟨h', h.1 h' _ (List.mem_singleton.2 rfl)⟩

/-- The class `C` of `homeRuntime`. -/
example (raw : Except PyErr RawSig) :
    (∃ s, fromCallable homeRuntime (.cls labC raw) = .ok s) ↔
      ∀ d ∈ [defInit], Readable homeRuntime d clsC ["m"] ["C"] :=
  C110_class homeRuntime clsC (["m"], ["C", "__init__"]) [defInit] (by decide) (fun _ _ => evalSample_found)
    ⟨_, rfl, rfl⟩ (by simp)
    (by simp only [List.mem_singleton, forall_eq]; exact ⟨by decide, by decide, by decide⟩)
    labC rfl ⟨[(["m"], ["C"])], [(["m"], ["C", "__init__"])], rfl, ⟨rfl, trivial⟩, List.mem_singleton.2 rfl,
      fun b hb => .inl (List.mem_singleton.1 hb)⟩ raw

/-- A method of an instance. -/
example (raw : Except PyErr RawSig) :
    (∃ s, fromCallable instanceRuntime (.method two (some (one, .ok boundF)) raw) = .ok s) ↔
      ∀ d ∈ [defX], Readable instanceRuntime d boundF ["m"] ["C"] :=
  C110_bound instanceRuntime boundF (["m"], ["C", "f"]) [defX] (by decide) (fun _ _ => evalSample_found)
    ⟨_, rfl, rfl⟩ (by simp)
    (by simp only [List.mem_singleton, forall_eq]; exact ⟨by decide, by decide, by decide⟩)
    ⟨[], rfl⟩ _ one (.method _ _ _ _)
    (by
      simp only [List.mem_singleton, forall_eq]
      exact fun h => h.2.2 ⟨_, rfl, rfl⟩) rfl

end Paradigm.Props
