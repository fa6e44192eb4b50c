import Verif.Lemmas.Pipeline

/-!
# C29 for every callable, C95 and C96: from the stubs to the calls a signature accepts
-/

namespace Paradigm.Props

open Spec PyCall

/-! ### C29 -/

/-- **C29** for the public function (missing, as above: that the tables hold the definitions of the
stub file in their order): the signature of a function, descriptor, builtin or class consists of
exactly the signatures of the definitions at the place looked at, in their order, whatever `inspect`
says. -/
theorem C29_callables_partial (R : Runtime) (hd : R.depth ≠ 0)
    (hev : ∀ m p x, R.ev m p x ≠ .error .signatureNotFound) (q : QPath)
    (fs : List FunctionDef) (raw : Except PyErr RawSig) (hdef : DefinedBy R.stubs q fs)
    (hne : fs ≠ []) (s : Sig) :
    (∀ callable f, LookedUpAs callable f raw → LooksAt R false f q →
      (fromCallable R callable = .ok s ↔ GivenBy R f q fs s)) ∧
    ∀ l, LooksAt R true (.ofClass l) q →
      (fromCallable R (.cls l raw) = .ok s ↔ GivenBy R (.ofClass l) q fs s) := by
  constructor
  · intro callable f hl hq
    obtain ⟨h1, h2⟩ := fromFn_found hd hq hdef hne hev
    rw [hl.fromCallable, orElse_found h1, h2]
  · exact fun l hq => fromClass_found hd hq hdef hne hev

theorem evalSample_found (x : Expr) : evalSample x ≠ .error .signatureNotFound := by
  unfold evalSample
  split <;> simp

example : overloadedRuntime.depth ≠ 0 ∧
    (∀ m p x, overloadedRuntime.ev m p x ≠ .error .signatureNotFound) ∧
    DefinedBy overloadedRuntime.stubs (["m"], ["f"]) [defF, defG] ∧
    LooksAt overloadedRuntime false fnF (["m"], ["f"]) :=
  ⟨by decide, fun _ _ => evalSample_found, ⟨_, rfl, rfl⟩, ⟨_, rfl⟩⟩

/-! ### C95 -/

/-- **C95**, full statement: if the stubs define what runs when a callable is called, then a call
that its signature accepts is accepted by one of the definitions. -/
def C95_statement : Prop :=
  ∀ (R : Runtime) (c : Callable) (args A : List Obj) (kwargs K : Kwargs) (asClass : Bool) (f : Fn)
    (q : QPath) (fs : List FunctionDef) (s : Sig), R.depth ≠ 0 →
    (∀ m p x, R.ev m p x ≠ .error .signatureNotFound) → CallsOn c args kwargs asClass f A K →
    LooksAt R asClass f q → DefinedBy R.stubs q fs → fs ≠ [] → (∀ d ∈ fs, Parsed d.args) →
    (keys kwargs).Nodup → fromCallable R c = .ok s → s.allSet args kwargs = true →
    ∃ d ∈ fs, ∃ role, HasRole R d f q.1 q.2.dropLast role ∧
      ∀ ps new, Pointwise Declares (formals d.args) ps → Accepts ps (callArgs new A role) K

/-- `m.f` is `def g(a, **kw)`. -/
def keywordsRuntime : Runtime :=
  { runtimeSample with
    stubs := { stubsSample with
      rawAstNodes := [(["m"], [(["f"], [.functionDef defG])])] } }

/-- **C95** is violated by the code: a partial of `g(a, **kw)` with `1` bound is reported to accept
`a=2`. -/
theorem C95_refuted : ¬ C95_statement := by
  intro h
  obtain ⟨d, hd, role, hrole, hacc⟩ := h keywordsRuntime (.partial_ (.function labF (.ok rawG)) [one] [])
    [] [one] [("a", two)] [("a", two)] false fnF (["m"], ["f"]) [defG]
    (.plain ⟨[.optional int_ none .variadicKeyword "kw"], .form anyForm⟩)
    (by decide) (fun _ _ => evalSample_found)
    (.partial_ _ _ _ _ _ _ _ _ _ (by decide) (.function _ _ _ _)) ⟨[], rfl⟩ ⟨_, rfl, rfl⟩ (by simp)
    (by simp only [List.mem_singleton, forall_eq]; exact ⟨by decide, by decide, by decide⟩)
    (by decide) rfl (by decide)
  cases List.mem_singleton.1 hd
  cases hasRole_unique hrole
    (show HasRole keywordsRuntime defG fnF ["m"] [] .function from
      ⟨rfl, by simp [defG], defF_function.2.2⟩)
  obtain ⟨x, hx⟩ := hacc [pA, pKw] one defG_declares
  have he : PyCall.call [pA, pKw] (callArgs one [one] .function) [("a", two)] =
    .error (.multipleValues "a") := rfl
  rw [he] at hx
  cases hx

/-- **C95**, what holds: the claim for definitions without `/`, with a positional first parameter
unless they are plain functions, and for calls without a keyword that repeats, in the presence of
`**kwargs`, the name of a parameter filled positionally. Callables bound to classes are not
included. -/
theorem C95_declared_partial (R : Runtime) (c : Callable) (args A : List Obj) (kwargs K : Kwargs)
    (asClass : Bool) (f : Fn) (q : QPath) (fs : List FunctionDef) (s : Sig) (hd : R.depth ≠ 0)
    (hev : ∀ m p x, R.ev m p x ≠ .error .signatureNotFound) (hr : CallsOn c args kwargs asClass f A K)
    (hq : LooksAt R asClass f q) (hdef : DefinedBy R.stubs q fs) (hne : fs ≠ [])
    (hfs : ∀ d ∈ fs, d.args.posonlyargs = [] ∧ Parsed d.args)
    (hfirst : ∀ d ∈ fs, ∀ role, HasRole R d f q.1 q.2.dropLast role → role ≠ .function →
      d.args.args ≠ [])
    (hnd : (keys kwargs).Nodup)
    (hc : ∀ d ∈ fs, ∀ role ps new, HasRole R d f q.1 q.2.dropLast role →
      Pointwise Declares (formals d.args) ps →
      ¬ KwCollides ps (callArgs new A role).length (keys K))
    (hs : fromCallable R c = .ok s) (hset : s.allSet args kwargs = true) :
    ∃ d ∈ fs, ∃ role, HasRole R d f q.1 q.2.dropLast role ∧
      ∀ ps new, Pointwise Declares (formals d.args) ps → Accepts ps (callArgs new A role) K := by
  obtain ⟨hK, hm, base, hg, hiff⟩ := runs_accepts hd hev hr.readsOn hq hdef hne hnd hs
  have hbase := hiff.1 ((hm.allSet (fromCallable_constructible R c s hs) args kwargs hnd).1 hset)
  rw [acceptsSig_members] at hbase
  obtain ⟨p, hp, hacc⟩ := hbase
  obtain ⟨ss, hpt, hmade⟩ := hg
  rw [hmade.flatten] at hp
  obtain ⟨d, hd', hdp⟩ := hpt.exists_left hp
  obtain ⟨_, _, role, _, hrole, _, _⟩ :=
    C25_defaults R d f _ _ _ (hfs d hd').1 (hfs d hd').2 hdp
  refine ⟨d, hd', role, hrole, fun ps new hps => ?_⟩
  refine C27_never_over_accepts_partial R d f _ _ role p ps (hfs d hd').1 (hfs d hd').2 hrole
    (hfirst d hd' role hrole) hdp hps new A K hK (hc d hd' role ps new hrole hps) ?_
  exact C06_accepts_implies_allSet p (fromFunctionDef_constructible hdp) A K hK hacc

/-! ### C96 -/

/-- **C96**, full statement: if the stubs define what runs when a callable is called, then a call
that one of the definitions accepts, and that gives no positional parameter by keyword, is accepted
by the signature of the callable. -/
def C96_statement : Prop :=
  ∀ (R : Runtime) (c : Callable) (args A : List Obj) (kwargs K : Kwargs) (asClass : Bool) (f : Fn)
    (q : QPath) (fs : List FunctionDef) (s : Sig), R.depth ≠ 0 →
    (∀ m p x, R.ev m p x ≠ .error .signatureNotFound) → CallsOn c args kwargs asClass f A K →
    LooksAt R asClass f q → DefinedBy R.stubs q fs → fs ≠ [] → (∀ d ∈ fs, Parsed d.args) →
    (keys kwargs).Nodup → fromCallable R c = .ok s →
    ∀ d ∈ fs, ∀ role ps new, HasRole R d f q.1 q.2.dropLast role →
      Pointwise Declares (formals d.args) ps →
      (∀ p ∈ ps, isPositional p = true → p.name ∉ keys K) →
      Accepts ps (callArgs new A role) K → s.allSet args kwargs = true

/-- `m.f` is `def f(a, /)`. -/
def slashedRuntime : Runtime :=
  { runtimeSample with
    stubs := { stubsSample with
      rawAstNodes := [(["m"], [(["f"], [.functionDef
        { name := "f", args := { posonlyargs := [intArg "a"] } }])])] } }

/-- **C96** is violated by the code: the signature of `f(a, /)` does not accept `f(1)`. -/
theorem C96_refuted : ¬ C96_statement := by
  intro h
  have := h slashedRuntime (.function labF (.ok rawG)) [one] [one] [] [] false fnF (["m"], ["f"])
    [{ name := "f", args := { posonlyargs := [intArg "a"] } }] (.plain ⟨[], .form anyForm⟩)
    (by decide) (fun _ _ => evalSample_found) (.function _ _ _ _) ⟨[], rfl⟩ ⟨_, rfl, rfl⟩ (by simp)
    (by simp only [List.mem_singleton, forall_eq]; exact ⟨by decide, by decide, by decide⟩)
    (by decide) rfl _ (List.mem_singleton.2 rfl) .function [poA] one
    ⟨rfl, by simp, defF_function.2.2⟩
    ⟨⟨rfl, rfl, by simp [poA, Param.isOptional, positionalDefault, Variadic]⟩, trivial⟩
    (by simp [keys]) ⟨_, rfl⟩
  revert this
  decide

/-- **C96**, what holds: the claim for definitions without `/`, with a positional first parameter
unless they are plain functions, and for (class) methods that are given at least one argument.
Callables bound to classes are not included. -/
theorem C96_accepted_partial (R : Runtime) (c : Callable) (args A : List Obj) (kwargs K : Kwargs)
    (asClass : Bool) (f : Fn) (q : QPath) (fs : List FunctionDef) (s : Sig) (hd : R.depth ≠ 0)
    (hev : ∀ m p x, R.ev m p x ≠ .error .signatureNotFound) (hr : CallsOn c args kwargs asClass f A K)
    (hq : LooksAt R asClass f q) (hdef : DefinedBy R.stubs q fs) (hne : fs ≠ [])
    (hfs : ∀ d ∈ fs, d.args.posonlyargs = [] ∧ Parsed d.args) (hnd : (keys kwargs).Nodup)
    (hs : fromCallable R c = .ok s) (d : FunctionDef) (hdm : d ∈ fs) (role : Role) (ps : List Param)
    (new : Obj) (hrole : HasRole R d f q.1 q.2.dropLast role)
    (hfirst : role ≠ .function → d.args.args ≠ [])
    (hA : role = .method ∨ role = .classMethod → A ≠ [])
    (hps : Pointwise Declares (formals d.args) ps)
    (hno : ∀ p ∈ ps, isPositional p = true → p.name ∉ keys K)
    (hacc : Accepts ps (callArgs new A role) K) : s.allSet args kwargs = true := by
  obtain ⟨hK, hm, base, hg, hiff⟩ := runs_accepts hd hev hr.readsOn hq hdef hne hnd hs
  rw [hm.allSet (fromCallable_constructible R c s hs) args kwargs hnd, hiff]
  have hu := givenBy_unmixed hg
  obtain ⟨ss, hpt, hmade⟩ := hg
  rw [acceptsSig_members, hmade.flatten]
  obtain ⟨p, hp, hdp⟩ := hpt.exists_right hdm
  refine ⟨p, hp, ?_⟩
  rw [← C06_allSet_iff_accepts_partial p (fromFunctionDef_constructible hdp) A K hK
    (hu.kwCollides (by rw [hmade.flatten]; exact hp) _ _)]
  exact C62_positional_calls_partial R d f _ _ role p ps (hfs d hdm).1 (hfs d hdm).2 hrole hfirst hdp
    hps new A K hA hK hno hacc

/-! ### Examples -/

/-- A partial of a method of an instance: `partial(C().f, 2)` of `class C: def f(self, x)`. -/
def boundPartial : Callable :=
  .partial_ (.method two (some (one, .ok boundF)) (.error .attributeError)) [two] []

example : CallsOn boundPartial [] [] false boundF [one, two] [] :=
  .partial_ _ _ _ _ _ _ _ _ _ (by decide) (.method _ _ _ _ _ _)

def defX : FunctionDef := { name := "f", args := { args := [⟨"self", none⟩, intArg "x"] } }

example : LooksAt instanceRuntime false boundF (["m"], ["C", "f"]) ∧
    DefinedBy instanceRuntime.stubs (["m"], ["C", "f"]) [defX] ∧
    fromCallable instanceRuntime boundPartial = .ok (.plain ⟨[], .form anyForm⟩) ∧
    PlainSig.allSet ⟨[], .form anyForm⟩ [] [] = true ∧
    HasRole instanceRuntime defX boundF ["m"] ["C"] .method ∧ defX.args.args ≠ [] ∧
    defX.args.posonlyargs = [] ∧ Parsed defX.args ∧
    (∀ names ps, Pointwise Declares (formals defX.args) ps → ¬ KwCollides ps 2 names) := by
  refine ⟨⟨[], rfl⟩, ⟨_, rfl, rfl⟩, rfl, rfl, ⟨rfl, by simp [defX], ⟨_, rfl, rfl⟩⟩, by simp [defX],
    rfl, ⟨by decide, by decide, by decide⟩, ?_⟩
  rintro names ps hps ⟨⟨p, hp, hk⟩, _⟩
  obtain ⟨x, hx, h⟩ := hps.exists_left hp
  rw [h.kind] at hk
  simp [formals, defX] at hx
  rcases hx with rfl | rfl <;> simp at hk

end Paradigm.Props
