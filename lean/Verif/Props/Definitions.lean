import Verif.Lemmas.Stub
import Verif.Props.Signatures

/-!
# C24–C27, C62: signatures from `inspect` and from stub definitions
-/

namespace Paradigm.Props

open Spec PyCall

/-! ### C24 -/

/-- **C24**, full statement: the conversion of a valid `inspect` signature succeeds, preserves every
parameter and the return annotation, and the result accepts what any function with these formal
parameters accepts. -/
def C24_statement : Prop :=
  ∀ raw : RawSig, InspectValid raw → ∃ s : PlainSig, fromRawSignature raw = .ok (.plain s) ∧
    Pointwise Preserves raw.parameters s.parameters ∧
    s.returns = raw.returns.getD (.form anyForm) ∧
    ∀ ps, Pointwise Describes raw.parameters ps → ∀ args kwargs, (keys kwargs).Nodup →
      (s.allSet args kwargs = true ↔ Accepts ps args kwargs)

/-- `(*a, *b)`: accepted by `inspect`. -/
def rawTwoStars : RawSig :=
  { parameters := [{ name := "a", kind := .variadicPositional },
      { name := "b", kind := .variadicPositional }] }

theorem rawTwoStars_valid : InspectValid rawTwoStars := by
  refine ⟨by decide, by simp [rawTwoStars], ?_, ?_⟩
  · simp [rawTwoStars]
  · intro p hp _
    simp only [rawTwoStars, List.mem_cons, List.not_mem_nil, or_false] at hp
    rcases hp with rfl | rfl <;> rfl

/-- **C24** is violated by the code: `inspect.Signature` accepts several `*args`, the conversion
raises `ValueError`. -/
theorem C24_refuted : ¬ C24_statement := by
  intro h
  obtain ⟨s, hs, _⟩ := h rawTwoStars rawTwoStars_valid
  have : fromRawSignature rawTwoStars = .error (.valueError "duplicate variadic") := rfl
  rw [this] at hs
  cases hs

/-- **C24**, second violation: a default that is paradigm's "no default" marker is lost. -/
theorem C24_refuted_marker :
    fromRawSignature
        { parameters := [⟨"a", .keywordOnly, none, some (.atom .noDefault)⟩] } =
      .ok (.plain ⟨[.optional (.form anyForm) none .keywordOnly "a"], .form anyForm⟩) := rfl

/-- **C24**, third violation: for `g(a, **kw)` the call `g(1, a=2)` is reported as accepted. -/
theorem C24_refuted_collision :
    ∃ s, fromRawSignature { parameters := [{ name := "a", kind := .positionalOrKeyword },
        { name := "kw", kind := .variadicKeyword }] } = .ok (.plain s) ∧
      s.allSet [one] [("a", two)] = true ∧ ¬ Accepts [pA, pKw] [one] [("a", two)] := by
  refine ⟨_, rfl, by decide, ?_⟩
  rintro ⟨f, hf⟩
  have he : PyCall.call [pA, pKw] [one] [("a", two)] = .error (.multipleValues "a") := rfl
  rw [he] at hf; cases hf

/-- **C24**, what holds: the claim for signatures with at most one `*args` and one `**kwargs` and
without the marker as default, for calls without a keyword that repeats a positionally filled name
in the presence of `**kwargs`. -/
theorem C24_inspect_fallback_partial (raw : RawSig) (hv : InspectValid raw)
    (h1 : raw.parameters.countP (fun p => p.kind == .variadicPositional) ≤ 1)
    (h2 : raw.parameters.countP (fun p => p.kind == .variadicKeyword) ≤ 1)
    (h3 : ∀ p ∈ raw.parameters, p.default ≠ some (.atom .noDefault)) :
    ∃ s : PlainSig, fromRawSignature raw = .ok (.plain s) ∧ ConstructiblePlain s ∧
      Pointwise Preserves raw.parameters s.parameters ∧
      s.returns = raw.returns.getD (.form anyForm) ∧
      ∀ ps, Pointwise Describes raw.parameters ps → ∀ args kwargs, (keys kwargs).Nodup →
        ¬ KwCollides ps args.length (keys kwargs) →
        (s.allSet args kwargs = true ↔ Accepts ps args kwargs) := by
  have htot : ∀ p ∈ raw.parameters, ∃ q, paramFromRaw p = .ok q := fun p hp => by
    obtain ⟨q, hq, _⟩ := paramFromRaw_eq p (hv.variadicNoDefault p hp)
    exact ⟨q, hq⟩
  obtain ⟨qs, hqs⟩ := mapExcept_total htot
  have hpt := mapExcept_pointwise.1 hqs
  have hpres : Pointwise (fun r p => Preserves r p ∧ ValidParam p) raw.parameters qs :=
    hpt.imp fun r hr p _ h => by
      obtain ⟨q, hq, hd, ha, hval, hdef⟩ := paramFromRaw_eq r (hv.variadicNoDefault r hr)
      rw [h] at hq; cases hq
      exact ⟨⟨hd, ha, hdef (h3 r hr)⟩, hval⟩
  have hdesc : Pointwise Describes raw.parameters qs :=
    hpres.imp fun _ _ _ _ h => h.1.toDescribes
  have hw := describes_wellFormed hv h1 h2 hdesc
  have hnew : PlainSig.new qs (raw.returns.getD anyObj) = .ok ⟨qs, raw.returns.getD anyObj⟩ :=
    new_ok_iff.2 ⟨(validate_ok_iff qs).2 hw, rfl⟩
  refine ⟨⟨qs, raw.returns.getD anyObj⟩, ?_, ?_, hpres.imp fun _ _ _ _ h => h.1, rfl, ?_⟩
  · simp only [fromRawSignature, hqs, hnew, bind, Except.bind, pure, Except.pure]
  · refine (constructiblePlain_iff _).2 ⟨fun p hp => ?_, hw⟩
    obtain ⟨r, _, hr⟩ := hpres.exists_left hp
    exact hr.2
  · intro ps hps args kwargs hnd hc
    have hwp := describes_wellFormed hv h1 h2 hps
    have hsame : Pointwise (fun p q : Param => p.name = q.name ∧ p.kind = q.kind ∧
        p.isRequired = q.isRequired) qs ps := by
      refine (hdesc.flip.comp hps).imp fun p _ q _ h => ?_
      obtain ⟨r, h, h'⟩ := h
      refine ⟨h.name.trans h'.name.symm, h.kind.trans h'.kind.symm, ?_⟩
      rw [isRequired_eq, isRequired_eq]
      congr 1
      rw [Bool.eq_iff_iff, h.optional, h'.optional]
    constructor
    · exact allSet_narrower hw hwp (hsame.imp fun _ _ _ _ h => ⟨h.1, .inl h.2.1, by simp [h.2.2]⟩)
        hnd hc
    · intro ha
      refine C06_accepts_implies_allSet ⟨qs, _⟩ ?_ args kwargs hnd
        ((accepts_congr hw hwp hsame hnd).2 ha)
      refine (constructiblePlain_iff _).2 ⟨fun p hp => ?_, hw⟩
      obtain ⟨r, _, hr⟩ := hpres.exists_left hp
      exact hr.2

/-- `f(a, b=1, *args, c, **kw)` as `inspect` reports it. -/
def rawF : RawSig :=
  { parameters := [
      { name := "a", kind := .positionalOrKeyword, annotation := some int_ },
      { name := "b", kind := .positionalOrKeyword, annotation := some int_, default := some one },
      { name := "args", kind := .variadicPositional, annotation := some int_ },
      { name := "c", kind := .keywordOnly, annotation := some int_ },
      { name := "kw", kind := .variadicKeyword, annotation := some int_ }],
    returns := some int_ }

example : InspectValid rawF ∧
    rawF.parameters.countP (fun p => p.kind == .variadicPositional) ≤ 1 ∧
    rawF.parameters.countP (fun p => p.kind == .variadicKeyword) ≤ 1 ∧
    (∀ p ∈ rawF.parameters, p.default ≠ some (.atom .noDefault)) ∧
    fromRawSignature rawF = .ok (.plain sigF) := by
  refine ⟨⟨by decide, by simp [rawF, rank], by simp [rawF], ?_⟩, by decide, by decide, ?_, rfl⟩
  · intro p hp h
    simp only [rawF, List.mem_cons, List.not_mem_nil, or_false] at hp
    rcases hp with rfl | rfl | rfl | rfl | rfl <;> simp [Variadic] at h ⊢
  · intro p hp
    simp only [rawF, List.mem_cons, List.not_mem_nil, or_false] at hp
    rcases hp with rfl | rfl | rfl | rfl | rfl <;> simp [one]

/-! ### Sample definitions -/

/-- Evaluates literals and the name `int`. -/
def evalSample : Expr → Except PyErr Obj
  | .constant a => .ok (.atom a)
  | .name "int" _ => .ok int_
  | _ => .error .objectNotFound

/-- Module `m` with a class `C` and the builtin `classmethod`. -/
def stubsSample : Stubs where
  definitions := [(["builtins"], .mk [("classmethod", .mk []), ("object", .mk []),
      ("staticmethod", .mk [])]),
    (["m"], .mk [("C", .mk [("f", .mk [])]), ("f", .mk [])])]
  references := [(["builtins"], []), (["m"], [])]
  submodules := []
  superclasses := []
  rawAstNodes := []
  nodesKinds := [(["m"], [(["C"], .class_), (["C", "f"], .function), (["f"], .function)])]

def runtimeSample : Runtime where
  stubs := stubsSample
  depth := 10
  ev := fun _ _ => evalSample

def intArg (name : String) : Arg := ⟨name, some (.name "int" true)⟩

/-- `def f(a: int, b: int = 1, *args: int, c: int, d: int = ..., **kw: int) -> int` -/
def defF : FunctionDef where
  name := "f"
  args := {
    args := [intArg "a", intArg "b"]
    vararg := some (intArg "args")
    kwonlyargs := [intArg "c", intArg "d"]
    kwDefaults := [none, some (.constant .ellipsis)]
    kwarg := some (intArg "kw")
    defaults := [.constant (.int 1)] }
  returns := some (.name "int" true)

theorem defF_parsed : Parsed defF.args := ⟨by decide, by decide, by decide⟩

theorem defF_evaluable : Evaluable evalSample defF := by
  refine ⟨fun x hx e he => ?_, fun e he => ?_⟩
  · simp [formals, defF, positionalDefault, List.zipIdx] at hx
    rcases hx with rfl | rfl | rfl | rfl | rfl | rfl <;>
      simp [intArg] at he <;> rcases he with rfl | rfl <;> exact ⟨_, rfl⟩
  · cases he; exact ⟨_, rfl⟩

def labF : Labels := { module_ := .text "m", qualname := "f" }
def labC : Labels := { module_ := .text "m", qualname := "C" }
def fnF : Fn := .ofFunction labF
def clsC : Fn := .ofClass labC

theorem defF_function : HasRole runtimeSample defF fnF ["m"] [] .function := by
  refine ⟨rfl, by simp [defF], ?_⟩
  rintro ⟨kinds, hk, hc⟩
  have : runtimeSample.stubs.nodesKinds.lookup ["m"] =
    some [(["C"], .class_), (["C", "f"], .function), (["f"], .function)] := rfl
  rw [this] at hk; cases hk
  revert hc; decide

/-! ### C25 -/

/-- **C25.** A signature built from a definition without `/` transcribes the formal parameters one
by one – the last `d` positional ones get the `d` defaults in order, keyword-only ones their own,
`...` is an unknown default – and then only adjusts the first one for the role of the definition. -/
theorem C25_defaults (R : Runtime) (f : FunctionDef) (c : Fn) (m parent : Path) (sig : Sig)
    (hp : f.args.posonlyargs = []) (ha : Parsed f.args)
    (h : fromFunctionDef R f c m parent = .ok sig) :
    ∃ s full role, sig = .plain s ∧ HasRole R f c m parent role ∧
      Pointwise (Transcribes (R.ev m parent)) (formals f.args) full ∧
      Adjusted role full s.parameters := by
  obtain ⟨ps, r, hps, _, _, rfl⟩ := fromFunctionDef_ok.1 h
  obtain ⟨full, role, hfull, hrole, hadj⟩ := parametersFrom_ok hps
  refine ⟨_, full, role, rfl, hrole, ?_, hadj⟩
  have hd : f.args.defaults.length ≤ f.args.args.length := by
    simpa [hp] using ha.defaults
  exact ((declared_iff hp hd).1 hfull).imp fun x hx p _ h =>
    (nodeOf_transcribes (fun hv => formals_variadic hx hv) h).1

example : defF.args.posonlyargs = [] ∧ Parsed defF.args ∧
    fromFunctionDef runtimeSample defF fnF ["m"] [] = .ok (.plain ⟨[
      .required int_ .positionalOnly "a", .optional int_ (some one) .positionalOnly "b",
      .optional int_ none .variadicPositional "args", .required int_ .keywordOnly "c",
      .optional int_ none .keywordOnly "d", .optional int_ none .variadicKeyword "kw"], int_⟩) ∧
    fromFunctionDef runtimeSample defF clsC ["m"] [] = .ok (.plain ⟨[
      .optional int_ (some one) .positionalOnly "b",
      .optional int_ none .variadicPositional "args", .required int_ .keywordOnly "c",
      .optional int_ none .keywordOnly "d", .optional int_ none .variadicKeyword "kw"], int_⟩) :=
  ⟨rfl, defF_parsed, rfl, rfl⟩

/-- A class method: the first parameter is `Type[Self]`. -/
example : fromFunctionDef runtimeSample
      { defF with decorators := [.name "classmethod" true] } fnF ["m"] ["C"] = .ok (.plain ⟨[
      .required typeOfSelf .positionalOnly "a", .optional int_ (some one) .positionalOnly "b",
      .optional int_ none .variadicPositional "args", .required int_ .keywordOnly "c",
      .optional int_ none .keywordOnly "d", .optional int_ none .variadicKeyword "kw"], int_⟩) :=
  rfl

/-! ### C26 -/

/-- **C26**, full statement: any definition that Python's parser accepts, in any role, whose
expressions and decorators can be evaluated, yields a legal signature. -/
def C26_statement : Prop :=
  ∀ (R : Runtime) (f : FunctionDef) (c : Fn) (m parent : Path), Parsed f.args →
    Evaluable (R.ev m parent) f →
    (∀ d ∈ f.decorators, Identified R m parent d) →
    (∃ kinds, R.stubs.nodesKinds.lookup m = some kinds) →
    ∃ s, fromFunctionDef R f c m parent = .ok (.plain s) ∧ ConstructiblePlain s

/-- **C26** is violated by the code: `def f(a=1, /)` raises `AttributeError`. -/
theorem C26_refuted : ¬ C26_statement := by
  intro h
  obtain ⟨s, hs, _⟩ := h runtimeSample
    { name := "f", args := { posonlyargs := [⟨"a", none⟩], defaults := [.constant (.int 1)] } }
    fnF ["m"] [] ⟨by decide, by decide, by decide⟩
    ⟨fun x hx e he => by
      simp [formals, positionalDefault] at hx
      subst hx
      simp at he
      subst he
      exact ⟨_, rfl⟩, by simp⟩
    (by simp) ⟨_, rfl⟩
  have : fromFunctionDef runtimeSample
      { name := "f", args := { posonlyargs := [⟨"a", none⟩], defaults := [.constant (.int 1)] } }
      fnF ["m"] [] = .error .attributeError := rfl
  rw [this] at hs
  cases hs

/-- **C26**, second violation: a static method without parameters, or a constructor
`def __init__(self, /)`, raises `IndexError`. -/
theorem C26_refuted_empty :
    fromFunctionDef runtimeSample
      { name := "f", args := {}, decorators := [.name "staticmethod" true] } fnF ["m"] ["C"] =
        .error .indexError ∧
    fromFunctionDef runtimeSample
      { name := "__init__", args := { posonlyargs := [⟨"self", none⟩] } } clsC ["m"] ["C"] =
        .error .indexError := ⟨rfl, rfl⟩

/-- **C26**, what holds: the claim for definitions without `/` that, unless they are plain
functions, have at least one parameter. -/
theorem C26_legal_partial (R : Runtime) (f : FunctionDef) (c : Fn) (m parent : Path) (role : Role)
    (hp : f.args.posonlyargs = []) (ha : Parsed f.args) (hev : Evaluable (R.ev m parent) f)
    (hdec : ∀ d ∈ f.decorators, Identified R m parent d)
    (hmod : ∃ kinds, R.stubs.nodesKinds.lookup m = some kinds)
    (hrole : HasRole R f c m parent role) (hne : role ≠ .function → formals f.args ≠ []) :
    ∃ s, fromFunctionDef R f c m parent = .ok (.plain s) ∧ ConstructiblePlain s := by
  have hd : f.args.defaults.length ≤ f.args.args.length := by simpa [hp] using ha.defaults
  have hfull : ∃ full, declaredParameters (R.ev m parent) f.args = .ok full := by
    obtain ⟨full, hm⟩ := mapExcept_total (f := nodeOf (R.ev m parent)) (as := formals f.args)
      fun x hx => nodeOf_total (hev.1 x hx) (fun hv => formals_variadic hx hv)
    exact ⟨full, (declared_iff hp hd).2 (mapExcept_pointwise.1 hm)⟩
  obtain ⟨full, hfull⟩ := hfull
  have hpt := (declared_iff hp hd).1 hfull
  have htr : Pointwise (fun x p => Transcribes (R.ev m parent) x p ∧ ValidParam p)
      (formals f.args) full := hpt.imp fun x hx p _ h =>
    nodeOf_transcribes (fun hv => formals_variadic hx hv) h
  have hw := transcribes_wellFormed ha (htr.imp fun _ _ _ _ h => h.1)
  obtain ⟨ps, hps, hadj⟩ := parametersFrom_total hfull hrole (fun _ => hdec) (fun _ => hmod)
    (fun hr he => by
      have := hpt.length
      rw [he] at this
      exact hne hr (List.length_eq_zero_iff.1 this))
  have hret : ∃ r, returnsFrom R f c m parent = .ok r := by
    unfold returnsFrom
    split
    · exact ⟨_, rfl⟩
    · cases hr : f.returns with
      | none => exact ⟨_, rfl⟩
      | some e => exact hev.2 e hr
  obtain ⟨r, hr⟩ := hret
  have hwp := adjusted_wellFormed hadj hw
  refine ⟨⟨ps, r⟩, fromFunctionDef_ok.2 ⟨ps, r, hps, hr, hwp, rfl⟩,
    (constructiblePlain_iff _).2 ⟨fun p hp => ?_, hwp⟩⟩
  have hfv : ∀ p ∈ full, ValidParam p := fun p hp => by
    obtain ⟨_, _, h⟩ := htr.exists_left hp
    exact h.2
  cases role with
  | function => rw [show ps = full from hadj] at hp; exact hfv p hp
  | constructor =>
    obtain ⟨first, rfl⟩ := hadj
    exact hfv p (List.mem_cons_of_mem _ hp)
  | method =>
    obtain ⟨first, rest, rfl, rfl⟩ := hadj
    rcases List.mem_cons.1 hp with rfl | hp
    · simp [ValidParam]
    · exact hfv p (List.mem_cons_of_mem _ hp)
  | classMethod =>
    obtain ⟨first, rest, rfl, rfl⟩ := hadj
    rcases List.mem_cons.1 hp with rfl | hp
    · simp [ValidParam]
    · exact hfv p (List.mem_cons_of_mem _ hp)

example : defF.args.posonlyargs = [] ∧ Parsed defF.args ∧
    Evaluable (runtimeSample.ev ["m"] []) defF ∧
    (∀ d ∈ defF.decorators, Identified runtimeSample ["m"] [] d) ∧
    (∃ kinds, runtimeSample.stubs.nodesKinds.lookup ["m"] = some kinds) ∧
    HasRole runtimeSample defF clsC ["m"] [] .constructor ∧ formals defF.args ≠ [] :=
  ⟨rfl, defF_parsed, defF_evaluable, by simp [defF], ⟨_, rfl⟩, rfl, by simp [formals, defF]⟩

/-! ### C27 -/

/-- The arguments the definition is called with when the described callable is called with `args`:
a constructor gets the new object first. -/
def callArgs (self : Obj) (args : List Obj) : Role → List Obj
  | .constructor => self :: args
  | _ => args

/-- **C27**, full statement: whatever the signature accepts, a function with the declared formal
parameters accepts. -/
def C27_statement : Prop :=
  ∀ (R : Runtime) (f : FunctionDef) (c : Fn) (m parent : Path) (role : Role) (s : PlainSig)
    (ps : List Param), f.args.posonlyargs = [] → Parsed f.args → HasRole R f c m parent role →
    fromFunctionDef R f c m parent = .ok (.plain s) → Pointwise Declares (formals f.args) ps →
    ∀ (self : Obj) (args : List Obj) (kwargs : Kwargs), (keys kwargs).Nodup →
      s.allSet args kwargs = true → Accepts ps (callArgs self args role) kwargs

/-- `def g(a, **kw)` -/
def defG : FunctionDef where
  name := "g"
  args := { args := [intArg "a"], kwarg := some (intArg "kw") }

theorem defG_declares : Pointwise Declares (formals defG.args) [pA, pKw] := by
  refine ⟨⟨rfl, rfl, ?_⟩, ⟨rfl, rfl, ?_⟩, trivial⟩
  · simp [Param.isOptional, pA, positionalDefault, defG, Variadic]
  · simp [Param.isOptional, pKw, Variadic]

/-- **C27** is violated by the code: the signature of `g(a, **kw)` has a positional-only `a` and
accepts `g(1, a=2)`. -/
theorem C27_refuted : ¬ C27_statement := by
  intro h
  obtain ⟨f, hf⟩ := h runtimeSample defG fnF ["m"] [] .function
    ⟨[.required int_ .positionalOnly "a", .optional int_ none .variadicKeyword "kw"],
      .form anyForm⟩ [pA, pKw] rfl ⟨by decide, by decide, by decide⟩
    ⟨rfl, by simp [defG], defF_function.2.2⟩ rfl defG_declares one [one] [("a", two)] (by decide)
    (by decide)
  have he : PyCall.call [pA, pKw] [one] [("a", two)] = .error (.multipleValues "a") := rfl
  rw [show callArgs one [one] .function = [one] from rfl, he] at hf
  cases hf

/-- **C27**, second violation: for a static method `def f(*, x)` of a class, `x` is taken for
`self`: the signature accepts `f(1)`. -/
theorem C27_refuted_static :
    ∃ s, fromFunctionDef runtimeSample 
        { name := "f", args := { kwonlyargs := [intArg "x"], kwDefaults := [none] },
          decorators := [.name "staticmethod" true] } fnF ["m"] ["C"] = .ok (.plain s) ∧
      s.allSet [one] [] = true ∧ ¬ Accepts [.required int_ .keywordOnly "x"] [one] [] := by
  refine ⟨_, rfl, by decide, ?_⟩
  rintro ⟨f, hf⟩
  have he : PyCall.call [.required int_ .keywordOnly "x"] [one] [] = .error .tooManyPositionals :=
    rfl
  rw [he] at hf; cases hf

/-- **C27**, what holds: the claim for plain functions and for methods, class methods and
constructors with a positional first parameter, for calls without a keyword that repeats a
positionally filled name in the presence of `**kwargs`. -/
theorem C27_never_over_accepts_partial (R : Runtime) (f : FunctionDef) (c : Fn) (m parent : Path)
    (role : Role) (s : PlainSig) (ps : List Param) (hp : f.args.posonlyargs = [])
    (ha : Parsed f.args) (hrole : HasRole R f c m parent role)
    (hne : role ≠ .function → f.args.args ≠ [])
    (h : fromFunctionDef R f c m parent = .ok (.plain s))
    (hps : Pointwise Declares (formals f.args) ps) (self : Obj) (args : List Obj)
    (kwargs : Kwargs) (hnd : (keys kwargs).Nodup)
    (hc : ¬ KwCollides ps (callArgs self args role).length (keys kwargs))
    (hs : s.allSet args kwargs = true) : Accepts ps (callArgs self args role) kwargs := by
  obtain ⟨s', full, role', he, hrole', htr, hadj⟩ := C25_defaults R f c m parent _ hp ha h
  cases he
  cases hasRole_unique hrole hrole'
  have hwf := transcribes_wellFormed ha htr
  have hws := adjusted_wellFormed hadj hwf
  have hwp := declares_wellFormed ha hps
  have hn := pointwise_narrower htr hps
  have hfirst : role ≠ .function → ∃ x xs q qs, formals f.args = x :: xs ∧ ps = q :: qs ∧
      q.kind = .positionalOrKeyword ∧ ∀ first rest, full = first :: rest →
        first.kind = .positionalOnly ∧ Narrower first q ∧ Pointwise Narrower rest qs := by
    intro hr
    obtain ⟨x, xs, hx, hxk⟩ := formals_first hp (hne hr)
    rw [hx] at hps htr
    obtain ⟨q, qs, rfl, hq, _⟩ := hps.cons_left
    refine ⟨x, xs, q, qs, hx, rfl, by rw [hq.kind, hxk], ?_⟩
    rintro first rest rfl
    exact ⟨by rw [htr.1.kind, hxk]; rfl, hn.1, hn.2⟩
  cases role with
  | function =>
    have : s.parameters = full := hadj
    rw [← this] at hn
    exact allSet_narrower hws hwp hn hnd hc hs
  | constructor =>
    obtain ⟨first, rfl⟩ := hadj
    obtain ⟨x, xs, q, qs, _, rfl, _, hf⟩ := hfirst (by simp)
    obtain ⟨hk, _, _⟩ := hf first s.parameters rfl
    exact allSet_narrower (s := ⟨first :: s.parameters, s.returns⟩) hwf hwp hn hnd hc
      (allSet_cons hk hwf hs)
  | method =>
    obtain ⟨first, rest, rfl, hsp⟩ := hadj
    obtain ⟨x, xs, q, qs, _, rfl, hqk, hf⟩ := hfirst (by simp)
    obtain ⟨_, h1, h2⟩ := hf first rest rfl
    refine allSet_narrower hws hwp ?_ hnd hc hs
    rw [hsp]
    exact ⟨⟨h1.name, .inr ⟨rfl, hqk⟩, fun _ => rfl⟩, h2⟩
  | classMethod =>
    obtain ⟨first, rest, rfl, hsp⟩ := hadj
    obtain ⟨x, xs, q, qs, _, rfl, hqk, hf⟩ := hfirst (by simp)
    obtain ⟨_, h1, h2⟩ := hf first rest rfl
    refine allSet_narrower hws hwp ?_ hnd hc hs
    rw [hsp]
    exact ⟨⟨h1.name, .inr ⟨rfl, hqk⟩, fun _ => rfl⟩, h2⟩

example : defG.args.posonlyargs = [] ∧ Parsed defG.args ∧
    HasRole runtimeSample defG clsC ["m"] ["C"] .constructor ∧ defG.args.args ≠ [] ∧
    fromFunctionDef runtimeSample defG clsC ["m"] ["C"] =
      .ok (.plain ⟨[.optional int_ none .variadicKeyword "kw"], .form anyForm⟩) ∧
    Pointwise Declares (formals defG.args) [pA, pKw] ∧
    ¬ KwCollides [pA, pKw] (callArgs one [] .constructor).length (keys [("b", two)]) ∧
    PlainSig.allSet ⟨[.optional int_ none .variadicKeyword "kw"], .form anyForm⟩ [] [("b", two)] =
      true := by
  refine ⟨rfl, ⟨by decide, by decide, by decide⟩, rfl, by simp [defG], rfl, defG_declares, ?_,
    by decide⟩
  rintro ⟨_, p, hp, hk⟩
  have hf : filledBy [pA, pKw] (callArgs one [] .constructor).length = [pA] := rfl
  rw [hf] at hp
  cases List.mem_singleton.1 hp
  exact absurd hk.2 (by decide)

/-! ### C62 -/

/-- **C62**, full statement: a call that the defined function accepts and that passes no positional
parameter by keyword is accepted by the signature built from its stub. -/
def C62_statement : Prop :=
  ∀ (R : Runtime) (f : FunctionDef) (c : Fn) (m parent : Path) (role : Role) (s : PlainSig)
    (ps : List Param), Parsed f.args → HasRole R f c m parent role →
    fromFunctionDef R f c m parent = .ok (.plain s) → Pointwise Declares (formals f.args) ps →
    ∀ (self : Obj) (args : List Obj) (kwargs : Kwargs), (keys kwargs).Nodup →
      (∀ p ∈ ps, isPositional p = true → p.name ∉ keys kwargs) →
      Accepts ps (callArgs self args role) kwargs → s.allSet args kwargs = true

/-- **C62** is violated by the code: the parameters before `/` are missing from the signature of
`def f(a, /)`, which does not accept `f(1)`. -/
theorem C62_refuted : ¬ C62_statement := by
  intro h
  have := h runtimeSample { name := "f", args := { posonlyargs := [intArg "a"] } } fnF ["m"] []
    .function ⟨[], .form anyForm⟩ [poA] ⟨by decide, by decide, by decide⟩
    ⟨rfl, by simp, defF_function.2.2⟩ rfl
    ⟨⟨rfl, rfl, by simp [poA, Param.isOptional, positionalDefault, Variadic]⟩, trivial⟩
    one [one] [] (by decide) (by simp [keys]) ⟨_, rfl⟩
  revert this
  decide

/-- **C62**, second violation: the signature of a static method `def f(a=1)` of a class requires its
first argument. -/
theorem C62_refuted_static :
    ∃ s, fromFunctionDef runtimeSample
        { name := "f", args := { args := [intArg "a"], defaults := [.constant (.int 1)] },
          decorators := [.name "staticmethod" true] } fnF ["m"] ["C"] = .ok (.plain s) ∧
      s.allSet [] [] = false ∧ Accepts [.optional int_ (some one) .positionalOrKeyword "a"] [] [] :=
  ⟨_, rfl, by decide, ⟨_, rfl⟩⟩

/-- **C62**, what holds: the claim for definitions without `/`: plain functions, constructors whose
first parameter is positional, (class) methods given at least one argument. -/
theorem C62_positional_calls_partial (R : Runtime) (f : FunctionDef) (c : Fn) (m parent : Path)
    (role : Role) (s : PlainSig) (ps : List Param) (hp : f.args.posonlyargs = [])
    (ha : Parsed f.args) (hrole : HasRole R f c m parent role)
    (hne : role ≠ .function → f.args.args ≠ [])
    (h : fromFunctionDef R f c m parent = .ok (.plain s))
    (hps : Pointwise Declares (formals f.args) ps) (self : Obj) (args : List Obj) (kwargs : Kwargs)
    (hargs : role = .method ∨ role = .classMethod → args ≠ [])
    (hnd : (keys kwargs).Nodup) (hno : ∀ p ∈ ps, isPositional p = true → p.name ∉ keys kwargs)
    (hacc : Accepts ps (callArgs self args role) kwargs) : s.allSet args kwargs = true := by
  obtain ⟨s', full, role', he, hrole', htr, hadj⟩ := C25_defaults R f c m parent _ hp ha h
  cases he
  cases hasRole_unique hrole hrole'
  have hwf := transcribes_wellFormed ha htr
  have hws := adjusted_wellFormed hadj hwf
  have hwp := declares_wellFormed ha hps
  have hfull : PlainSig.allSet ⟨full, s.returns⟩ (callArgs self args role) kwargs = true :=
    accepts_allSet_declared hwf hwp htr hps hnd hno hacc
  have hfirst : role ≠ .function → ∀ first rest, full = first :: rest →
      first.kind = .positionalOnly := by
    intro hr
    obtain ⟨x, xs, hx, hxk⟩ := formals_first hp (hne hr)
    rw [hx] at htr
    rintro first rest rfl
    rw [htr.1.kind, hxk]; rfl
  have hmethod : ∀ (o : Obj), role = .method ∨ role = .classMethod →
      (∃ first rest, full = first :: rest ∧
        s.parameters = .required o .positionalOnly first.name :: rest) →
      callArgs self args role = args → s.allSet args kwargs = true := by
    rintro o hr ⟨first, rest, rfl, hsp⟩ hca
    rw [hca] at hfull
    obtain ⟨x, xs, rfl⟩ := List.exists_cons_of_ne_nil (hargs hr)
    have hk := hfirst (by rcases hr with rfl | rfl <;> simp) first rest rfl
    have := allSet_tail hk hwf hfull
    have hs : s = ⟨.required o .positionalOnly first.name :: rest, s.returns⟩ := by
      rw [← hsp]
    rw [hs]
    exact allSet_cons rfl (hsp ▸ hws) this
  cases role with
  | function => rw [show s = ⟨full, s.returns⟩ by rw [← (show s.parameters = full from hadj)]]; exact hfull
  | constructor =>
    obtain ⟨first, rfl⟩ := hadj
    exact allSet_tail (hfirst (by simp) first s.parameters rfl) hwf hfull
  | method => exact hmethod _ (.inl rfl) hadj rfl
  | classMethod => exact hmethod _ (.inr rfl) hadj rfl

example : defG.args.posonlyargs = [] ∧ Parsed defG.args ∧
    HasRole runtimeSample defG fnF ["m"] [] .function ∧
    fromFunctionDef runtimeSample defG fnF ["m"] [] = .ok (.plain ⟨[
      .required int_ .positionalOnly "a", .optional int_ none .variadicKeyword "kw"],
      .form anyForm⟩) ∧
    Pointwise Declares (formals defG.args) [pA, pKw] ∧
    (∀ p ∈ [pA, pKw], isPositional p = true → p.name ∉ keys [("b", two)]) ∧
    Accepts [pA, pKw] [one] [("b", two)] := by
  refine ⟨rfl, ⟨by decide, by decide, by decide⟩, ⟨rfl, by simp [defG], defF_function.2.2⟩, rfl,
    defG_declares, ?_, ⟨_, rfl⟩⟩
  intro p hp
  simp only [List.mem_cons, List.not_mem_nil, or_false] at hp
  rcases hp with rfl | rfl <;> simp [pA, pKw, isPositional, Param.name, Param.kind, keys]

/-- The same for a constructor. -/
example : HasRole runtimeSample defG clsC ["m"] ["C"] .constructor ∧ defG.args.args ≠ [] ∧
    fromFunctionDef runtimeSample defG clsC ["m"] ["C"] =
      .ok (.plain ⟨[.optional int_ none .variadicKeyword "kw"], .form anyForm⟩) ∧
    Accepts [pA, pKw] (callArgs one [] .constructor) [("b", two)] :=
  ⟨rfl, by simp [defG], rfl, ⟨_, rfl⟩⟩

end Paradigm.Props
