import Verif.Lemmas.Found
import Verif.Spec.Index
import Verif.Props.Lookup

/-!
# C30, C31, C64 and C81–C85: where signatures come from
-/

namespace Paradigm.Props

open Spec PyCall

/-! ### C30 for classes found in several places -/

/-- **C30**, from the constructors of the places at which a class is found to its signature: if the
places agree (`object`'s constructor aside) it is the one the definitions of this constructor give;
if two of them differ it is the one `inspect` reports. -/
theorem C30_locations (R : Runtime) (l : Labels) (raw : RawSig) (paths builders : List QPath)
    (hd : R.depth ≠ 0) (hev : ∀ m parent e, R.ev m parent e ≠ .error .signatureNotFound)
    (hp : resolveQualifiedPaths R (.ofClass l) = .ok paths)
    (hb : Pointwise (fun q b => classBuilder R q = .ok b) paths builders) :
    (∀ r fs s, Agreed builders r → DefinedBy R.stubs r fs → fs ≠ [] →
      (fromCallable R (.cls l (.ok raw)) = .ok s ↔ GivenBy R (.ofClass l) r fs s)) ∧
    ∀ a b, a ∈ builders → b ∈ builders → a ≠ b → a ≠ objectNew → b ≠ objectNew →
      fromCallable R (.cls l (.ok raw)) =
        fromRawSignature { raw with returns := some (.form selfForm) } := by
  have hne : builders ≠ [] → paths.isEmpty = false := by
    intro h
    cases paths with
    | nil => exact absurd hb.nil_left h
    | cons q paths => rfl
  generalize hl : Fn.ofClass l = c at hp
  constructor
  · intro r fs s ha hdef hfs
    have hno : ∀ f ∈ fs, fromFunctionDef R f c r.1 r.2.dropLast ≠ .error .signatureNotFound :=
      fun f _ => fromFunctionDef_found fun x => hev _ _ x
    have hpe := hne (List.ne_nil_of_mem ha.1)
    have hr := resolveBuilder_agreed hb ha
    have hload := loadAstNodes_definedBy hdef hfs
    have hfc : fromClass R c = (mapExcept (fun node => fromStatement R R.depth node c r.1
        r.2.dropLast) (fs.map .functionDef) >>= fun signatures => fromSignatures signatures) := by
      unfold fromClass
      rw [hp]
      show (if paths.isEmpty then _ else _) = _
      rw [hpe, if_neg (by simp), hr]
      show (loadAstNodes R r.1 r.2 >>= _) = _
      rw [hload]; rfl
    rw [fromCallable, hl, hfc]
    cases hm : mapExcept (fun node => fromStatement R R.depth node c r.1 r.2.dropLast)
        (fs.map .functionDef) with
    | ok sigs =>
      obtain ⟨ss, rfl, hpt⟩ := (functionDefs_ok hd).1 hm
      have hnot : fromSignatures (ss.map .plain) ≠ .error .signatureNotFound := by
        rw [fromSignatures_eq]
        cases collapse (members (ss.map .plain)) <;> simp
      show orElse (fromSignatures (ss.map .plain)) _ = _ ↔ _
      have : orElse (fromSignatures (ss.map .plain)) (do
          let raw ← (Except.ok raw : Except PyErr RawSig)
          fromRawSignature { raw with returns := some selfObj }) =
          fromSignatures (ss.map .plain) := by
        unfold orElse
        split
        · rename_i h; exact absurd h hnot
        · rfl
      rw [this, fromSignatures_madeOf]
      constructor
      · exact fun h => ⟨ss, hpt, h⟩
      · rintro ⟨ss', hp', h'⟩
        have := (functionDefs_ok hd).2 ⟨ss', rfl, hp'⟩
        rw [hm] at this
        injection this with this
        have hi : ss = ss' := by
          refine List.map_inj_right (f := Sig.plain) ?_ |>.1 this
          intro a b h; injection h
        subst hi; exact h'
    | error e =>
      obtain ⟨f, hf, he⟩ := functionDefs_error hd hm
      have hno' : e ≠ .signatureNotFound := by rintro rfl; exact hno f hf he
      constructor
      · intro h
        exfalso
        cases e <;> first | exact hno' rfl | cases h
      · rintro ⟨ss, hpt, _⟩
        have := (functionDefs_ok hd).2 ⟨ss, rfl, hpt⟩
        rw [hm] at this; cases this
  · intro a b ha hb' hab hao hbo
    have hr := resolveBuilder_ambiguous hb ha hb' hab hao hbo
    have hfc : fromClass R c = .error .signatureNotFound := by
      unfold fromClass
      rw [hp]
      show (if paths.isEmpty then _ else _) = _
      rw [hne (List.ne_nil_of_mem ha), if_neg (by simp), hr]; rfl
    rw [fromCallable, hl, hfc]; rfl

/-- **C30**, for callables that the stubs declare as classes (such as functions that are classes in
the stubs): again the definitions of the constructor the places agree on. -/
theorem C30_declared_class (R : Runtime) (callable : Callable) (c : Fn) (raw : Except PyErr RawSig)
    (hl : LookedUpAs callable c raw) (q : QPath)
    (paths builders : List QPath) (kinds : Dict Path NodeKind) (hd : R.depth ≠ 0)
    (hp : resolveQualifiedPaths R c = .ok (q :: paths))
    (hk : R.stubs.nodesKinds.lookup q.1 = some kinds) (hc : kinds.lookup q.2 = some .class_)
    (hb : Pointwise (fun q b => classBuilder R q = .ok b) (q :: paths) builders)
    (r : QPath) (fs : List FunctionDef) (s : Sig) (ha : Agreed builders r)
    (hdef : DefinedBy R.stubs r fs) (hfs : fs ≠ [])
    (hev : ∀ m parent e, R.ev m parent e ≠ .error .signatureNotFound) :
    fromCallable R callable = .ok s ↔ GivenBy R c r fs s := by
  have hno : ∀ f ∈ fs, fromFunctionDef R f c r.1 r.2.dropLast ≠ .error .signatureNotFound :=
    fun f _ => fromFunctionDef_found fun x => hev _ _ x
  have hq : toQualifiedPaths R c = .ok [r] := by
    unfold toQualifiedPaths
    rw [hp]
    show (getItem R.stubs.nodesKinds q.1 >>= _) = _
    rw [show getItem R.stubs.nodesKinds q.1 = .ok kinds by simp [getItem, hk]]
    show (getItem kinds q.2 >>= _) = _
    rw [show getItem kinds q.2 = .ok .class_ by simp [getItem, hc]]
    show (resolveBuilder R (q :: paths) >>= _) = _
    rw [resolveBuilder_agreed hb ha]; rfl
  have hfn : fromFn R c = fromPaths R c [r] := by rw [fromFn, hq]; rfl
  have key : ∀ fb, orElse (fromFn R c) fb = .ok s ↔ GivenBy R c r fs s := by
    intro fb
    rw [hfn, ← fromPaths_definedBy hd hdef hfs hno (others := [])]
    have hnot : fromPaths R c [r] ≠ .error .signatureNotFound := by
      obtain ⟨m, object⟩ := r
      rw [fromPaths, loadAstNodes_definedBy hdef hfs]
      simp only []
      cases hm : mapExcept (fun node => fromStatement R R.depth node c m object.dropLast)
          (fs.map .functionDef) with
      | ok sigs =>
        simp only []
        rw [fromSignatures_eq]
        cases collapse (members sigs) <;> simp
      | error e =>
        obtain ⟨f, hf, he⟩ := functionDefs_error hd hm
        have hno' : e ≠ .signatureNotFound := by rintro rfl; exact hno f hf he
        cases e <;> first | exact absurd rfl hno' | (intro h; cases h)
    unfold orElse
    split
    · rename_i h; exact absurd h hnot
    · rfl
  rw [hl.fromCallable]
  exact key _

/-- The class `C` with `__init__` that is found as `m.C` and as `n.C`, where `n` only names it. -/
def twoPlacesRuntime : Runtime where
  stubs := {
    definitions := [(["builtins"], .mk [("object", .mk [])]),
      (["m"], .mk [("C", .mk [("__init__", .mk [])])]), (["n"], .mk [("C", .mk [])])]
    references := [(["builtins"], []), (["m"], []), (["n"], [])]
    submodules := []
    superclasses := []
    rawAstNodes := [(["m"], [(["C", "__init__"], [.functionDef
      { name := "__init__", args := { args := [⟨"self", none⟩, intArg "x"] } }])]), (["n"], [])]
    nodesKinds := [(["m"], [(["C"], .class_)]), (["n"], [(["C"], .class_)])] }
  depth := 10
  ev := fun _ _ => evalSample
  index := [(["m"], [(["C"], [(["n"], ["C"]), (["m"], ["C"])])])]

example : resolveQualifiedPaths twoPlacesRuntime clsC = .ok [(["m"], ["C"]), (["n"], ["C"])] ∧
    Pointwise (fun q b => classBuilder twoPlacesRuntime q = .ok b)
      [(["m"], ["C"]), (["n"], ["C"])] [(["m"], ["C", "__init__"]), objectNew] ∧
    Agreed [(["m"], ["C", "__init__"]), objectNew] (["m"], ["C", "__init__"]) ∧
    DefinedBy twoPlacesRuntime.stubs (["m"], ["C", "__init__"])
      [{ name := "__init__", args := { args := [⟨"self", none⟩, intArg "x"] } }] ∧
    (∃ kinds, twoPlacesRuntime.stubs.nodesKinds.lookup ["m"] = some kinds ∧
      kinds.lookup ["C"] = some .class_) ∧
    fromCallable twoPlacesRuntime (.cls labC (.ok rawF)) =
      .ok (.plain ⟨[.required int_ .positionalOnly "x"], .form selfForm⟩) := by
  refine ⟨rfl, ⟨rfl, rfl, trivial⟩, ⟨by simp, ?_⟩, ⟨_, rfl, rfl⟩, ⟨_, rfl, rfl⟩, rfl⟩
  intro b hb
  simpa using hb

/-! ### C31: places without a definition -/

/-- **C31**, what holds (3): if the first place of a callable has no definition in the stubs, or the
constructor of a class has none, the signature is the one `inspect` reports. -/
theorem C31_undeclared_partial (R : Runtime) (raw : RawSig) (q : QPath)
    (hq : ¬ Declared R.stubs q) :
    (∀ callable c others, LookedUpAs callable c (.ok raw) →
      toQualifiedPaths R c = .ok (q :: others) → fromCallable R callable = fromRawSignature raw) ∧
    ∀ l paths builders, resolveQualifiedPaths R (.ofClass l) = .ok paths →
      Pointwise (fun q b => classBuilder R q = .ok b) paths builders → Agreed builders q →
      fromCallable R (.cls l (.ok raw)) =
        fromRawSignature { raw with returns := some (.form selfForm) } := by
  have hload := loadAstNodes_undeclared (R := R) hq
  constructor
  · intro callable c others hl h
    have hf : fromFn R c = .error .signatureNotFound := by
      rw [fromFn, h]
      show fromPaths R c (q :: others) = _
      obtain ⟨m, object⟩ := q
      rw [fromPaths, hload]
    rw [hl.fromCallable, hf]
    rfl
  · intro l paths builders hp hb ha
    have hpe : paths.isEmpty = false := by
      cases paths with
      | nil => exact absurd hb.nil_left (List.ne_nil_of_mem ha.1)
      | cons q paths => rfl
    have hfc : fromClass R (.ofClass l) = .error .signatureNotFound := by
      unfold fromClass
      rw [hp]
      show (if paths.isEmpty then _ else _) = _
      rw [hpe, if_neg (by simp), resolveBuilder_agreed hb ha]
      show (loadAstNodes R q.1 q.2 >>= _) = _
      rw [hload]; rfl
    rw [fromCallable, hfc]; rfl

/-- `m.f` is in the tables but no definition of it was recorded. -/
example : ¬ Declared runtimeSample.stubs (["m"], ["f"]) ∧
    toQualifiedPaths runtimeSample fnF = .ok [(["m"], ["f"])] := by
  refine ⟨?_, rfl⟩
  rintro ⟨nodes, stmts, h, _⟩
  cases h

/-! ### C85 -/

/-- **C85**, full statement: a callable one of whose places has definitions that give a signature
gets a signature from the stubs. -/
def C85_statement : Prop :=
  ∀ (R : Runtime) (c : Fn) (paths : List QPath) (q : QPath) (fs : List FunctionDef) (s : Sig),
    R.depth ≠ 0 → toQualifiedPaths R c = .ok paths → q ∈ paths → DefinedBy R.stubs q fs →
    GivenBy R c q fs s → ∃ t, fromFn R c = .ok t

/-- `f` is found as `m.f`, where the stubs have no definition, and as `n.f`. -/
def secondPlaceRuntime : Runtime where
  stubs := {
    definitions := [(["m"], .mk [("f", .mk [])]), (["n"], .mk [("f", .mk [])])]
    references := [(["m"], []), (["n"], [])]
    submodules := []
    superclasses := []
    rawAstNodes := [(["m"], []), (["n"], [(["f"], [.functionDef defF])])]
    nodesKinds := [(["m"], [(["f"], .function)]), (["n"], [(["f"], .function)])] }
  depth := 10
  ev := fun _ _ => evalSample
  index := [(["m"], [(["f"], [(["m"], ["f"]), (["n"], ["f"])])])]

/-- What `def f` says. -/
def sigDefF : PlainSig := ⟨[
  .required int_ .positionalOnly "a", .optional int_ (some one) .positionalOnly "b",
  .optional int_ none .variadicPositional "args", .required int_ .keywordOnly "c",
  .optional int_ none .keywordOnly "d", .optional int_ none .variadicKeyword "kw"], int_⟩

theorem givenBy_defF {R : Runtime} {c : Fn} {q : QPath}
    (h : fromFunctionDef R defF c q.1 q.2.dropLast = .ok (.plain sigDefF)) :
    GivenBy R c q [defF] (.plain sigDefF) :=
  ⟨[sigDefF], ⟨h, trivial⟩, by simp, by simp, by simp⟩

/-- **C85** is violated by the code: the search ends at the first place without definitions. -/
theorem C85_refuted : ¬ C85_statement := by
  intro h
  obtain ⟨t, ht⟩ := h secondPlaceRuntime fnF [(["m"], ["f"]), (["n"], ["f"])] (["n"], ["f"]) [defF]
    (.plain sigDefF) (by simp [secondPlaceRuntime]) rfl (by simp) ⟨_, rfl, rfl⟩ (givenBy_defF rfl)
  have : fromFn secondPlaceRuntime fnF = .error .signatureNotFound := rfl
  rw [this] at ht
  cases ht

/-- **C85**, what holds: the claim if all places before have definitions which give no signature
(such as assignments of other objects). -/
theorem C85_next_place_partial (R : Runtime) (c : Fn) (pre post : List QPath) (q : QPath)
    (fs : List FunctionDef) (s : Sig) (hd : R.depth ≠ 0)
    (hp : toQualifiedPaths R c = .ok (pre ++ q :: post)) (hdef : DefinedBy R.stubs q fs)
    (hs : GivenBy R c q fs s)
    (hpre : ∀ p ∈ pre, ∃ nodes, loadAstNodes R p.1 p.2 = .ok nodes ∧
      ∃ a node b, nodes = a ++ node :: b ∧
        (∀ x ∈ a, ∃ t, fromStatement R R.depth x c p.1 p.2.dropLast = .ok t) ∧
        fromStatement R R.depth node c p.1 p.2.dropLast = .error .signatureNotFound) :
    fromFn R c = .ok s := by
  have hfn : fromFn R c = fromPaths R c (pre ++ q :: post) := by rw [fromFn, hp]; rfl
  rw [hfn]
  clear hfn hp
  induction pre with
  | nil =>
    have hfs : fs ≠ [] := by
      rintro rfl
      obtain ⟨ss, hpt, hne, _⟩ := hs
      exact hne hpt.nil_left
    refine (fromPaths_definedBy hd hdef hfs ?_).2 hs
    intro f hf he
    obtain ⟨ss, hpt, _⟩ := hs
    obtain ⟨p, _, hp⟩ := hpt.exists_right hf
    rw [he] at hp; cases hp
  | cons p pre ih =>
    obtain ⟨nodes, hn, a, node, b, rfl, ha, he⟩ := hpre p List.mem_cons_self
    have ih := ih fun x hx => hpre x (List.mem_cons_of_mem _ hx)
    obtain ⟨m, object⟩ := p
    rw [List.cons_append, fromPaths, hn]
    have hm : mapExcept (fun node => fromStatement R R.depth node c m object.dropLast)
        (a ++ node :: b) = .error .signatureNotFound := by
      clear hn
      induction a with
      | nil => rw [List.nil_append, mapExcept, he]
      | cons x a iha =>
        obtain ⟨t, ht⟩ := ha x List.mem_cons_self
        rw [List.cons_append, mapExcept, ht]
        simp only []
        rw [iha fun y hy => ha y (List.mem_cons_of_mem _ hy)]
    simp only []
    rw [hm]
    exact ih

/-- `m.f` is assigned the result of a call, `n.f` is defined. -/
def assignedPlaceRuntime : Runtime :=
  { secondPlaceRuntime with
    stubs := { secondPlaceRuntime.stubs with
      definitions := [(["builtins"], .mk []), (["m"], .mk [("f", .mk []), ("g", .mk [])]),
        (["n"], .mk [("f", .mk [])])]
      references := [(["builtins"], []), (["m"], []), (["n"], [])]
      rawAstNodes := [(["m"], [(["f"], [.assign [.name "f" false]
        (.call (.name "g" true) [] [])])]), (["n"], [(["f"], [.functionDef defF])])] } }

example : toQualifiedPaths assignedPlaceRuntime fnF = .ok ([(["m"], ["f"])] ++ [(["n"], ["f"])]) ∧
    loadAstNodes assignedPlaceRuntime ["m"] ["f"] =
      .ok ([] ++ [.assign [.name "f" false] (.call (.name "g" true) [] [])]) ∧
    fromStatement assignedPlaceRuntime assignedPlaceRuntime.depth
      (.assign [.name "f" false] (.call (.name "g" true) [] [])) fnF ["m"] [] =
        .error .signatureNotFound ∧
    fromFn assignedPlaceRuntime fnF = .ok (.plain sigDefF) := ⟨rfl, rfl, rfl, rfl⟩

/-! ### C64 -/

/-- **C64**, full statement: the signature of a method that is found at `q`, where the definitions
take an instance or a class first, and `unbound` is the signature of the underlying function. -/
def C64_statement : Prop :=
  ∀ (R : Runtime) (callable : Callable) (owner : Obj) (g : Fn) (q : QPath) (others : List QPath)
    (fs : List FunctionDef) (unbound s : Sig),
    (InstanceBound callable owner g ∨ ∃ m qualname obj raw,
      callable = .builtin (.type m) qualname obj raw ∧ g = .ofBuiltin (.type m) qualname obj) →
    toQualifiedPaths R g = .ok (q :: others) → DefinedBy R.stubs q fs →
    (∀ d ∈ fs, HasRole R d g q.1 q.2.dropLast .method ∨
      HasRole R d g q.1 q.2.dropLast .classMethod) →
    fromFn R g = .ok unbound → fromCallable R callable = .ok s →
    ∀ args kwargs, (keys kwargs).Nodup →
      (AcceptsSig s args kwargs ↔ AcceptsSig unbound (owner :: args) kwargs)

/-- `C.f`, where `C` is a builtin class with a class method `f`. -/
def builtinF : Callable := .builtin (.type (.text "m")) "C.f" (.atom .none) (.error .attributeError)

/-- `@classmethod def f(cls, x)` -/
def defClsX : FunctionDef :=
  { name := "f", args := { args := [⟨"cls", none⟩, intArg "x"] },
    decorators := [.name "classmethod" true] }

/-- **C64** is violated by the code: the signature of a class method of a builtin class (such as
`dict.fromkeys`) still has the parameter `cls`, so that `C.f(1)` is reported as incomplete and
`C.f(C, 1)` as accepted. -/
theorem C64_refuted : ¬ C64_statement := by
  intro h
  have h1 := h classMethodRuntime builtinF one (.ofBuiltin (.type (.text "m")) "C.f" (.atom .none))
    (["m"], ["C", "f"]) [] [defClsX] (.plain sigClsX) (.plain sigClsX) (.inr ⟨_, _, _, _, rfl, rfl⟩)
    rfl ⟨_, rfl, rfl⟩ (by
      intro d hd
      rw [List.mem_singleton] at hd
      subst hd
      exact .inr ⟨rfl, _, List.mem_singleton.2 rfl, ["classmethod"], rfl, rfl⟩)
    rfl rfl [two] [] (by simp [keys])
  obtain ⟨f, hf⟩ := h1.2 ⟨_, rfl⟩
  have : PyCall.call sigClsX.parameters [two] [] = .error (.missing "x") := rfl
  rw [this] at hf
  cases hf

/-- **C64**, what holds for methods of Python classes bound to a class: they are not looked up in the
stubs, the signature is the one `inspect` reports (provided that nothing is listed in the index for
objects without a name, see `C57_named`). -/
theorem C64_class_partial (R : Runtime) (obj : Obj) (raw : Except PyErr RawSig)
    (hi : listed R.index ([], []) = []) :
    fromCallable R (.method obj none raw) = fromInspect raw := by
  have hc : candidatePaths R (.ofMethod obj) = .ok [] := by
    unfold candidatePaths listed at *
    show (match (R.index.lookup []).bind (fun objects => objects.lookup []) with
      | none => _
      | some paths => _) = _
    cases h1 : R.index.lookup [] with
    | none => rfl
    | some objects =>
      cases h2 : objects.lookup [] with
      | none => simp only [Option.bind_some, h2]; rfl
      | some places =>
        simp only [h1, Option.getD_some, h2] at hi
        simp only [Option.bind_some, h2, hi]; rfl
  have hf : fromFn R (.ofMethod obj) = .error .signatureNotFound := by
    unfold fromFn toQualifiedPaths resolveQualifiedPaths
    rw [hc]; rfl
  simp only [fromCallable, hf]; rfl

example : listed twoPlacesRuntime.index ([], []) = [] := rfl

/-! ### C81 -/

/-- **C81**, full statement: a signature built from a definition returns what the definition
declares, the signature of a class returns an instance of the class. -/
def C81_statement : Prop :=
  (∀ (R : Runtime) (f : FunctionDef) (c : Fn) (m parent : Path) (s : PlainSig), c.isType = false →
    fromFunctionDef R f c m parent = .ok (.plain s) → ReturnsOf (R.ev m parent) f s.returns) ∧
  ∀ (R : Runtime) (l : Labels) (raw : Except PyErr RawSig) (s : Sig),
    fromCallable R (.cls l raw) = .ok s → ∀ p ∈ flattenSignature s, p.returns = .form selfForm

/-- `class C: def __new__(cls): ...` -/
def newRuntime : Runtime :=
  { runtimeSample with
    stubs := { stubsSample with
      rawAstNodes := [(["m"], [(["C", "__new__"], [.functionDef
        { name := "__new__", args := { args := [⟨"cls", none⟩] } }])])] } }

/-- **C81** is violated by the code: a class whose `__new__` has no annotation returns `Any`. -/
theorem C81_refuted : ¬ C81_statement := by
  intro h
  have := h.2 newRuntime labC (.error .attributeError) (.plain ⟨[], .form anyForm⟩) rfl
    ⟨[], .form anyForm⟩ (by simp [flattenSignature])
  simp [anyForm, selfForm] at this

/-- **C81**, second violation: `async def f() -> int` gets the signature of `def f() -> int`, though
calling it returns an awaitable. -/
theorem C81_async_ignored (R : Runtime) (f : FunctionDef) (c : Fn) (m parent : Path) :
    fromFunctionDef R { f with isAsync := true } c m parent =
      fromFunctionDef R { f with isAsync := false } c m parent := rfl

/-- **C81**, what holds: definitions return what they declare, `__init__` of classes `Self`, other
constructors what they declare. -/
theorem C81_definition_partial (R : Runtime) (f : FunctionDef) (c : Fn) (m parent : Path)
    (s : PlainSig) (h : fromFunctionDef R f c m parent = .ok (.plain s)) :
    (¬ (c.isType = true ∧ f.name = "__init__") → ReturnsOf (R.ev m parent) f s.returns) ∧
    (c.isType = true → f.name = "__init__" → s.returns = .form selfForm) := by
  obtain ⟨ps, r, _, hr, _, he⟩ := fromFunctionDef_ok.1 h
  injection he with he
  subst he
  unfold returnsFrom at hr
  constructor
  · intro hn
    rw [if_neg (by simpa using hn)] at hr
    refine ⟨fun hf => ?_, fun e hf => ?_⟩
    · rw [hf] at hr; injection hr with hr; exact hr.symm
    · rw [hf] at hr; exact hr
  · intro ht hn
    rw [if_pos (by simp [ht, hn])] at hr
    injection hr with hr; exact hr.symm

/-- **C81**, classes: the signature returns `Self` if it comes from definitions of `__init__` or
from `inspect`. -/
theorem C81_class_partial (R : Runtime) (l : Labels) (raw : RawSig) (paths builders : List QPath)
    (hd : R.depth ≠ 0) (hev : ∀ m parent e, R.ev m parent e ≠ .error .signatureNotFound)
    (hp : resolveQualifiedPaths R (.ofClass l) = .ok paths)
    (hb : Pointwise (fun q b => classBuilder R q = .ok b) paths builders) (s : Sig)
    (hs : fromCallable R (.cls l (.ok raw)) = .ok s) :
    (∀ r fs, Agreed builders r → DefinedBy R.stubs r fs → fs ≠ [] →
      (∀ f ∈ fs, f.name = "__init__") →
      ∀ p ∈ flattenSignature s, p.returns = .form selfForm) ∧
    (paths = [] → ∀ p ∈ flattenSignature s, p.returns = .form selfForm) := by
  constructor
  · intro r fs ha hdef hfs hf
    obtain ⟨ss, hpt, hne, h1, h2⟩ := ((C30_locations R l raw paths builders hd hev hp hb).1 r fs s ha
      hdef hfs).1 hs
    have hall : ∀ p ∈ ss, p.returns = .form selfForm := by
      intro p hp
      obtain ⟨f, hfm, hfp⟩ := hpt.exists_left hp
      exact (C81_definition_partial R f _ _ _ p hfp).2 rfl (hf f hfm)
    intro p hp
    cases ss with
    | nil => exact absurd rfl hne
    | cons a l =>
      cases l with
      | nil =>
        rw [h1 a rfl] at hp
        exact hall p (by simpa [flattenSignature] using hp)
      | cons b l =>
        rw [h2 (by simp)] at hp
        exact hall p (by simpa [flattenSignature] using hp)
  · intro he p hpm
    subst he
    have hfc : fromClass R (.ofClass l) = .error .signatureNotFound := by
      unfold fromClass
      rw [hp]; rfl
    rw [fromCallable, hfc] at hs
    change fromRawSignature { raw with returns := some selfObj } = .ok s at hs
    unfold fromRawSignature at hs
    simp only [except_bind_ok, pure_ok] at hs
    obtain ⟨ps, _, sig, hn, rfl⟩ := hs
    obtain ⟨_, rfl⟩ := new_ok_iff.1 hn
    have : p = ⟨ps, selfObj⟩ := by simpa [flattenSignature] using hpm
    rw [this]; rfl

example : resolveQualifiedPaths twoPlacesRuntime clsC ≠ .ok [] ∧
    fromCallable twoPlacesRuntime (.cls labC (.ok rawF)) =
      .ok (.plain ⟨[.required int_ .positionalOnly "x"], .form selfForm⟩) ∧
    resolveQualifiedPaths twoPlacesRuntime (.ofClass { labC with qualname := "missing" }) =
      .ok [] := by
  refine ⟨?_, rfl, rfl⟩
  intro h
  have : resolveQualifiedPaths twoPlacesRuntime clsC = .ok [(["m"], ["C"]), (["n"], ["C"])] := rfl
  rw [this] at h
  cases h

/-! ### C82 -/

/-- The statement `name: annotation` in a stub, where `annotation` is `callable[arguments, returns]`
and `callable` is resolved to `typing.Callable`. -/
structure CallableDeclaration (R : Runtime) (m parent : Path) where
  callable : Expr
  arguments : Expr
  returns : Expr
  load : Bool
  target : Expr
  path : Path
  isPath : toPath callable = .ok path
  resolved : R.resolve m parent path = .ok (["typing"], ["Callable"])

/-- The statement itself. -/
def CallableDeclaration.stmt {R : Runtime} {m parent : Path} (d : CallableDeclaration R m parent) :
    Stmt :=
  .annAssign d.target (.subscript d.callable (.tuple [d.arguments, d.returns] d.load) d.load) none

theorem CallableDeclaration.from_stmt {R : Runtime} {m parent : Path}
    (d : CallableDeclaration R m parent) (n : Nat) (c : Fn) :
    fromStatement R (n + 2) d.stmt c m parent =
      fromCallableItem (R.ev m parent) (.tuple [d.arguments, d.returns] d.load) := by
  rw [CallableDeclaration.stmt, fromStatement]
  show fromExpression R (n + 1) (.subscript d.callable (.tuple [d.arguments, d.returns] d.load) d.load)
    c m parent = _
  rw [fromExpression]
  show (toPath d.callable >>= _) = _
  rw [d.isPath]
  show (R.resolve m parent d.path >>= _) = _
  rw [d.resolved]
  rfl

/-- **C82**, full statement: the signature of a name declared as a callable type accepts exactly
the calls that the type allows, and returns what it says. -/
def C82_statement : Prop :=
  ∀ (R : Runtime) (m parent : Path) (d : CallableDeclaration R m parent) (concatenate : Expr)
    (a : ArgumentSpec) (n : Nat) (c : Fn) (s : Sig), a.Written concatenate d.arguments →
    fromStatement R (n + 2) d.stmt c m parent = .ok s →
    ∃ p, s = .plain p ∧ R.ev m parent d.returns = .ok p.returns ∧
      ∀ args kwargs, (keys kwargs).Nodup →
        (Accepts p.parameters args kwargs ↔ a.Allows args.length (keys kwargs))

/-- Stubs with `typing.Callable`. -/
def typingRuntime : Runtime where
  stubs := {
    definitions := [(["typing"], .mk [("Callable", .mk [])]), (["builtins"], .mk []),
      (["m"], .mk [("f", .mk [])])]
    references := [(["typing"], []), (["builtins"], []),
      (["m"], [(["Callable"], (["typing"], ["Callable"]))])]
    submodules := []
    superclasses := []
    rawAstNodes := []
    nodesKinds := [(["m"], [(["f"], .annotatedAssignment)])] }
  depth := 10
  ev := fun _ _ => evalSample

/-- `f: Callable[arguments, int]` -/
def declarationF (arguments : Expr) : CallableDeclaration typingRuntime ["m"] [] where
  callable := .name "Callable" true
  arguments := arguments
  returns := .name "int" true
  load := true
  target := .name "f" false
  path := ["Callable"]
  isPath := rfl
  resolved := rfl

/-- **C82** is violated by the code: `Callable[Concatenate[int, P], int]` gets a signature that
accepts calls without arguments. -/
theorem C82_refuted : ¬ C82_statement := by
  intro h
  obtain ⟨p, hp, _, hacc⟩ := h typingRuntime ["m"] [] (declarationF
      (.subscript (.name "Concatenate" true) (.tuple [.name "int" true, .name "P" true] true) true))
    (.name "Concatenate" true) (.atLeast [.name "int" true]) 0 fnF
    (.plain ⟨anythingParams, int_⟩) ⟨by simp, _, _, _, rfl⟩ rfl
  injection hp with hp
  subst hp
  have := (hacc [] [] (by simp [keys])).1 (anything_accepts [] [] (by simp [keys]))
  simp [ArgumentSpec.Allows] at this

/-- **C82**, what holds: the claim for lists of argument types, for `...` and for parameter
specifications; the parameters carry the written annotations. -/
theorem C82_callable_partial (R : Runtime) (m parent : Path) (d : CallableDeclaration R m parent)
    (concatenate : Expr) (a : ArgumentSpec) (n : Nat) (c : Fn) (returns : Obj)
    (ha : a.Written concatenate d.arguments) (hk : ∀ annotations, a ≠ .atLeast annotations)
    (hr : R.ev m parent d.returns = .ok returns) (annotations : List Obj)
    (hev : ∀ es, a = .exactly es → Pointwise (fun e v => R.ev m parent e = .ok v) es annotations) :
    ∃ p : PlainSig, fromStatement R (n + 2) d.stmt c m parent = .ok (.plain p) ∧
      p.returns = returns ∧
      (∀ es, a = .exactly es → p.parameters.map Param.annotation = annotations) ∧
      ∀ args kwargs, (keys kwargs).Nodup →
        (Accepts p.parameters args kwargs ↔ a.Allows args.length (keys kwargs)) := by
  rw [d.from_stmt]
  have hany : ∀ e, (∀ elts, e ≠ .list elts) →
      fromCallableItem (R.ev m parent) (.tuple [e, d.returns] d.load) =
        .ok (.plain ⟨anythingParams, returns⟩) := by
    intro e he
    unfold fromCallableItem
    cases e with
    | list elts => exact absurd rfl (he elts)
    | _ =>
      simp only []
      show (R.ev m parent d.returns >>= fun returns =>
        PlainSig.new anythingParams returns >>= fun s => pure (Sig.plain s)) = _
      rw [hr]; rfl
  cases a with
  | atLeast es => exact absurd rfl (hk es)
  | anything =>
    have he : ∀ elts, d.arguments ≠ .list elts := by
      rcases ha with h | ⟨id, load, h⟩ <;> rw [h] <;> intro elts h <;> cases h
    rw [hany _ he]
    refine ⟨_, rfl, rfl, ?_, fun args kwargs hnd => ?_⟩
    · intro es h; cases h
    · exact ⟨fun _ => trivial, fun _ => anything_accepts args kwargs hnd⟩
  | exactly es =>
    have ha : d.arguments = .list es := ha
    have hp := hev es rfl
    rw [ha]
    have hnew : PlainSig.new (nameless annotations 0) returns =
        .ok ⟨nameless annotations 0, returns⟩ :=
      new_ok_iff.2 ⟨(validate_ok_iff _).2 (nameless_wellFormed _ _), rfl⟩
    refine ⟨⟨nameless annotations 0, returns⟩, ?_, rfl, ?_, ?_⟩
    · unfold fromCallableItem
      simp only []
      show (mapExcept _ (es.zipIdx 0) >>= _) = _
      rw [namelessFrom 0 hp]
      show (R.ev m parent d.returns >>= _) = _
      rw [hr]
      show (PlainSig.new (nameless annotations 0) returns >>= _) = _
      rw [hnew]; rfl
    · intro es' _
      have : ∀ (l : List Obj) i, (nameless l i).map Param.annotation = l := by
        intro l
        induction l with
        | nil => intro i; rfl
        | cons x l ih => intro i; rw [nameless, List.map_cons, ih]; rfl
      exact this annotations 0
    · intro args kwargs hnd
      rw [nameless_accepts annotations args kwargs hnd]
      show _ ↔ args.length = es.length ∧ keys kwargs = []
      rw [hp.length]

example : (ArgumentSpec.exactly [.name "int" true, .constant (.int 1)]).Written (.name "C" true)
      (declarationF (.list [.name "int" true, .constant (.int 1)])).arguments ∧
    fromStatement typingRuntime 2 (declarationF (.list [.name "int" true, .constant (.int 1)])).stmt
      fnF ["m"] [] = .ok (.plain ⟨[.required int_ .positionalOnly "_0",
        .required one .positionalOnly "_1"], int_⟩) ∧
    ArgumentSpec.anything.Written (.name "C" true) (declarationF (.constant .ellipsis)).arguments ∧
    fromStatement typingRuntime 2 (declarationF (.constant .ellipsis)).stmt fnF ["m"] [] =
      .ok (.plain ⟨anythingParams, int_⟩) := ⟨rfl, rfl, .inl rfl, rfl⟩

/-! ### C83 -/

/-- **C83**, full statement: a name that a stub defines as an alias of a function has the signature
of this function. -/
def C83_statement : Prop :=
  ∀ (R : Runtime) (m parent : Path) (e : Expr) (path : Path) (q : QPath) (fs : List FunctionDef)
    (kinds : Dict Path NodeKind) (targets : List Expr) (n : Nat) (c : Fn) (s : Sig),
    toPath e = .ok path → R.resolve m parent path = .ok q → DefinedBy R.stubs q fs →
    R.stubs.nodesKinds.lookup q.1 = some kinds → kinds.lookup q.2 = some .function →
    GivenBy R c q fs s → fromStatement R (n + 3) (.assign targets e) c m parent = .ok s

/-- `g = f` for the overloaded function `f`. -/
def aliasRuntime (fs : List FunctionDef) : Runtime where
  stubs := {
    definitions := [(["m"], .mk [("f", .mk []), ("g", .mk []), ("C", .mk [("f", .mk [])])]),
      (["builtins"], .mk [])]
    references := [(["m"], []), (["builtins"], [])]
    submodules := []
    superclasses := []
    rawAstNodes := [(["m"], [(["f"], fs.map .functionDef), (["C", "f"], fs.map .functionDef)])]
    nodesKinds := [(["m"], [(["f"], .function), (["C", "f"], .function), (["C"], .class_)])] }
  depth := 10
  ev := fun _ _ => evalSample

/-- **C83** is violated by the code: an alias of an overloaded function gets no signature from the
stubs. -/
theorem C83_refuted : ¬ C83_statement := by
  intro h
  have := h (aliasRuntime [defF, defF]) ["m"] [] (.name "f" true) ["f"] (["m"], ["f"]) [defF, defF]
    [(["f"], .function), (["C", "f"], .function), (["C"], .class_)] [.name "g" false] 0 fnF
    (.overloaded [sigDefF, sigDefF]) rfl rfl ⟨_, rfl, rfl⟩ rfl rfl
    ⟨[sigDefF, sigDefF], ⟨rfl, rfl, trivial⟩, by simp, by simp, by simp⟩
  have h' : fromStatement (aliasRuntime [defF, defF]) 3 (.assign [.name "g" false] (.name "f" true))
    fnF ["m"] [] = .error .signatureNotFound := rfl
  rw [h'] at this
  cases this

/-- **C83**, second violation: an alias of a method loses the annotation of `self`. -/
theorem C83_refuted_method :
    fromFunctionDef (aliasRuntime [defF]) defF fnF ["m"] ["C"] =
      .ok (.plain ⟨.required (.form selfForm) .positionalOnly "a" :: sigDefF.parameters.drop 1,
        int_⟩) ∧
    fromStatement (aliasRuntime [defF]) 3
      (.assign [.name "g" false] (.attribute (.name "C" true) "f" true)) fnF ["m"] [] =
        .ok (.plain sigDefF) := ⟨rfl, rfl⟩

/-- **C83**, what holds: the claim for functions at module level with one definition. -/
theorem C83_alias_partial (R : Runtime) (m parent : Path) (e : Expr) (path : Path) (q : QPath)
    (f : FunctionDef) (kinds : Dict Path NodeKind) (kind : NodeKind) (targets : List Expr) (n : Nat)
    (c : Fn) (s : Sig)
    (he : toPath e = .ok path) (hr : R.resolve m parent path = .ok q)
    (hdef : DefinedBy R.stubs q [f]) (hk : R.stubs.nodesKinds.lookup q.1 = some kinds)
    (hkind : kinds.lookup q.2 = some kind) (hnc : kind ≠ .class_) (hq : q.2.dropLast = []) :
    fromStatement R (n + 3) (.assign targets e) c m parent = .ok s ↔ GivenBy R c q [f] s := by
  obtain ⟨nodes, h1, h2⟩ := hdef
  have key : fromStatement R (n + 3) (.assign targets e) c m parent =
      fromFunctionDef R f c q.1 [] := by
    have hnamed : fromNamed R (fun node m => fromStatement R (n + 1) node c m []) e c m parent =
        fromFunctionDef R f c q.1 [] := by
      unfold fromNamed
      rw [he]
      show (R.resolve m parent path >>= _) = _
      rw [hr]
      show (getItem R.stubs.nodesKinds q.1 >>= _) = _
      rw [show getItem R.stubs.nodesKinds q.1 = .ok kinds by simp [getItem, hk]]
      show (getItem kinds q.2 >>= _) = _
      rw [show getItem kinds q.2 = .ok kind by simp [getItem, hkind]]
      show (if (kind == .class_) = true then _ else _) = _
      rw [if_neg (by simpa using hnc)]
      rw [show getItem R.stubs.rawAstNodes q.1 = .ok nodes by simp [getItem, h1]]
      show (getItem nodes q.2 >>= _) = _
      rw [show getItem nodes q.2 = .ok [.functionDef f] by simp [getItem, h2]]
      rfl
    rw [fromStatement]
    show fromExpression R (n + 2) e c m parent = _
    cases e with
    | name id load => rw [fromExpression]; exact hnamed
    | «attribute» v a load => rw [fromExpression]; exact hnamed
    | _ => cases he
  rw [key]
  unfold GivenBy
  rw [hq]
  constructor
  · intro h
    obtain ⟨ps, r, _, _, _, rfl⟩ := fromFunctionDef_ok.1 h
    exact ⟨[⟨ps, r⟩], ⟨h, trivial⟩, by simp, by simp, by simp⟩
  · rintro ⟨ss, hpt, hne, hone, _⟩
    match ss with
    | [] => exact absurd rfl hne
    | [p] => rw [hone p rfl]; exact hpt.1
    | _ :: _ :: _ => exact hpt.2.elim

example : (aliasRuntime [defF]).resolve ["m"] [] ["f"] = .ok (["m"], ["f"]) ∧
    DefinedBy (aliasRuntime [defF]).stubs (["m"], ["f"]) [defF] ∧
    fromStatement (aliasRuntime [defF]) 3 (.assign [.name "g" false] (.name "f" true)) fnF ["m"] [] =
      .ok (.plain sigDefF) := ⟨rfl, ⟨_, rfl, rfl⟩, rfl⟩

/-! ### C84 -/

/-- **C84**, exactly: the places considered for a callable are the resolved ones among its
candidates. -/
theorem C84_places (R : Runtime) (value : Fn) (paths : List QPath)
    (h : resolveQualifiedPaths R value = .ok paths) (q : QPath) :
    q ∈ paths ↔ q.1 ≠ [] ∧ q.2 ≠ [] ∧
      ∃ c, Candidate R value c ∧ R.resolve c.1 [] c.2 = .ok q := by
  unfold resolveQualifiedPaths at h
  simp only [except_bind_ok, pure_ok] at h
  obtain ⟨cands, hc, resolved, hr, rfl⟩ := h
  have hpt := mapExcept_pointwise.1 hr
  rw [mem_sortedSet, List.mem_filter]
  constructor
  · rintro ⟨hq, hne⟩
    obtain ⟨c, hcm, hcq⟩ := hpt.exists_left hq
    have hne : q.1 ≠ [] ∧ q.2 ≠ [] := by simpa using hne
    refine ⟨hne.1, hne.2, c, (candidatePaths_ok hc c).1 hcm, ?_⟩
    unfold tryResolve at hcq
    split at hcq
    · injection hcq with hcq
      subst hcq
      exact absurd rfl hne.1
    · exact hcq
  · rintro ⟨h1, h2, c, hcc, hcq⟩
    obtain ⟨q', hq', hcq'⟩ := hpt.exists_right ((candidatePaths_ok hc c).2 hcc)
    have : q' = q := by
      unfold tryResolve at hcq'
      rw [hcq] at hcq'
      injection hcq' with hcq'
      exact hcq'.symm
    subst this
    exact ⟨hq', by simp [h1, h2]⟩

/-- **C84**, full statement: in a running interpreter, the stubs of a place are used for an object
only if the object is found at a place that leads there. -/
def C84_statement : Prop :=
  ∀ (R : Runtime) (L : Live) (ident : Fn → Nat) (value : Fn) (paths : List QPath),
    (∀ f c, R.has f c = L.has (ident f) c) → resolveQualifiedPaths R value = .ok paths →
    ∀ q ∈ paths, ∃ c, FoundAt L (ident value) c ∧ R.resolve c.1 [] c.2 = .ok q

/-- An interpreter in which `m.f` is the object 1. -/
def liveSample : Live where
  loaded m := if m = ["m"] then some 0 else none
  getattr x name := if x = 0 ∧ name = "f" then some 1 else none

/-- **C84** is violated by the code: an object that is called `m.f` but is not listed in the index
gets the stubs of `m.f`, whatever is found there. -/
theorem C84_refuted : ¬ C84_statement := by
  intro h
  obtain ⟨c, ⟨x, hx, hl⟩, _⟩ := h { runtimeSample with has := fun _ c => liveSample.has 2 c } liveSample
    (fun _ => 2) fnF [(["m"], ["f"])] (fun _ _ => rfl) rfl (["m"], ["f"]) (by simp)
  have h2 : ∀ x y path, FollowsTo liveSample x path y → x ≠ 2 → y ≠ 2 := by
    intro x y path h
    induction h with
    | here x => exact id
    | step hg _ ih =>
      intro _
      apply ih
      simp only [liveSample] at hg
      split at hg
      · injection hg with hg; omega
      · cases hg
  refine h2 x 2 c.2 hl ?_ rfl
  simp only [liveSample] at hx
  split at hx
  · injection hx with hx; omega
  · cases hx

/-- **C84**, what holds: the claim for objects listed in the index under their qualified path, if the
listed modules are loaded. -/
theorem C84_own_places_partial (R : Runtime) (L : Live) (ident : Fn → Nat) (value : Fn)
    (paths : List QPath) (objects : Dict Path (List QPath)) (places : List QPath)
    (hL : ∀ f c, R.has f c = L.has (ident f) c)
    (h : resolveQualifiedPaths R value = .ok paths)
    (own : QPath) (h0 : qualifiedPathFrom value.named = .ok own)
    (h1 : R.index.lookup own.1 = some objects) (h2 : objects.lookup own.2 = some places)
    (hload : ∀ c ∈ places, (L.loaded c.1).isSome) (q : QPath) :
    q ∈ paths ↔ q.1 ≠ [] ∧ q.2 ≠ [] ∧ ∃ c ∈ places, FoundAt L (ident value) c ∧
      R.resolve c.1 [] c.2 = .ok q := by
  rw [C84_places R value paths h q]
  have hcand : ∀ c, Candidate R value c ↔ c ∈ places ∧ FoundAt L (ident value) c := by
    intro c
    unfold Candidate
    simp only [h0, Except.ok.injEq, exists_eq_left']
    constructor
    · rintro (⟨o, p, ho, hp, hc, hh⟩ | ⟨hn, _⟩)
      · rw [h1] at ho; injection ho with ho; subst ho
        rw [h2] at hp; injection hp with hp; subst hp
        obtain ⟨x, hx⟩ := Option.isSome_iff_exists.1 (hload c hc)
        exact ⟨hc, (has_loaded hx).1 (by rw [← hL]; exact hh)⟩
      · have := hn objects h1
        rw [h2] at this; cases this
    · rintro ⟨hc, hf⟩
      obtain ⟨x, hx⟩ := Option.isSome_iff_exists.1 (hload c hc)
      exact .inl ⟨objects, places, h1, h2, hc, by rw [hL]; exact (has_loaded hx).2 hf⟩
  simp only [hcand, and_assoc]

/-- `m.f` is listed in the index, also as `m.C.f`. -/
def listedRuntime : Runtime :=
  { runtimeSample with
    index := [(["m"], [(["f"], [(["m"], ["f"]), (["m"], ["C", "f"])])])]
    has := fun _ c => liveSample.has 1 c }

example : resolveQualifiedPaths listedRuntime fnF = .ok [(["m"], ["f"])] ∧
    qualifiedPathFrom fnF.named = .ok (["m"], ["f"]) ∧
    (∀ c ∈ [(["m"], ["f"]), (["m"], ["C", "f"])], (liveSample.loaded c.1).isSome) ∧
    FoundAt liveSample 1 (["m"], ["f"]) := by
  refine ⟨rfl, rfl, ?_, 0, rfl, .step (y := 1) rfl (.here 1)⟩
  intro c hc
  simp only [List.mem_cons, List.not_mem_nil, or_false] at hc
  rcases hc with rfl | rfl <;> rfl

/-! ### C86 -/

/-- The statement `name = TypeVar(...)` in a stub. -/
structure TypeVarDefinition (R : Runtime) (m parent : Path) where
  func : Expr
  args : List Expr
  keywords : List (Option String × Expr)
  targets : List Expr
  path : Path
  isPath : toPath func = .ok path
  resolved : R.resolve m parent path = .ok (["typing"], ["TypeVar"])

/-- The statement itself. -/
def TypeVarDefinition.stmt {R : Runtime} {m parent : Path} (d : TypeVarDefinition R m parent) :
    Stmt :=
  .assign d.targets (.call d.func d.args d.keywords)

/-- The signature of a name that a stub annotates with `e`. -/
def annotatedWith (R : Runtime) (n : Nat) (e : Expr) (c : Fn) (m parent : Path) : Except PyErr Sig :=
  fromStatement R n (.annAssign (.name "_" false) e none) c m parent

/-- **C86**, full statement: a type variable has the signature of its bound; else those of its
constraints, in order; else none, so that `inspect` is asked. -/
def C86_statement : Prop :=
  ∀ (R : Runtime) (m parent : Path) (d : TypeVarDefinition R m parent) (n : Nat) (c : Fn),
    (∀ pre bound post, d.keywords = pre ++ (some "bound", bound) :: post →
      (∀ k ∈ pre, k.1 ≠ some "bound") →
      fromStatement R (n + 3) d.stmt c m parent = annotatedWith R (n + 2) bound c m parent) ∧
    ((∀ k ∈ d.keywords, k.1 ≠ some "bound") → ∀ name constraints ss, d.args = name :: constraints →
      Pointwise (fun e s => annotatedWith R (n + 2) e c m parent = .ok s) constraints ss →
      (ss = [] → fromStatement R (n + 3) d.stmt c m parent = .error .signatureNotFound) ∧
      (ss ≠ [] → (∀ s ∈ ss, flattenSignature s ≠ []) →
        ∃ s, fromStatement R (n + 3) d.stmt c m parent = .ok s ∧
        flattenSignature s = ss.flatMap flattenSignature))

theorem TypeVarDefinition.from_stmt {R : Runtime} {m parent : Path}
    (d : TypeVarDefinition R m parent) (n : Nat) (c : Fn) :
    fromStatement R (n + 3) d.stmt c m parent =
      match d.keywords.find? (fun k => k.1 == some "bound") with
      | none => (mapExcept (fun e => fromExpression R (n + 1) e c m parent) (d.args.drop 1) >>=
          fun signatures => fromSignatures signatures)
      | some bound => fromExpression R (n + 1) bound.2 c m parent := by
  rw [TypeVarDefinition.stmt, fromStatement]
  show fromExpression R (n + 2) (.call d.func d.args d.keywords) c m parent = _
  rw [fromExpression]
  show (toPath d.func >>= _) = _
  rw [d.isPath]
  show (R.resolve m parent d.path >>= _) = _
  rw [d.resolved]
  rfl

/-- Stubs with `typing.TypeVar`. -/
def typeVarRuntime : Runtime where
  stubs := {
    definitions := [(["typing"], .mk [("Callable", .mk []), ("TypeVar", .mk [])]),
      (["builtins"], .mk []), (["m"], .mk [("F", .mk [])])]
    references := [(["typing"], []), (["builtins"], []),
      (["m"], [(["Callable"], (["typing"], ["Callable"])), (["TypeVar"], (["typing"], ["TypeVar"]))])]
    submodules := []
    superclasses := []
    rawAstNodes := []
    nodesKinds := [(["m"], [(["F"], .assignment)])] }
  depth := 10
  ev := fun _ _ => evalSample

/-- `F = TypeVar('F', *constraints, **keywords)` -/
def typeVarF (constraints : List Expr) (keywords : List (Option String × Expr)) :
    TypeVarDefinition typeVarRuntime ["m"] [] where
  func := .name "TypeVar" true
  args := .constant (.str "F") :: constraints
  keywords := keywords
  targets := [.name "F" false]
  path := ["TypeVar"]
  isPath := rfl
  resolved := rfl

/-- **C86** is violated by the code: a plain type variable raises `ValueError`, which is not
caught. -/
theorem C86_refuted : ¬ C86_statement := by
  intro h
  have := ((h typeVarRuntime ["m"] [] (typeVarF [] []) 0 fnF).2 (by simp [typeVarF])
    (.constant (.str "F")) [] [] rfl trivial).1 rfl
  have h' : fromStatement typeVarRuntime 3 (typeVarF [] []).stmt fnF ["m"] [] =
    .error (.valueError "too few signatures") := rfl
  rw [h'] at this
  cases this

/-- **C86**, what holds: the claim for type variables with a bound or with constraints. -/
theorem C86_type_variable_partial (R : Runtime) (m parent : Path) (d : TypeVarDefinition R m parent)
    (n : Nat) (c : Fn) :
    (∀ pre bound post, d.keywords = pre ++ (some "bound", bound) :: post →
      (∀ k ∈ pre, k.1 ≠ some "bound") →
      fromStatement R (n + 3) d.stmt c m parent = annotatedWith R (n + 2) bound c m parent) ∧
    ((∀ k ∈ d.keywords, k.1 ≠ some "bound") → ∀ name constraints ss, d.args = name :: constraints →
      Pointwise (fun e s => annotatedWith R (n + 2) e c m parent = .ok s) constraints ss →
      ss ≠ [] → (∀ s ∈ ss, flattenSignature s ≠ []) →
      ∃ s, fromStatement R (n + 3) d.stmt c m parent = .ok s ∧
        flattenSignature s = ss.flatMap flattenSignature) := by
  rw [d.from_stmt]
  constructor
  · intro pre bound post hk hpre
    have : d.keywords.find? (fun k => k.1 == some "bound") = some (some "bound", bound) := by
      rw [hk, List.find?_append, List.find?_eq_none.2 (by simpa using hpre)]
      simp
    rw [this]
    rfl
  · intro hk name constraints ss hargs hpt hne hss
    have : d.keywords.find? (fun k => k.1 == some "bound") = none :=
      List.find?_eq_none.2 (by simpa using hk)
    rw [this]
    have hm : mapExcept (fun e => fromExpression R (n + 1) e c m parent) (d.args.drop 1) = .ok ss := by
      rw [hargs]
      exact mapExcept_pointwise.2 hpt
    rw [hm]
    show ∃ s, fromSignatures ss = .ok s ∧ _
    have hmem : members ss = ss.flatMap flattenSignature := by
      clear hm hpt hne hss
      induction ss with
      | nil => rfl
      | cons s ss ih =>
        cases s with
        | plain p => rw [members, ih, List.flatMap_cons]; rfl
        | overloaded ps => rw [members, ih, List.flatMap_cons]; rfl
    rw [fromSignatures_eq, hmem]
    cases hc : collapse (ss.flatMap flattenSignature) with
    | some t => exact ⟨t, rfl, collapse_flatten hc⟩
    | none =>
      exfalso
      cases ss with
      | nil => exact hne rfl
      | cons s ss =>
        rw [List.flatMap_cons] at hc
        have := hss s List.mem_cons_self
        cases hf : flattenSignature s with
        | nil => exact this hf
        | cons a l =>
          rw [hf, List.cons_append] at hc
          cases hl : l ++ ss.flatMap flattenSignature with
          | nil => rw [hl] at hc; cases hc
          | cons b l => rw [hl] at hc; cases hc

/-- `Callable[[int], int]` -/
def intToInt : Expr :=
  .subscript (.name "Callable" true) (.tuple [.list [.name "int" true], .name "int" true] true) true

example : fromStatement typeVarRuntime 3 (typeVarF [] [(some "bound", intToInt)]).stmt fnF ["m"] [] =
      .ok (.plain ⟨[.required int_ .positionalOnly "_0"], int_⟩) ∧
    annotatedWith typeVarRuntime 2 intToInt fnF ["m"] [] =
      .ok (.plain ⟨[.required int_ .positionalOnly "_0"], int_⟩) ∧
    fromStatement typeVarRuntime 3 (typeVarF [intToInt, intToInt] []).stmt fnF ["m"] [] =
      .ok (.overloaded [⟨[.required int_ .positionalOnly "_0"], int_⟩,
        ⟨[.required int_ .positionalOnly "_0"], int_⟩]) := ⟨rfl, rfl, rfl⟩

end Paradigm.Props
