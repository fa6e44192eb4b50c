import Verif.Lemmas.Reading
import Verif.Props.Catalog
import Verif.Props.Specialization

/-!
# C100, C101: from stub sources to signatures
-/

namespace Paradigm.Props

open Spec PyCall

/-! ### C100 -/

/-- **C100.** What a name of a module that was read to its end is recorded to be (a function, a class,
...) is what it is according to its last definition in the branches taken. -/
theorem C100_kinds (E : StubFiles) (o : Expr → Bool) (ho : Decides E o) (t : ParseState) (m : Path)
    (hm : ReadToEnd E t m) (body : List Stmt) (hsrc : E.source m = some body) (p : Path) :
    kindAt t m p = lastKind (kindsDeclaredAll o [] body) p := by
  obtain ⟨k, s, scope, u, h1, h2, h3⟩ := hm
  rw [← parse_kinds ho h1 hsrc h2 p, kindAt, kindAt, h3.kinds]

/-- The definitions of a module that was read to its end are those recorded. -/
theorem C100_nodes (E : StubFiles) (o : Expr → Bool) (ho : Decides E o) (t : ParseState) (m : Path)
    (hm : ReadToEnd E t m) (body : List Stmt) (hsrc : E.source m = some body) (p : Path)
    (hp : p ∉ classPathsAll o [] body) : nodesAt t m p = declaredAt (declaredAll o [] body) p := by
  obtain ⟨k, s, scope, u, h1, h2, h3⟩ := hm
  rw [← parse_nodes ho h1 hsrc h2 hp, nodesAt, nodesAt, h3.nodes]

/-- **C100**, which modules: one that is not read before its turn comes is read to its end, unless
reading the stubs fails as a whole. -/
theorem C100_in_turn (E : StubFiles) (n : Nat) (before after : List Path) (m : Path) (t : ParseState)
    (h : parseAll E n (before ++ m :: after) {} = (.ok (), t))
    (hm : m ∉ (parseAll E n before {}).2.visited) : ReadToEnd E t m :=
  parseAll_readToEnd h hm

/-- **C100**, which modules: any module that was asked for was read to its end, or its reading was
broken off by an exception. -/
theorem C100_asked (E : StubFiles) (n : Nat) (modules : List Path) (m : Path)
    (hm : m ∈ (parseAll E n modules {}).2.visited) :
    ReadToEnd E (parseAll E n modules {}).2 m ∨ BrokenOff E (parseAll E n modules {}).2 m :=
  (parseAll_wasRead hm).either

/-- `x: int` replaced by `class x`, `class y` by `async def y`, `def z` in a branch. -/
def kindsFiles : StubFiles := filesOf [
  (["builtins"], []),
  (["a"], [.annAssign (tgt "x") (nm "int") none,
    .classDef "y" [] [] [.functionDef (defn "m")], .classDef "x" [] [] [],
    .functionDef { defn "y" with isAsync := true },
    .ifStmt (nm "no") [.assign [tgt "z"] (.constant (.int 1))] [.functionDef (defn "z")],
    .assign [tgt "w"] (nm "z")])]

example : ReadToEnd kindsFiles (parseAll kindsFiles 20 [["a"]] {}).2 ["a"] :=
  C100_in_turn kindsFiles 20 [] [] ["a"] _ rfl (by decide)

example : (([["x"], ["y"], ["y", "m"], ["z"], ["w"]] : List Path).map
      (kindAt (parseAll kindsFiles 20 [["a"]] {}).2 ["a"])) =
    [some .class_, some .asyncFunction, some .function, some .function, none] := rfl

/-- `b` of `brokenFiles` was broken off: `g` follows the class of which the base is not found. -/
example : BrokenOff brokenFiles (parseAll brokenFiles 20 [["a"], ["b"]] {}).2 ["b"] := by
  rcases C100_asked brokenFiles 20 [["a"], ["b"]] ["b"] (by decide) with h | h
  · have := C100_kinds brokenFiles sampleOutcome (filesOf_decides _) _ _ h _ rfl ["g"]
    exact absurd this (by decide)
  · exact h

/-! ### C101 -/

theorem stubs_of_source {E : StubFiles} {o : Expr → Bool} (ho : Decides E o) {rep : Atom → String}
    {n : Nat} {modules : List Path} {T : Stubs} (h : parseStubs E rep n modules = .ok T) {m : Path}
    (hm : ReadToEnd E (parseAll E n modules {}).2 m) (hspec : m ≠ ["__specializations"])
    {body : List Stmt} (hsrc : E.source m = some body) :
    (∀ p fs, p ∉ classPathsAll o [] body → fs ≠ [] →
      declaredAt (declaredAll o [] body) p = fs.map .functionDef → DefinedBy T (m, p) fs) ∧
    (∀ p kind, lastKind (kindsDeclaredAll o [] body) p = some kind →
      DefinedIn T.toTables m p ∧ ∃ kinds, T.nodesKinds.lookup m = some kinds ∧
        kinds.lookup p = some kind) := by
  obtain ⟨s, t, h1, h2, h3⟩ := parseStubs_ok h
  have hs : (parseAll E n modules {}).2 = s := congrArg Prod.snd h1
  have ht : (processBases ⟨E.order, E.order_perm⟩ rep n s).2 = t := congrArg Prod.snd h2
  subst h3
  have hA := processBases_aside (o := ⟨E.order, E.order_perm⟩) rep n s
  rw [ht] at hA
  rw [hs] at hm
  constructor
  · intro p fs hp hne hfs
    have hn := C100_nodes E o ho s m hm body hsrc p hp
    rw [hfs] at hn
    unfold nodesAt at hn
    cases hl : s.nodes.lookup m with
    | none =>
      rw [hl] at hn
      cases fs with
      | nil => exact absurd rfl hne
      | cons f fs => cases hn
    | some nodes =>
      rw [hl, Option.getD_some] at hn
      cases hp' : nodes.lookup p with
      | none =>
        rw [hp'] at hn
        cases fs with
        | nil => exact absurd rfl hne
        | cons f fs => cases hn
      | some l =>
        rw [hp', Option.getD_some] at hn
        exact ⟨nodes, (hA.nodes m hspec).trans hl, by rw [hp', hn]⟩
  · intro p kind hk
    have hn := C100_kinds E o ho s m hm body hsrc p
    rw [hk] at hn
    unfold kindAt at hn
    cases hl : s.kinds.lookup m with
    | none => rw [hl] at hn; cases hn
    | some kinds =>
      rw [hl, Option.getD_some] at hn
      have hd : DefinedAt (parseAll E n modules {}).2 m p :=
        C40_recorded_defined E n modules m p (.inr ⟨kinds, kind, by rw [hs]; exact hl, hn⟩)
      rw [hs] at hd
      obtain ⟨scope, hd1, hd2⟩ := hd
      exact ⟨⟨scope, (hA.definitions m hspec).trans hd1, hd2⟩, kinds,
        (hA.kinds m hspec).trans hl, hn⟩

theorem kind_of_functions {o : Expr → Bool} {body : List Stmt} {p : Path} {fs : List FunctionDef}
    (hp : p ∉ classPathsAll o [] body) (hne : fs ≠ [])
    (hfs : declaredAt (declaredAll o [] body) p = fs.map .functionDef) :
    ∃ kind, lastKind (kindsDeclaredAll o [] body) p = some kind ∧ kind ≠ .class_ := by
  obtain ⟨f, fs, rfl⟩ := List.exists_cons_of_ne_nil hne
  have hmem : (p, Stmt.functionDef f) ∈ declaredAll o [] body := by
    have : Stmt.functionDef f ∈ declaredAt (declaredAll o [] body) p := by rw [hfs]; simp
    obtain ⟨⟨q, node⟩, hx, e⟩ := List.mem_map.1 this
    obtain ⟨h1, h2⟩ := List.mem_filter.1 hx
    have : q = p := by simpa using h2
    subst this
    dsimp only at e
    subst e
    exact h1
  obtain ⟨kind, hk⟩ := lastKind_some (kinds_of_declaredAll o [] body p f hmem)
  exact ⟨kind, hk, fun e => hp (classes_of_kindsAll o [] body p (lastKind_mem (e ▸ hk)))⟩

section

variable (W : World) (n k : Nat) (modules : List Path) (index : Index)
  (h : indexModules W n modules = .ok index) (R : Runtime)
  (hs : supportedPaths R.stubs.toTables k index = .ok R.index) (hd : R.depth ≠ 0) (hk : k ≠ 0)
  -- the stubs are read from source files
  (E : StubFiles) (o : Expr → Bool) (ho : Decides E o) (rep : Atom → String) (depth : Nat)
  (stubModules : List Path) (hread : parseStubs E rep depth stubModules = .ok R.stubs)
  -- the object is found where it has been defined
  (m : Path) (classes : List String) (name : String) (v : Value)
  (home : AtHome W modules m classes name v)
  -- it is the callable asked about
  (f : Fn) (hf : f.named = W.named v) (hhas : R.has f (m, classes ++ [name]) = true)
  -- other places at which it is found lead there
  (hothers : ∀ place ∈ listed index (m, classes ++ [name]), R.has f place = true →
    R.resolve place.1 [] place.2 = .ok (m, classes ++ [name]) ∨
      R.resolve place.1 [] place.2 = .error .objectNotFound)
  -- the source of its module
  (hend : ReadToEnd E (parseAll E depth stubModules {}).2 m) (hspec : m ≠ ["__specializations"])
  (body : List Stmt) (hsrc : E.source m = some body)

include h hs hd hk hread ho home hf hhas hothers hend hspec hsrc in
/-- Nothing but the own stub is looked at. -/
theorem own_paths (fs : List FunctionDef) (hne : fs ≠ [])
    (hnc : classes ++ [name] ∉ classPathsAll o [] body)
    (hfs : declaredAt (declaredAll o [] body) (classes ++ [name]) = fs.map .functionDef) :
    toQualifiedPaths R f = .ok [(m, classes ++ [name])] := by
  obtain ⟨kind, hlast, hnk⟩ := kind_of_functions hnc hne hfs
  obtain ⟨hnodes, hkinds⟩ := stubs_of_source ho hread hend hspec hsrc
  obtain ⟨hdef, kinds, h1, h2⟩ := hkinds _ _ hlast
  obtain ⟨ns, via, hns, hl, hvia⟩ := home.found
  have hplace := C98_own_place W n modules index h m home.module ns hns classes name v via hl hvia
    home.parts home.names home.defined
  have hq : qualifiedPathFrom f.named = .ok (m, classes ++ [name]) := by
    rw [hf, C97_named m _ name _ home.parts home.names home.defined, steps_classes]
  have hr := resolveQualifiedPaths_own h hs hd hk home.parts.1 hq hplace hhas hdef hothers
  unfold toQualifiedPaths
  rw [hr]
  show (getItem R.stubs.nodesKinds m >>= _) = _
  rw [show getItem R.stubs.nodesKinds m = .ok kinds by simp [getItem, h1]]
  show (getItem kinds (classes ++ [name]) >>= _) = _
  rw [show getItem kinds (classes ++ [name]) = .ok kind by simp [getItem, h2]]
  show (if (kind == NodeKind.class_) = true then _ else _) = _
  rw [if_neg (by simpa using hnk)]
  rfl

include h hs hd hk hread ho home hf hhas hothers hend hspec hsrc in
/-- **C101**, functions: the stubs consulted for a function, method or builtin of a library module are
exactly the definitions that the source of the module's stub has for it (in the branches taken), in
order. -/
theorem C101_function (fs : List FunctionDef) (hne : fs ≠ [])
    (hnc : classes ++ [name] ∉ classPathsAll o [] body)
    (hfs : declaredAt (declaredAll o [] body) (classes ++ [name]) = fs.map .functionDef) :
    LooksAt R false f (m, classes ++ [name]) ∧ DefinedBy R.stubs (m, classes ++ [name]) fs :=
  ⟨⟨[], own_paths W n k modules index h R hs hd hk E o ho rep depth stubModules hread m classes name v home
      f hf hhas hothers hend hspec body hsrc fs hne hnc hfs⟩,
    (stubs_of_source ho hread hend hspec hsrc).1 _ _ hnc hne hfs⟩

include h hs hd hk hread ho home hf hhas hothers hend hspec hsrc in
/-- **C101**, classes: the stubs consulted for a class of a library module are exactly the definitions
of `__init__` that the source of the module's stub has in it, if there are any. -/
theorem C101_class (fs : List FunctionDef) (hne : fs ≠ [])
    (hnc : classes ++ [name] ++ ["__init__"] ∉ classPathsAll o [] body)
    (hfs : declaredAt (declaredAll o [] body) (classes ++ [name] ++ ["__init__"])
      = fs.map .functionDef)
    (kind : NodeKind) (hlast : lastKind (kindsDeclaredAll o [] body) (classes ++ [name]) = some kind) :
    LooksAt R true f (m, classes ++ [name] ++ ["__init__"]) ∧
      DefinedBy R.stubs (m, classes ++ [name] ++ ["__init__"]) fs := by
  obtain ⟨hnodes, hkinds⟩ := stubs_of_source ho hread hend hspec hsrc
  obtain ⟨hdef, _⟩ := hkinds _ _ hlast
  have hby := hnodes _ _ hnc hne hfs
  refine ⟨?_, hby⟩
  obtain ⟨ns, via, hns, hl, hvia⟩ := home.found
  have hplace := C98_own_place W n modules index h m home.module ns hns classes name v via hl hvia
    home.parts home.names home.defined
  have hq : qualifiedPathFrom f.named = .ok (m, classes ++ [name]) := by
    rw [hf, C97_named m _ name _ home.parts home.names home.defined, steps_classes]
  have hr := resolveQualifiedPaths_own h hs hd hk home.parts.1 hq hplace hhas hdef hothers
  refine ⟨_, [(m, classes ++ [name] ++ ["__init__"])], hr, ⟨?_, trivial⟩, List.mem_singleton.2 rfl,
    fun b hb => .inl (List.mem_singleton.1 hb)⟩
  obtain ⟨nodes, h1, h2⟩ := hby
  obtain ⟨j, hj⟩ : ∃ j, R.depth = j + 1 := ⟨R.depth - 1, by omega⟩
  unfold classBuilder
  rw [hj, builderSearch, h1]
  dsimp only at h2 ⊢
  rw [h2]
  rfl

include h hs hd hk hread ho home hf hhas hothers hend hspec hsrc in
/-- **C101**, signatures of functions: the signature of a function, method or builtin of a library
module that is not bound to an instance is the one given by these definitions. -/
theorem C101_signature (fs : List FunctionDef) (hne : fs ≠ [])
    (hnc : classes ++ [name] ∉ classPathsAll o [] body)
    (hfs : declaredAt (declaredAll o [] body) (classes ++ [name]) = fs.map .functionDef)
    (hev : ∀ m parent e, R.ev m parent e ≠ .error .signatureNotFound)
    (callable : Callable) (raw : Except PyErr RawSig) (hc : LookedUpAs callable f raw) (s : Sig) :
    fromCallable R callable = .ok s ↔ GivenBy R f (m, classes ++ [name]) fs s := by
  obtain ⟨hq, hby⟩ := C101_function W n k modules index h R hs hd hk E o ho rep depth stubModules hread
    m classes name v home f hf hhas hothers hend hspec body hsrc fs hne hnc hfs
  obtain ⟨hfound, hgiven⟩ := fromFn_found hd hq hby hne hev
  rw [hc.fromCallable R, ← hgiven s]
  cases hfn : fromFn R f with
  | ok s' => exact Iff.rfl
  | error e =>
    cases e <;> first | exact Iff.rfl | exact absurd hfn hfound

include h hs hd hk hread ho home hf hhas hothers hend hspec hsrc in
/-- **C101**, signatures of classes: the signature of a class of a library module is the one given by
the definitions of `__init__`. -/
theorem C101_class_signature (fs : List FunctionDef) (hne : fs ≠ [])
    (hnc : classes ++ [name] ++ ["__init__"] ∉ classPathsAll o [] body)
    (hfs : declaredAt (declaredAll o [] body) (classes ++ [name] ++ ["__init__"])
      = fs.map .functionDef)
    (kind : NodeKind) (hlast : lastKind (kindsDeclaredAll o [] body) (classes ++ [name]) = some kind)
    (hev : ∀ m parent e, R.ev m parent e ≠ .error .signatureNotFound)
    (l : Labels) (raw : Except PyErr RawSig) (hl : f = .ofClass l) (s : Sig) :
    fromCallable R (.cls l raw) = .ok s ↔
      GivenBy R f (m, classes ++ [name] ++ ["__init__"]) fs s := by
  obtain ⟨hq, hby⟩ := C101_class W n k modules index h R hs hd hk E o ho rep depth stubModules hread
    m classes name v home f hf hhas hothers hend hspec body hsrc fs hne hnc hfs kind hlast
  subst hl
  exact fromClass_found hd hq hby hne hev

include h hs hd hk hread ho home hf hhas hothers hend hspec hsrc in
/-- **C95** from the source on: if a function, method or builtin of a library module is called in the
end, then the calls accepted are calls of one of the definitions in the source of the module's stub.
Missing: what is missing in `C95_declared_partial`. -/
theorem C95_from_source_partial (fs : List FunctionDef) (hne : fs ≠ [])
    (hnc : classes ++ [name] ∉ classPathsAll o [] body)
    (hfs : declaredAt (declaredAll o [] body) (classes ++ [name]) = fs.map .functionDef)
    (hev : ∀ m parent e, R.ev m parent e ≠ .error .signatureNotFound)
    (c : Callable) (args A : List Obj) (kwargs K : Kwargs) (hr : CallsOn c args kwargs false f A K)
    (hplain : ∀ d ∈ fs, d.args.posonlyargs = [] ∧ Parsed d.args)
    (hfirst : ∀ d ∈ fs, ∀ role, HasRole R d f m classes role → role ≠ .function → d.args.args ≠ [])
    (hnd : (keys kwargs).Nodup)
    (hcol : ∀ d ∈ fs, ∀ role ps new, HasRole R d f m classes role →
      Pointwise Declares (formals d.args) ps →
      ¬ KwCollides ps (callArgs new A role).length (keys K))
    (s : Sig) (hsig : fromCallable R c = .ok s) (hset : s.allSet args kwargs = true) :
    ∃ d ∈ fs, ∃ role, HasRole R d f m classes role ∧
      ∀ ps new, Pointwise Declares (formals d.args) ps → Accepts ps (callArgs new A role) K := by
  obtain ⟨hq, hby⟩ := C101_function W n k modules index h R hs hd hk E o ho rep depth stubModules hread
    m classes name v home f hf hhas hothers hend hspec body hsrc fs hne hnc hfs
  have e : (m, classes ++ [name]).2.dropLast = classes := List.dropLast_concat
  have := C95_declared_partial R c args A kwargs K false f _ fs s hd hev hr hq hby hne hplain
  rw [e] at this
  exact this hfirst hnd hcol hsig hset

include h hs hd hk hread ho home hf hhas hothers hend hspec hsrc in
/-- **C96** from the source on: if a function, method or builtin of a library module is called in the
end, then the calls that one of the definitions in the source of the module's stub allows are accepted.
Missing: what is missing in `C96_accepted_partial`. -/
theorem C96_from_source_partial (fs : List FunctionDef) (hne : fs ≠ [])
    (hnc : classes ++ [name] ∉ classPathsAll o [] body)
    (hfs : declaredAt (declaredAll o [] body) (classes ++ [name]) = fs.map .functionDef)
    (hev : ∀ m parent e, R.ev m parent e ≠ .error .signatureNotFound)
    (c : Callable) (args A : List Obj) (kwargs K : Kwargs) (hr : CallsOn c args kwargs false f A K)
    (hplain : ∀ d ∈ fs, d.args.posonlyargs = [] ∧ Parsed d.args) (hnd : (keys kwargs).Nodup)
    (s : Sig) (hsig : fromCallable R c = .ok s) (d : FunctionDef) (hdm : d ∈ fs) (role : Role)
    (ps : List Param) (new : Obj) (hrole : HasRole R d f m classes role)
    (hfirst : role ≠ .function → d.args.args ≠ [])
    (hA : role = .method ∨ role = .classMethod → A ≠ [])
    (hps : Pointwise Declares (formals d.args) ps)
    (hno : ∀ p ∈ ps, isPositional p = true → p.name ∉ keys K)
    (hacc : Accepts ps (callArgs new A role) K) : s.allSet args kwargs = true := by
  obtain ⟨hq, hby⟩ := C101_function W n k modules index h R hs hd hk E o ho rep depth stubModules hread
    m classes name v home f hf hhas hothers hend hspec body hsrc fs hne hnc hfs
  have e : (m, classes ++ [name]).2.dropLast = classes := List.dropLast_concat
  have := C96_accepted_partial R c args A kwargs K false f _ fs s hd hev hr hq hby hne hplain hnd hsig d
    hdm role ps new
  rw [e] at this
  exact this hrole hfirst hA hps hno hacc

end

/-! ### Samples -/

/-- `def __init__(self, x)`. -/
def defInit : FunctionDef := { name := "__init__", args := { args := [⟨"self", none⟩, intArg "x"] } }

/-- The stub of `m` defines `f` and `C`; `g` is another name of `f`. -/
def homeFiles : StubFiles := filesOf [
  (["builtins"], [.classDef "object" [] [] [.functionDef (defn "__new__")]]),
  (["m"], [.functionDef defF, .classDef "C" [nm "object"] [] [.functionDef defInit],
    .assign [tgt "g"] (nm "f")])]

/-- The tables read from these files. -/
def homeStubs : Stubs :=
  match parseStubs homeFiles (fun _ => "") 20 [["m"]] with
  | .ok T => T
  | .error _ => stubsSample

theorem homeStubs_read : parseStubs homeFiles (fun _ => "") 20 [["m"]] = .ok homeStubs := rfl

/-- The runtime with these tables and the index of `ownWorld`. -/
def homeRuntime : Runtime :=
  { runtimeSample with
    stubs := homeStubs
    index := [(["m"], [(["f"], [(["m"], ["f"]), (["m"], ["g"])]), (["C"], [(["m"], ["C"])])])] }

theorem homeStubs_end : ReadToEnd homeFiles (parseAll homeFiles 20 [["m"]] {}).2 ["m"] :=
  C100_in_turn homeFiles 20 [] [] ["m"] _ rfl (by decide)

theorem ownWorld_f : AtHome ownWorld [["m"]] ["m"] [] "f" (.other 1) :=
  ⟨by simp, ⟨0, [], rfl, .other (by simp [ownWorld]), List.nodup_nil⟩, ⟨by simp, by decide⟩,
    fun x hx => by cases List.mem_singleton.1 hx; decide, .function⟩

theorem ownWorld_C : AtHome ownWorld [["m"]] ["m"] [] "C" (.cls 2) :=
  ⟨by simp, ⟨0, [2], rfl, .cls (by simp [ownWorld]), by simp⟩, ⟨by simp, by decide⟩,
    fun x hx => by cases List.mem_singleton.1 hx; decide, .cls⟩

/-- The hypotheses of `C101_signature` hold for `f`. -/
example (raw : Except PyErr RawSig) (s : Sig) :
    fromCallable homeRuntime (.function labF raw) = .ok s ↔
      GivenBy homeRuntime fnF (["m"], ["f"]) [defF] s :=
  C101_signature ownWorld 3 5 [["m"]] _ ownIndex homeRuntime rfl (by decide) (by decide) homeFiles
    sampleOutcome (filesOf_decides _) (fun _ => "") 20 [["m"]] homeStubs_read ["m"] [] "f" (.other 1)
    ownWorld_f fnF rfl rfl
    (fun place hp _ => by
      have hp : place = (["m"], ["f"]) ∨ place = (["m"], ["g"]) := by simpa [listed] using hp
      rcases hp with rfl | rfl
      · exact .inl rfl
      · exact .inl rfl)
    homeStubs_end (by decide) _ rfl [defF] (by simp) (by decide) rfl (fun _ _ => evalSample_found) _ raw
    (.function labF raw) s

/-- The hypotheses of `C101_class_signature` hold for `C`. -/
example (raw : Except PyErr RawSig) (s : Sig) :
    fromCallable homeRuntime (.cls labC raw) = .ok s ↔
      GivenBy homeRuntime clsC (["m"], ["C", "__init__"]) [defInit] s :=
  C101_class_signature ownWorld 3 5 [["m"]] _ ownIndex homeRuntime rfl (by decide) (by decide) homeFiles
    sampleOutcome (filesOf_decides _) (fun _ => "") 20 [["m"]] homeStubs_read ["m"] [] "C" (.cls 2)
    ownWorld_C clsC rfl rfl
    (fun place hp _ => by
      have hp : place = (["m"], ["C"]) ∨ place = (["m"], ["D"]) := by
        simpa [listed, List.lookup] using hp
      rcases hp with rfl | rfl
      · exact .inl rfl
      · exact .inr rfl)
    homeStubs_end (by decide) _ rfl [defInit] (by simp) (by decide) rfl .class_ rfl
    (fun _ _ => evalSample_found) labC raw rfl s

end Paradigm.Props
