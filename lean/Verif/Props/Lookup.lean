import Verif.Lemmas.Twice
import Verif.Props.Definitions

/-!
# C28–C31, C60, C63, C64: `signature_from_callable`
-/

namespace Paradigm.Props

open Spec PyCall

/-! ### Samples -/

/-- A function that is not in the stubs, with the given `inspect` signature. -/
def plainFunction (raw : RawSig) : Callable := .function { module_ := .none, qualname := "f" } (.ok raw)

/-- `g(a, **kw)` as `inspect` reports it. -/
def rawG : RawSig :=
  { parameters := [{ name := "a", kind := .positionalOrKeyword, annotation := some int_ },
      { name := "kw", kind := .variadicKeyword, annotation := some int_ }],
    returns := some int_ }

example : fromCallable runtimeSample (plainFunction rawG) = .ok (.plain sigG) := rfl

/-! ### C63 -/

/-- **C63.** Whatever `signature_from_callable` returns could have been built through the public
constructors. -/
theorem C63_legal (R : Runtime) (c : Callable) (s : Sig) (h : fromCallable R c = .ok s) :
    Constructible s :=
  fromCallable_constructible R c s h

example : fromCallable runtimeSample (.partial_ (plainFunction rawF) [one] [("c", two)]) =
    .ok (.plain ⟨[.optional int_ (some one) .positionalOrKeyword "b",
      .optional int_ none .variadicPositional "args", .optional int_ (some two) .keywordOnly "c",
      .optional int_ none .variadicKeyword "kw"], int_⟩) := rfl

/-! ### C28 -/

/-- **C28**, full statement: a partial has the signature of its function, bound; a nested partial
that of the flattened one. -/
def C28_statement : Prop :=
  (∀ (R : Runtime) (c : Callable) (s : Sig) (a : List Obj) (k : Kwargs), (keys k).Nodup →
    fromCallable R c = .ok s → fromCallable R (.partial_ c a k) = s.bind a k) ∧
  ∀ (R : Runtime) (c : Callable) (a r : List Obj) (k rk : Kwargs) (u : Sig), (keys k).Nodup →
    (keys rk).Nodup →
    (fromCallable R (.partial_ (.partial_ c a k) r rk) = .ok u ↔
      fromCallable R (.partial_ c (a ++ r) (merge k rk)) = .ok u)

/-- **C28** is violated by the code: for `g(a, **kw)`, `partial(partial(g, 1), a=2)` gets a signature
though it cannot be called, the flattened one raises. -/
theorem C28_refuted : ¬ C28_statement := by
  intro h
  have := (h.2 runtimeSample (plainFunction rawG) [one] [] [] [("a", two)] (.plain ⟨[pKw], int_⟩)
    (by simp [keys]) (by simp [keys])).1 rfl
  have he : fromCallable runtimeSample (.partial_ (plainFunction rawG) ([one] ++ [])
    (merge [] [("a", two)])) = .error (.typeError "multiple values") := rfl
  rw [he] at this
  cases this

/-- **C28**, second violation: the default of a keyword bound twice. Python uses the later value,
and so does the flattened partial, the nested one keeps the earlier. -/
theorem C28_refuted_rebinding :
    fromCallable runtimeSample
        (.partial_ (.partial_ (plainFunction rawG) [] [("a", one)]) [] [("a", two)]) =
      .ok (.plain ⟨[.optional int_ (some one) .keywordOnly "a", pKw], int_⟩) ∧
    fromCallable runtimeSample (.partial_ (plainFunction rawG) [] (merge [("a", one)] [("a", two)])) =
      .ok (.plain ⟨[.optional int_ (some two) .keywordOnly "a", pKw], int_⟩) := ⟨rfl, rfl⟩

/-- **C28**, what holds: the first half; the second half when no keyword is bound twice and none
repeats, in the presence of `**kwargs`, the name of a parameter filled positionally. -/
theorem C28_partial_is_bind_partial (R : Runtime) (c : Callable) :
    (∀ (s : Sig) (a : List Obj) (k : Kwargs), fromCallable R c = .ok s →
      fromCallable R (.partial_ c a k) = s.bind a k) ∧
    (∀ e a k, fromCallable R c = .error e → fromCallable R (.partial_ c a k) = .error e) ∧
    ∀ (s : Sig) (a r : List Obj) (k rk : Kwargs) (u : Sig), fromCallable R c = .ok s →
      (keys (k ++ rk)).Nodup →
      (∀ o ∈ flattenSignature s,
        ¬ Collides o.parameters (a.length + r.length) (keys (k ++ rk))) →
      (fromCallable R (.partial_ (.partial_ c a k) r rk) = .ok u ↔
        fromCallable R (.partial_ c (a ++ r) (merge k rk)) = .ok u) := by
  have key : ∀ (c : Callable) (s : Sig) (a : List Obj) (k : Kwargs), fromCallable R c = .ok s →
      fromCallable R (.partial_ c a k) = s.bind a k := by
    intro c s a k h
    rw [fromCallable, h]; rfl
  refine ⟨key c, fun e a k h => by rw [fromCallable, h]; rfl, ?_⟩
  intro s a r k rk u h hnd hc
  rw [merge_disjoint hnd, key c s _ _ h, ← sigBind_twice (C63_legal R c s h) hnd hc u, fromCallable,
    key c s a k h]
  exact except_bind_ok

example : fromCallable runtimeSample (plainFunction rawF) = .ok (.plain sigF) ∧
    (keys ([] ++ [("c", two)])).Nodup ∧
    (∀ o ∈ flattenSignature (.plain sigF),
      ¬ Collides o.parameters ([one].length + [two].length) (keys ([] ++ [("c", two)]))) := by
  refine ⟨rfl, by decide, ?_⟩
  intro o ho
  cases List.mem_singleton.1 ho
  rintro ⟨_, p, hp, hk⟩
  have : filledBy sigF.parameters ([one].length + [two].length) =
    [.required int_ .positionalOrKeyword "a",
      .optional int_ (some one) .positionalOrKeyword "b"] := rfl
  rw [this] at hp
  simp only [List.mem_cons, List.not_mem_nil, or_false] at hp
  rcases hp with rfl | rfl <;> revert hk <;> decide

/-! ### C29 -/

/-- **C29**, the part after the stubs were read (missing: that the tables hold the definitions of
the stub file in their order). If the stubs declare the callable by `n` function definitions, its signature has
exactly the signatures of these, in order; one definition gives a plain signature. -/
theorem C29_overloads_partial (R : Runtime) (value : Fn) (m object : Path) (others : List QPath)
    (nodes : Dict Path (List Stmt)) (fs : List FunctionDef) (hd : R.depth ≠ 0)
    (hq : toQualifiedPaths R value = .ok ((m, object) :: others))
    (hm : R.stubs.rawAstNodes.lookup m = some nodes)
    (ho : nodes.lookup object = some (fs.map .functionDef)) (s : Sig)
    (hno : ∀ f ∈ fs, fromFunctionDef R f value m object.dropLast ≠ .error .signatureNotFound) :
    fromFn R value = .ok s ↔ ∃ ss : List PlainSig,
      Pointwise (fun f p => fromFunctionDef R f value m object.dropLast = .ok (.plain p)) fs ss ∧
      (∀ p, ss = [p] → s = .plain p) ∧ (2 ≤ ss.length → s = .overloaded ss) ∧ ss ≠ [] := by
  have hstmt : ∀ f, fromStatement R R.depth (.functionDef f) value m object.dropLast =
      fromFunctionDef R f value m object.dropLast := by
    obtain ⟨n, hn⟩ : ∃ n, R.depth = n + 1 := ⟨R.depth - 1, by omega⟩
    intro f
    rw [hn]
    rfl
  have hfn : fromFn R value = fromPaths R value ((m, object) :: others) := by
    rw [fromFn, hq]; rfl
  rw [hfn, fromPaths]
  cases fs with
  | nil =>
    have : loadAstNodes R m object = .error .assertionError := by
      simp [loadAstNodes, hm, ho]
    rw [this]
    constructor
    · intro h; cases h
    · rintro ⟨ss, h, _, _, hne⟩; exact absurd h.nil_left hne
  | cons f fs =>
    have hload : loadAstNodes R m object = .ok ((f :: fs).map .functionDef) := by
      simp [loadAstNodes, hm, ho]
    rw [hload]
    simp only []
    have hcollapse : ∀ {ss : List PlainSig}, ss ≠ [] → ((∀ p, ss = [p] → s = .plain p) ∧
        (2 ≤ ss.length → s = .overloaded ss) ↔ collapse ss = some s) := by
      intro ss hne
      match ss with
      | [] => exact absurd rfl hne
      | [p] => simp [collapse, eq_comm]
      | a :: b :: l => simp [collapse, eq_comm]
    have hplain : ∀ l : List PlainSig, fromSignatures (l.map .plain) = .ok s ↔
        collapse l = some s := by
      intro l
      rw [fromSignatures_eq]
      have : members (l.map .plain) = l := by
        induction l with
        | nil => rfl
        | cons a l ih => rw [List.map_cons, members, ih]
      rw [this]
      cases collapse l <;> simp
    constructor
    · intro h
      split at h
      · rename_i he
        obtain ⟨node, hnode, he⟩ := mapExcept_error he
        obtain ⟨f', hf', rfl⟩ := List.mem_map.1 hnode
        rw [hstmt] at he
        exact absurd he (hno f' hf')
      · cases h
      · rename_i sigs hs
        have hpt := (mapExcept_pointwise.1 hs).of_map_left
        obtain ⟨ss, rfl⟩ : ∃ ss : List PlainSig, sigs = ss.map .plain := by
          have : ∀ x ∈ sigs, ∃ p, x = Sig.plain p := by
            intro x hx
            obtain ⟨f', _, hf'⟩ := hpt.exists_left hx
            rw [hstmt] at hf'
            obtain ⟨ps, r, _, _, _, rfl⟩ := fromFunctionDef_ok.1 hf'
            exact ⟨_, rfl⟩
          clear hpt hs h
          induction sigs with
          | nil => exact ⟨[], rfl⟩
          | cons x l ih =>
            obtain ⟨p, rfl⟩ := this _ List.mem_cons_self
            obtain ⟨ss, rfl⟩ := ih fun y hy => this y (List.mem_cons_of_mem _ hy)
            exact ⟨p :: ss, rfl⟩
        have hpt' : Pointwise (fun f p => fromFunctionDef R f value m object.dropLast =
            .ok (.plain p)) (f :: fs) ss :=
          (hpt.flip.of_map_left).flip.imp fun f' _ p _ h => by rw [← hstmt]; exact h
        have hne : ss ≠ [] := by
          rintro rfl
          exact absurd hpt'.nil_right (by simp)
        have := (hcollapse hne).2 ((hplain ss).1 h)
        exact ⟨ss, hpt', this.1, this.2, hne⟩
    · rintro ⟨ss, hpt, h1, h2, hne⟩
      have : mapExcept (fun node => fromStatement R R.depth node value m object.dropLast)
          ((f :: fs).map .functionDef) = .ok (ss.map .plain) := by
        rw [mapExcept_pointwise]
        refine Pointwise.map_left ?_
        have h' : Pointwise (fun (p : PlainSig) (f : FunctionDef) =>
            fromStatement R R.depth (.functionDef f) value m object.dropLast = .ok (.plain p))
            ss (f :: fs) := hpt.flip.imp fun p _ f' _ h => by rw [hstmt]; exact h
        exact (Pointwise.map_left (r := fun (p : Sig) (f : FunctionDef) =>
          fromStatement R R.depth (.functionDef f) value m object.dropLast = .ok p) h').flip
      rw [this]
      exact (hplain ss).2 ((hcollapse hne).1 ⟨h1, h2⟩)

/-- Two overloads of `m.f`. -/
def overloadedRuntime : Runtime :=
  { runtimeSample with
    stubs := { stubsSample with
      rawAstNodes := [(["m"], [(["f"], [.functionDef defF, .functionDef defG])])] } }

example : toQualifiedPaths overloadedRuntime fnF = .ok [(["m"], ["f"])] ∧
    fromFn overloadedRuntime fnF = .ok (.overloaded [⟨[
      .required int_ .positionalOnly "a", .optional int_ (some one) .positionalOnly "b",
      .optional int_ none .variadicPositional "args", .required int_ .keywordOnly "c",
      .optional int_ none .keywordOnly "d", .optional int_ none .variadicKeyword "kw"], int_⟩,
      ⟨[.required int_ .positionalOnly "a", .optional int_ none .variadicKeyword "kw"],
        .form anyForm⟩]) := ⟨rfl, rfl⟩

/-! ### C30 -/

/-- **C30**, full statement. -/
def C30_statement : Prop :=
  ∀ (R : Runtime) (q : QPath),
    (∀ r, Constructs R.stubs q r → Eventually R fun R => classBuilder R q = .ok r) ∧
    (Lacks R.stubs q →
      Eventually R fun R => classBuilder R q = .ok (["builtins"], ["object", "__new__"]))

/-- `class B: def __init__(self): ...`, `class D(B): ...` -/
def derivedStubs : Stubs where
  definitions := [(["m"], .mk [("B", .mk [("__init__", .mk [])]), ("D", .mk [])])]
  references := [(["m"], [])]
  submodules := []
  superclasses := [(["m"], [(["D"], [(["m"], ["B"])])])]
  rawAstNodes := [(["m"], [(["B", "__init__"], [.functionDef { name := "__init__", args := {} }])])]
  nodesKinds := []

def derivedRuntime : Runtime := { stubs := derivedStubs, depth := 10, ev := fun _ _ => evalSample }

theorem not_declared {S : Stubs} {q : QPath} {nodes : Dict Path (List Stmt)}
    (h1 : S.rawAstNodes.lookup q.1 = some nodes) (h2 : nodes.lookup q.2 = none) :
    ¬ Declared S q := by
  rintro ⟨n, s, h, h'⟩
  rw [h1, Option.some.injEq] at h
  subst h
  rw [h2] at h'
  cases h'

/-- **C30** is violated by the code: the inherited `B.__init__` is missed, `object.__new__` is
taken. -/
theorem C30_refuted : ¬ C30_statement := by
  intro h
  obtain ⟨n, hn⟩ := (h derivedRuntime (["m"], ["D"])).1 (["m"], ["B", "__init__"])
    (.inherited _ [] (["m"], ["B"]) [] _ ⟨_, rfl⟩ (not_declared rfl rfl) (not_declared rfl rfl) rfl
      (by simp) (.init _ ⟨_, _, rfl, rfl⟩))
  have hk : classBuilder { derivedRuntime with depth := n + 2 } (["m"], ["D"]) =
    .ok (["m"], ["B", "__init__"]) := hn (n + 2) (by omega)
  have ho : classBuilder { derivedRuntime with depth := n + 2 } (["m"], ["D"]) =
    .ok objectBuilder := rfl
  have he : (Except.ok objectBuilder : Except PyErr QPath) = .ok (["m"], ["B", "__init__"]) :=
    ho.symm.trans hk
  simp [objectBuilder] at he

/-- `class C(n.B)` in `m` while `n` has another class `C` with an `__init__`. -/
def namesakeRuntime : Runtime where
  stubs := {
    definitions := []
    references := []
    submodules := []
    superclasses := [(["m"], [(["C"], [(["n"], ["B"])])])]
    rawAstNodes := [(["m"], []), (["n"], [(["C", "__init__"], [.functionDef
      { name := "__init__", args := {} }])])]
    nodesKinds := [] }
  depth := 10
  ev := fun _ _ => evalSample

/-- **C30**, second violation: the `__init__` of an unrelated class that has the same name in the
module of a base is taken. -/
theorem C30_refuted_namesake :
    Lacks namesakeRuntime.stubs (["m"], ["C"]) ∧
    classBuilder namesakeRuntime (["m"], ["C"]) = .ok (["n"], ["C", "__init__"]) := by
  refine ⟨.mk _ ⟨_, rfl⟩ (not_declared rfl rfl) (not_declared rfl rfl) ?_, rfl⟩
  intro b hb
  have : declaredBases namesakeRuntime.stubs (["m"], ["C"]) = [(["n"], ["B"])] := rfl
  rw [this] at hb
  cases List.mem_singleton.1 hb
  refine .mk _ ⟨_, rfl⟩ (not_declared rfl rfl) (not_declared rfl rfl) ?_
  intro b hb
  have : declaredBases namesakeRuntime.stubs (["n"], ["B"]) = [] := rfl
  rw [this] at hb
  cases hb

/-- **C30**, what holds: the claim when all inherited classes are namesakes (as `class X(base.X)`),
in particular for a constructor of the class itself. -/
theorem C30_constructor_partial (R : Runtime) (q : QPath)
    (hsame : ∀ a, Ancestor R.stubs q a → a.2 = q.2) :
    (∀ r, Constructs R.stubs q r → Eventually R fun R => classBuilder R q = .ok r) ∧
    (Lacks R.stubs q →
      Eventually R fun R => classBuilder R q = .ok (["builtins"], ["object", "__new__"])) := by
  have key : ∀ x, (∃ n, ∀ k, n ≤ k → builderSearch R q.2 k q = .ok x) →
      Eventually R fun R => classBuilder R q = .ok (x.getD objectBuilder) := by
    rintro x ⟨n, hn⟩
    refine ⟨n, fun k hk => ?_⟩
    show (builderSearch { R with depth := k } q.2 k q >>= fun found =>
      pure (found.getD objectBuilder)) = _
    rw [builderSearch_depth, hn k hk]
    rfl
  exact ⟨fun r h => key (some r) (builderSearch_constructs h hsame),
    fun h => key none (builderSearch_lacks h hsame)⟩

/-- A class with its own constructor: `__init__` is preferred to `__new__`, whatever is
inherited. -/
theorem C30_own_constructor (R : Runtime) (q : QPath) (hd : R.depth ≠ 0) :
    (Declared R.stubs (QPath.attr q "__init__") →
      classBuilder R q = .ok (QPath.attr q "__init__")) ∧
    (¬ Declared R.stubs (QPath.attr q "__init__") → Declared R.stubs (QPath.attr q "__new__") →
      classBuilder R q = .ok (QPath.attr q "__new__")) := by
  obtain ⟨n, hn⟩ : ∃ n, R.depth = n + 1 := ⟨R.depth - 1, by omega⟩
  constructor
  · intro h
    unfold classBuilder
    rw [hn, builderSearch_init h]; rfl
  · intro h h'
    unfold classBuilder
    rw [hn, builderSearch_new h h']; rfl

/-- `class C(n.C)` in `m`, `n.C` has `__new__`. -/
def wrappedRuntime : Runtime where
  stubs := {
    definitions := []
    references := []
    submodules := []
    superclasses := [(["m"], [(["C"], [(["n"], ["C"])])])]
    rawAstNodes := [(["m"], []), (["n"], [(["C", "__new__"], [.functionDef
      { name := "__new__", args := {} }])])]
    nodesKinds := [] }
  depth := 10
  ev := fun _ _ => evalSample

example : Constructs wrappedRuntime.stubs (["m"], ["C"]) (["n"], ["C", "__new__"]) ∧
    ∀ a, Ancestor wrappedRuntime.stubs (["m"], ["C"]) a → a.2 = ["C"] := by
  constructor
  · exact .inherited _ [] (["n"], ["C"]) [] _ ⟨_, rfl⟩ (not_declared rfl rfl) (not_declared rfl rfl)
      rfl (by simp) (.new _ (not_declared rfl rfl) ⟨_, _, rfl, rfl⟩)
  · intro a ha
    cases ha with
    | refl => rfl
    | step hb ha =>
      have : declaredBases wrappedRuntime.stubs (["m"], ["C"]) = [(["n"], ["C"])] := rfl
      rw [this] at hb
      cases List.mem_singleton.1 hb
      cases ha with
      | refl => rfl
      | step hb ha =>
        have : declaredBases wrappedRuntime.stubs (["n"], ["C"]) = [] := rfl
        rw [this] at hb
        cases hb

/-! ### C31 -/

/-- **C31**, full statement: a function gets a signature from its stub or the one `inspect` reports;
the internal condition never escapes. -/
def C31_statement : Prop :=
  (∀ (R : Runtime) (c : Callable), (∀ raw ∈ inspected c, raw ≠ .error .signatureNotFound) →
    fromCallable R c ≠ .error .signatureNotFound) ∧
  ∀ (R : Runtime) (l : Labels) (raw : RawSig) (t : Sig), fromRawSignature raw = .ok t →
    ∃ s, fromCallable R (.function l (.ok raw)) = .ok s ∧ (fromFn R (.ofFunction l) = .ok s ∨ s = t)

/-- The stub of `m.f` is `def f(a=1, /)`. -/
def slashRuntime : Runtime :=
  { runtimeSample with
    stubs := { stubsSample with
      rawAstNodes := [(["m"], [(["f"], [.functionDef
        { name := "f", args :=
          { posonlyargs := [⟨"a", none⟩], defaults := [.constant (.int 1)] } }])])] } }

/-- **C31** is violated by the code: for a function whose stub is `def f(a=1, /)` an
`AttributeError` escapes. -/
theorem C31_refuted : ¬ C31_statement := by
  intro h
  obtain ⟨s, hs, _⟩ := h.2 slashRuntime labF rawG (.plain sigG) rfl
  have : fromCallable slashRuntime (.function labF (.ok rawG)) = .error .attributeError := rfl
  rw [this] at hs
  cases hs

/-- **C31**, second violation: `KeyError` when a defined object has no recorded kind. -/
theorem C31_refuted_kind :
    fromCallable { runtimeSample with stubs := { stubsSample with nodesKinds := [(["m"], [])] } }
      (.function labF (.ok rawG)) = .error .keyError := rfl

/-- **C31**, third violation: `AssertionError` when the `__module__` of a function is neither a text
nor `None`, or that of a class is not a text. -/
theorem C31_refuted_module (R : Runtime) (qualname : String) (raw : RawSig) :
    fromCallable R (.function { module_ := .other, qualname } (.ok raw)) = .error .assertionError ∧
    fromCallable R (.cls { module_ := .none, qualname } (.ok raw)) = .error .assertionError :=
  ⟨rfl, rfl⟩

/-- **C31**, what holds (1): the internal condition never escapes. -/
theorem C31_not_found_never_escapes (R : Runtime) (c : Callable)
    (hraw : ∀ raw ∈ inspected c, raw ≠ .error .signatureNotFound) :
    fromCallable R c ≠ .error .signatureNotFound := by
  have hi : ∀ raw, raw ≠ .error .signatureNotFound →
      fromInspect raw ≠ .error .signatureNotFound := by
    intro raw hr h
    unfold fromInspect at h
    rcases except_bind_error.1 h with h | ⟨r, _, h⟩
    · exact hr h
    · obtain ⟨tag, h⟩ := fromRawSignature_error h
      cases h
  induction c with
  | builtin owner qualname obj raw =>
    intro h
    simp only [fromCallable] at h
    exact hi raw (hraw raw (by simp [inspected])) (orElse_notFound h)
  | function f raw =>
    intro h
    rw [fromCallable] at h
    exact hi raw (hraw raw (by simp [inspected])) (orElse_notFound h)
  | method f self raw =>
    intro h
    simp only [fromCallable] at h
    exact hi raw (hraw raw (by simp [inspected])) (orElse_notFound h)
  | methodWrapper self raw =>
    intro h
    cases self with
    | none => simp [fromCallable] at h
    | some p =>
      rw [fromCallable] at h
      exact hi raw (hraw raw (by simp [inspected])) (orElse_notFound h)
  | descriptor f raw =>
    intro h
    rw [fromCallable] at h
    exact hi raw (hraw raw (by simp [inspected])) (orElse_notFound h)
  | cls f raw =>
    intro h
    rw [fromCallable] at h
    have h := orElse_notFound h
    rcases except_bind_error.1 h with h | ⟨r, _, h⟩
    · exact hraw raw (by simp [inspected]) h
    · obtain ⟨tag, h⟩ := fromRawSignature_error h
      cases h
  | partial_ func args keywords ih =>
    intro h
    rw [fromCallable] at h
    rcases except_bind_error.1 h with h | ⟨s, hs, h⟩
    · exact ih (fun raw hr => hraw raw (by simpa [inspected] using hr)) h
    · rcases C03_overloaded_bind_legal s (C63_legal R func s hs) args keywords with
        ⟨t, ht, _⟩ | ⟨tag, ht⟩
      · rw [ht] at h; cases h
      · rw [ht] at h; cases h
  | other => intro h; simp [fromCallable] at h

example : ∀ raw ∈ inspected (.partial_ (plainFunction rawG) [one] []),
    raw ≠ .error .signatureNotFound := by
  intro raw h
  simp only [plainFunction, inspected, List.mem_singleton] at h
  subst h
  simp

theorem resolveQualifiedPaths_none {R : Runtime} {f : Fn} {paths : List QPath}
    (hc : candidatePaths R f = .ok paths)
    (hp : ∀ q ∈ paths, R.resolve q.1 [] q.2 = .error .objectNotFound) :
    resolveQualifiedPaths R f = .ok [] := by
  unfold resolveQualifiedPaths
  rw [hc]
  have : mapExcept (tryResolve R) paths = .ok (paths.map fun _ => ([], [])) := by
    clear hc
    induction paths with
    | nil => rfl
    | cons q paths ih =>
      rw [mapExcept, tryResolve, hp q List.mem_cons_self,
        ih fun q hq => hp q (List.mem_cons_of_mem _ hq)]
      rfl
  have he : (paths.map fun _ => (([], []) : QPath)).filter
      (fun q => !q.1.isEmpty && !q.2.isEmpty) = [] := by
    rw [List.filter_eq_nil_iff]
    intro q hq
    obtain ⟨_, _, rfl⟩ := List.mem_map.1 hq
    simp
  show (mapExcept (tryResolve R) paths >>= fun resolved =>
    pure (sortedSet (resolved.filter (fun q => !q.1.isEmpty && !q.2.isEmpty)))) = _
  rw [this]
  show Except.ok (sortedSet _) = _
  rw [he]; rfl

/-- **C31**, what holds (2): a function, method descriptor, builtin or class none of whose candidate
locations is in the stubs gets the signature `inspect` reports (for classes: returning `Self`). -/
theorem C31_fallback_partial (R : Runtime) (f : Fn) (raw : RawSig) (paths : List QPath)
    (hc : candidatePaths R f = .ok paths)
    (hp : ∀ q ∈ paths, R.resolve q.1 [] q.2 = .error .objectNotFound) :
    (∀ callable, LookedUpAs callable f (.ok raw) →
      fromCallable R callable = fromRawSignature raw) ∧
    ∀ l, f = .ofClass l → fromCallable R (.cls l (.ok raw)) =
      fromRawSignature { raw with returns := some (.form selfForm) } := by
  have hr := resolveQualifiedPaths_none hc hp
  have hf : fromFn R f = .error .signatureNotFound := by
    unfold fromFn toQualifiedPaths
    rw [hr]; rfl
  have hcls : fromClass R f = .error .signatureNotFound := by
    unfold fromClass
    rw [hr]; rfl
  refine ⟨fun callable h => ?_, ?_⟩
  · rw [h.fromCallable, hf]; rfl
  · rintro l rfl
    rw [fromCallable, hcls]; rfl

example : candidatePaths runtimeSample { named := .function (.text "m") "missing" } =
      .ok [(["m"], ["missing"])] ∧
    runtimeSample.resolve ["m"] [] ["missing"] = .error .objectNotFound := ⟨rfl, rfl⟩

/-! ### C60 -/

/-- **C60.** The locations computed for a callable are strictly increasing, and each resolves to
itself. -/
theorem C60_canonical (R : Runtime) (value : Fn) (paths : List QPath)
    (h : resolveQualifiedPaths R value = .ok paths) :
    paths.Pairwise QPathBefore ∧ paths.Nodup ∧
    ∀ q ∈ paths, R.resolve q.1 [] q.2 = .ok q ∧ DefinedIn R.stubs.toTables q.1 q.2 := by
  unfold resolveQualifiedPaths at h
  simp only [except_bind_ok, pure_ok] at h
  obtain ⟨cands, _, resolved, hr, rfl⟩ := h
  refine ⟨sortedSet_pairwise _, (sortedSet_pairwise _).imp fun h e => ?_, ?_⟩
  · subst e; exact qpathBefore_irrefl _ h
  · intro q hq
    obtain ⟨hq, hne⟩ := List.mem_filter.1 (mem_sortedSet.1 hq)
    obtain ⟨c, _, hc⟩ := (mapExcept_pointwise.1 hr).exists_left hq
    have : R.resolve c.1 [] c.2 = .ok q := by
      unfold tryResolve at hc
      split at hc
      · cases hc
        simp at hne
      · exact hc
    have hd := resolve_defined this
    refine ⟨?_, hd⟩
    have hpos : ∃ n, R.depth = n + 1 := by
      refine ⟨R.depth - 1, ?_⟩
      cases hz : R.depth with
      | zero => rw [Runtime.resolve, hz] at this; cases this
      | succ n => rfl
    obtain ⟨n, hn⟩ := hpos
    rw [Runtime.resolve, hn]
    exact resolve_of_defined hd n []

example : resolveQualifiedPaths
      { runtimeSample with index := [(["m"], [(["f"], [(["m"], ["f"]), (["m"], ["C", "f"]),
        (["m"], ["f"]), (["m"], ["missing"])])])] } fnF =
    .ok [(["m"], ["C", "f"]), (["m"], ["f"])] := rfl

/-! ### C64 -/

/-- `class C: @classmethod def f(cls, x)` -/
def classMethodRuntime : Runtime :=
  { runtimeSample with
    stubs := { stubsSample with
      rawAstNodes := [(["m"], [(["C", "f"], [.functionDef
        { name := "f", args := { args := [⟨"cls", none⟩, intArg "x"] },
          decorators := [.name "classmethod" true] }])])] } }

/-- `C.f` -/
def boundF : Fn := { named := .function (.text "m") "C.f" }

/-- `(cls, x)` -/
def sigClsX : PlainSig :=
  ⟨[.required typeOfSelf .positionalOnly "cls", .required int_ .positionalOnly "x"],
    .form anyForm⟩

/-- **C64**, what holds: the claim for methods bound to instances (methods of classes, builtin methods
such as `[].append`, method wrappers such as `(1).__add__`), except for keywords that repeat, in the
presence of `**kwargs`, the name of the parameter that is bound. -/
theorem C64_instance_partial (R : Runtime) (callable : Callable) (g : Fn) (owner : Obj)
    (unbound s : Sig) (hb : InstanceBound callable owner g) (hu : fromFn R g = .ok unbound)
    (hs : fromCallable R callable = .ok s)
    (args : List Obj) (kwargs : Kwargs) (hnd : (keys kwargs).Nodup)
    (hc : ∀ o ∈ flattenSignature unbound, ¬ KwCollides o.parameters 1 (keys kwargs)) :
    AcceptsSig s args kwargs ↔ AcceptsSig unbound (owner :: args) kwargs := by
  have hb : unbound.bind [owner] [] = .ok s := by
    have hfi : fromInstance R owner (.ok g) = unbound.bind [owner] [] := by
      unfold fromInstance
      show (fromFn R g >>= fun signature => signature.bind [owner] []) = _
      rw [hu]; rfl
    have hs : ∃ raw, orElse (unbound.bind [owner] []) (fromInspect raw) = .ok s := by
      cases hb <;> simp only [fromCallable, hfi] at hs <;> exact ⟨_, hs⟩
    obtain ⟨raw, hs⟩ := hs
    rcases C03_overloaded_bind_legal unbound (fromFn_constructible hu) [owner] [] with
      ⟨t, ht, _⟩ | ⟨tag, ht⟩
    · rw [ht] at hs ⊢; exact hs
    · rw [ht] at hs; cases hs
  have h := C18_overloaded_partial_application_partial unbound s (fromFn_constructible hu) [owner] []
    (by simp [keys]) hb args kwargs hnd hc
  rwa [merge_disjoint (k := []) (by simpa using hnd)] at h

/-- `class C: def f(self, x)` -/
def instanceRuntime : Runtime :=
  { runtimeSample with
    stubs := { stubsSample with
      rawAstNodes := [(["m"], [(["C", "f"], [.functionDef
        { name := "f", args := { args := [⟨"self", none⟩, intArg "x"] } }])])] } }

example : fromFn instanceRuntime boundF =
      .ok (.plain ⟨[.required (.form selfForm) .positionalOnly "self",
        .required int_ .positionalOnly "x"], .form anyForm⟩) ∧
    fromCallable instanceRuntime (.method two (some (one, .ok boundF)) (.error .attributeError)) =
      .ok (.plain ⟨[.required int_ .positionalOnly "x"], .form anyForm⟩) ∧
    fromCallable instanceRuntime (.builtin (.instance one (.ok boundF)) "C.f" two
      (.error .attributeError)) =
      .ok (.plain ⟨[.required int_ .positionalOnly "x"], .form anyForm⟩) ∧
    fromCallable instanceRuntime (.methodWrapper (some (one, .ok boundF)) (.error .attributeError)) =
      .ok (.plain ⟨[.required int_ .positionalOnly "x"], .form anyForm⟩) := ⟨rfl, rfl, rfl, rfl⟩

end Paradigm.Props
