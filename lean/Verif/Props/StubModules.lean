import Verif.Lemmas.StubModules
import Verif.Props.StubClasses

/-!
# C93: modules that only exist in stub files
-/

namespace Paradigm.Props

open Spec

/-- A module `m` that cannot be imported, with the class `C`, the function `f` and the given statement
about `x`. -/
def moduleStubs (x : Stmt) : Stubs where
  definitions := [(["builtins"], .mk [("int", .mk []), ("str", .mk []), ("list", .mk [])]),
    (["m"], .mk [("C", .mk []), ("f", .mk []), ("x", .mk [])])]
  references := [(["builtins"], []), (["m"], [])]
  submodules := []
  superclasses := []
  rawAstNodes := [(["m"], [
    (["f"], [.functionDef { name := "f", args := { args := [⟨"a", some (.name "int" true)⟩] } },
      .functionDef { name := "f", args := { args := [⟨"b", some (.name "C" true)⟩] } }]),
    (["x"], [x])])]
  nodesKinds := [(["m"], [(["C"], .class_), (["f"], .function), (["x"], .annotatedAssignment)])]

/-- As `recordingPython`, with functions that remember their parameters. -/
def keepingPython : Interpreter SampleValue :=
  { recordingPython with define := fun f _ => .ok (.made (f.name :: f.args.args.map Arg.name)) }

/-- **C93**, full statement: the value of a module that cannot be imported is a module with all the names
that the stub declares, also if these are annotated names with or without a value. -/
def C93_statement : Prop :=
  ∀ (V : Type) (W : Interpreter V) (T : Stubs) (depth : Nat) (other : Atom → String) (m : Path)
    (s : EvalState V) (names : List String) (env : String → Option V),
    W.importModule m = .ok none → s.modules.lookup m = none → declaredNames T (m, []) = some names →
    (∀ x ∈ names, s.objects.lookup (m, [x]) = none ∧
      (T.nodesKinds.lookup m).bind (·.lookup [x]) = some .annotatedAssignment ∧
      ∃ e value, statementsOf T (m, [x]) = [.annAssign (.name x false) e value] ∧
        OnNames (Available W T depth m [] env) e ∧
        ∀ e' ∈ value, OnNames (Available W T depth m [] env) e' ∧ ∃ v, pyEval W env e' = .ok v) →
    ∃ n v t, evalPath W T depth other n (m, []) s = (.ok v, t) ∧ ∀ x ∈ names, ∃ w, (v, x, w) ∈ t.given

/-- A module `m` that cannot be imported and consists of `x: int`. -/
def bareStubs : Stubs where
  definitions := [(["builtins"], .mk [("int", .mk [])]), (["m"], .mk [("x", .mk [])])]
  references := [(["builtins"], []), (["m"], [])]
  submodules := []
  superclasses := []
  rawAstNodes := [(["m"], [(["x"], [.annAssign (.name "x" false) (.name "int" true) none])])]
  nodesKinds := [(["m"], [(["x"], .annotatedAssignment)])]

/-- `x: int` in a module that cannot be imported: the evaluation raises `TypeError`. -/
theorem C93_refuted : ¬ C93_statement := by
  intro h
  obtain ⟨n, v, t, h1, -⟩ := h SampleValue samplePython bareStubs 5 (fun _ => "") ["m"] {} ["x"]
    (fun id => some (.named id)) rfl rfl rfl (by
      intro x hx
      rw [List.mem_singleton.1 hx]
      exact ⟨rfl, rfl, _, none, rfl, ⟨(["builtins"], ["int"]), .named "int", rfl, rfl, rfl⟩,
        by intro _ h; cases h⟩)
  match n with
  | 0 => cases congrArg Prod.fst h1
  | 1 => cases congrArg Prod.fst h1
  | n + 2 =>
    have : (evalPath samplePython bareStubs 5 (fun _ => "") (n + 2) (["m"], []) {}).1
        = .error (.typeError "node") := rfl
    rw [h1] at this
    cases this

/-- **C93** where the evaluation succeeds: the value is a new module, it is the value from then on, and it
has each declared name as an attribute, namely the value of that name: for a class the one that
is the value of the name from then on, for a function what is made from its last definition. Missing:
that the evaluation succeeds, which is false for annotated names without a value. -/
theorem C93_attributes_partial {V : Type} (W : Interpreter V) (T : Stubs) (depth : Nat)
    (other : Atom → String) (n : Nat) (m : Path) (s t : EvalState V) (v : V) (names : List String)
    (hm : W.importModule m = .ok none) (hnew : s.modules.lookup m = none)
    (hnames : declaredNames T (m, []) = some names)
    (h : evalPath W T depth other (n + 1) (m, []) s = (.ok v, t)) :
    v = W.newModule m ∧
    (∀ k q r u, evalPath W T depth other k q t = (r, u) →
      ∀ j, evalPath W T depth other (j + 1) (m, []) u = (.ok v, u)) ∧
    ∀ x ∈ names, ∃ w, (v, x, w) ∈ t.given ∧
      (∃ u u', evalPath W T depth other n (m, [x]) u = (.ok w, u')) ∧
      (IsStubClass T (m, [x]) → ∀ k q r u, evalPath W T depth other k q t = (r, u) →
        ∀ j, evalPath W T depth other (j + 1) (m, [x]) u = (.ok w, u)) ∧
      (∀ nodes f, statementsOf T (m, [x]) = nodes ++ [.functionDef f] → ¬ IsStubClass T (m, [x]) →
        s.objects.lookup (m, [x]) = none →
        ∃ g env, lazyFunction other f = .ok g ∧ W.define g env = .ok w) := by
  rw [evalPath] at h
  obtain ⟨o, s1, h1, h⟩ := Ev.bind_ok_inv h
  rw [hm] at h1
  have e1 : none = o := Except.ok.inj (congrArg Prod.fst h1)
  have e1' : s = s1 := congrArg Prod.snd h1
  subst e1 e1'
  simp only [List.isEmpty_nil, if_true] at h
  obtain ⟨s2, s3, h2, h⟩ := Ev.bind_ok_inv h
  have e2 : s = s2 := Except.ok.inj (congrArg Prod.fst h2)
  have e2' : s = s3 := congrArg Prod.snd h2
  subst e2 e2'
  rw [hnew] at h
  dsimp only at h
  obtain ⟨_, s4, h4, h⟩ := Ev.bind_ok_inv h
  obtain ⟨scope, s5, h5, h⟩ := Ev.bind_ok_inv h
  obtain ⟨_, s6, h6, h⟩ := Ev.bind_ok_inv h
  have e4 : { s with modules := dictPut m (W.newModule m) s.modules } = s4 := congrArg Prod.snd h4
  have e5 : s4 = s5 := congrArg Prod.snd h5
  have e7 : W.newModule m = v := Except.ok.inj (congrArg Prod.fst h)
  have e7' : s6 = t := congrArg Prod.snd h
  have hs := getKey_inv (congrArg Prod.fst h5)
  subst e5 e7'
  have en : scope.names = names := by
    unfold declaredNames at hnames
    simp only [hs, Option.bind_some, innerScope, Option.map_some] at hnames
    exact Option.some.inj hnames
  rw [en] at h6
  have hgrow := cachesGrown_rel (V := V) T
  have hG : ∀ k q, Moves CachesGrown (evalPath W T depth other k q) := fun k q => evalPath_moves k q
  have hmod : s6.modules.lookup m = some v := by
    refine ((evalNames_moves (hG n) m (W.newModule m) names).of_eq h6).modules m v ?_
    rw [← e4]
    show (dictPut m (W.newModule m) s.modules).lookup m = some v
    rw [lookup_dictPut, if_pos rfl, e7]
  refine ⟨e7.symm, fun k q r u hu j => ?_, fun x hx => ?_⟩
  · have hmod := ((hG k q).of_eq hu).modules m v hmod
    rw [evalPath, hm, Ev.bind_ok (Ev.lift_ok rfl u)]
    simp only [List.isEmpty_nil, if_true]
    rw [Ev.bind_ok (show Ev.get u = (.ok u, u) from rfl), hmod]
    rfl
  · have hR : ∃ w u u', (¬ IsStubClass T (m, [x]) → StaysOut (m, [x]) s4 u) ∧
        evalPath W T depth other n (m, [x]) u = (.ok w, u') ∧
        (∀ q o, u'.objects.lookup q = some o → s6.objects.lookup q = some o) ∧
        (W.newModule m, x, w) ∈ s6.given := by
      have hkeep : ∀ q o r, KeepsObject q o (evalPath W T depth other n r) := fun _ _ r => evalPath_keeps n r
      by_cases hc : IsStubClass T (m, [x])
      · obtain ⟨w, u, u', -, b, c, d⟩ := evalNames_ok CachesGrown (hG n) (hG n) hkeep m _ names h6 x hx
        exact ⟨w, u, u', fun hn => absurd hc hn, b, c, d⟩
      · have := staysOut (V := V) hc
        obtain ⟨w, u, u', a, b, c, d⟩ := evalNames_ok (StaysOut (m, [x]))
          (fun r => evalPath_moves n r) (hG n) hkeep m _ names h6 x hx
        exact ⟨w, u, u', fun _ => a, b, c, d⟩
    obtain ⟨w, u, u', ha, hb, hc, hd⟩ := hR
    rw [e7] at hd
    have hq : runtimeObject W (m, [x]) = .ok none := by
      unfold runtimeObject
      simp only [hm]
    refine ⟨w, hd, ⟨u, u', hb⟩, fun hcls k q r u2 hu j => ?_, fun nodes f hst hcls ho => ?_⟩
    · cases n with
      | zero => rw [evalPath] at hb; cases congrArg Prod.fst hb
      | succ n =>
        rw [evalPath_stub hq (by simp)] at hb
        have h7 := hc _ _ (evalStub_cached (fun w r => evalPath_keeps n r) hcls hb)
        have h8 : u2.objects.lookup (m, [x]) = some w := by
          have := evalPath_keeps (W := W) (T := T) (depth := depth) (other := other) k q s6 h7
          rw [hu] at this
          exact this
        rw [evalPath_stub hq (by simp)]
        unfold evalStub
        rw [Ev.bind_ok (show Ev.get u2 = (.ok u2, u2) from rfl), h8]
        rfl
    · cases n with
      | zero => rw [evalPath] at hb; cases congrArg Prod.fst hb
      | succ n =>
        rw [evalPath_stub hq (by simp)] at hb
        refine evalStub_function hst hcls (ha hcls ?_) hb
        rw [← e4]
        exact ho

/-- The hypotheses are met by the module with `C`, `f` and `x: int = str`. -/
example :
    let T := moduleStubs (.annAssign (.name "x" false) (.name "int" true) (some (.name "str" true)))
    let result := evalPath keepingPython T 9 (fun _ => "") 9 (["m"], []) {}
    keepingPython.importModule ["m"] = .ok none ∧
    declaredNames T (["m"], []) = some ["C", "f", "x"] ∧ IsStubClass T (["m"], ["C"]) ∧
    ¬ IsStubClass T (["m"], ["f"]) ∧
    result.1 = .ok (keepingPython.newModule ["m"]) ∧
    result.2.given = [
      (keepingPython.newModule ["m"], "C", .many [.made ["C"], .made ["__module__"]]),
      (keepingPython.newModule ["m"], "f", .made ["f", "b"]),
      (keepingPython.newModule ["m"], "x", .named "str")] := by
  refine ⟨rfl, rfl, rfl, ?_, rfl, rfl⟩
  intro h
  cases h

end Paradigm.Props
