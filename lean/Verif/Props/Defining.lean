import Verif.Lemmas.Defining
import Verif.Props.StubClasses

/-!
# C105: executing definitions that are only in stub files
-/

namespace Paradigm.Props

open Spec

/-! ### Sample -/

/-- As `samplePython`, but there is `shapes.traced`, and executing a `def` needs all names in its
decorators. -/
def tracingPython : Interpreter SampleValue :=
  { samplePython with
    getattr := fun v name =>
      match v with
      | .named "shapes" => if name = "traced" then .ok (.named "traced") else .error .attributeError
      | _ => samplePython.getattr v name
    define := fun f ns =>
      if (namesUsed f).all fun id => (ns.lookup id).isSome then .ok (.made [f.name])
      else .error .nameError }

/-- `@traced def f(self) -> int: ...` -/
def tracedFunction : FunctionDef :=
  { name := "f", args := { args := [⟨"self", none⟩] }, decorators := [.name "traced" true],
    returns := some (.name "int" true) }

/-- `from shapes import traced` and the function in a module `m` that cannot be imported, once on its own
and once in a class `C`. -/
def tracingStubs : Stubs where
  definitions := [(["builtins"], .mk [("int", .mk [])]), (["shapes"], .mk [("traced", .mk [])]),
    (["m"], .mk [("f", .mk []), ("C", .mk [("f", .mk [])])])]
  references := [(["builtins"], []), (["shapes"], []), (["m"], [(["traced"], (["shapes"], ["traced"]))])]
  submodules := []
  superclasses := []
  rawAstNodes := [(["m"], [(["f"], [.functionDef tracedFunction]), (["C", "f"], [.functionDef tracedFunction])])]
  nodesKinds := [(["m"], [(["f"], .function), (["C"], .class_), (["C", "f"], .function)])]

theorem traced_used : namesUsed tracedFunction = ["traced"] := by decide +kernel

theorem traced_exists (parent : Path) (h : parent = [] ∨ parent = ["C"]) :
    ∀ id ∈ namesUsed tracedFunction, NameExists tracingPython tracingStubs 9 (["m"], parent) id := by
  intro id hid
  rw [traced_used, List.mem_singleton] at hid
  subst hid
  refine ⟨(["shapes"], ["traced"]), ?_, .inr ⟨.named "traced", rfl⟩⟩
  rcases h with rfl | rfl <;> rfl

theorem traced_executable (parent : Path) (h : parent = [] ∨ parent = ["C"]) :
    Executable tracingPython tracingStubs 9 (fun _ => "") (["m"], parent) tracedFunction := by
  refine ⟨{ tracedFunction with returns := some (.constant (.str "int")) }, rfl, fun ns hns => ?_⟩
  obtain ⟨r, hr, hd⟩ := hns "traced" (by rw [traced_used]; exact List.mem_singleton.2 rfl)
  have hr' : r = (["shapes"], ["traced"]) := by
    have hp : resolve tracingStubs.toTables 9 ["m"] parent ["traced"] []
        = .ok (["shapes"], ["traced"]) := by rcases h with rfl | rfl <;> rfl
    exact Except.ok.inj (hr.symm.trans hp)
  subst hr'
  rcases hd with ⟨h, -⟩ | ⟨-, v, -, hv⟩
  · exact absurd h (by decide)
  · refine ⟨.made ["f"], ?_⟩
    have hu : namesUsed { tracedFunction with returns := some (.constant (.str "int")) } = ["traced"] := by
      decide +kernel
    have : (namesUsed { tracedFunction with returns := some (.constant (.str "int")) }).all
        (fun id => (ns.lookup id).isSome) = true := by
      rw [hu]
      simp [hv]
    show (if _ then _ else _) = _
    rw [if_pos this]
    rfl

/-! ### C105 -/

/-- **C105**, full statement: a function that only exists in stub files can be evaluated if all names in
its decorators and defaults are those of builtins or of objects that exist. -/
def C105_statement : Prop :=
  ∀ (V : Type) (W : Interpreter V) (T : Stubs) (depth : Nat) (other : Atom → String) (n : Nat) (q : QPath)
    (s : EvalState V) (f : FunctionDef), 2 ≤ n → runtimeObject W q = .ok none → q.2 ≠ [] →
    s.objects.lookup q = none → s.ns = [] → s.back = [] →
    (T.nodesKinds.lookup q.1).bind (·.lookup q.2) = some .function →
    statementsOf T q = [.functionDef f] →
    Executable W T depth other (q.1, q.2.dropLast) f →
    (∀ id ∈ namesUsed f, NameExists W T depth (q.1, q.2.dropLast) id) →
    ∃ v t, evalPath W T depth other n q s = (.ok v, t)

/-- `from shapes import traced` and `@traced def f(self) -> int: ...`: `NameError`, as only the methods of
classes are given the names they use. -/
theorem C105_refuted : ¬ C105_statement := by
  intro h
  obtain ⟨v, t, h⟩ := h SampleValue tracingPython tracingStubs 9 (fun _ => "") 9 (["m"], ["f"]) {}
    tracedFunction (by decide) rfl (by decide) rfl rfl rfl rfl rfl (traced_executable [] (.inl rfl))
    (traced_exists [] (.inl rfl))
  have h2 : (evalPath tracingPython tracingStubs 9 (fun _ => "") 9 (["m"], ["f"]) {}).1
      = .error .nameError := rfl
  rw [h] at h2
  cases h2

/-- **C105**, functions that use builtins only: they can be evaluated. -/
theorem C105_builtins_partial {V : Type} (W : Interpreter V) (T : Stubs) (depth : Nat)
    (other : Atom → String) (n : Nat) (q : QPath) (s : EvalState V) (f : FunctionDef) (hn : 1 ≤ n)
    (hq : runtimeObject W q = .ok none) (hp : q.2 ≠ []) (hnew : s.objects.lookup q = none)
    (hns : s.ns = []) (hback : s.back = [])
    (hkind : (T.nodesKinds.lookup q.1).bind (·.lookup q.2) = some .function)
    (hst : statementsOf T q = [.functionDef f])
    (hex : Executable W T depth other (q.1, q.2.dropLast) f)
    (hids : ∀ id ∈ namesUsed f, ∃ r, resolve T.toTables depth q.1 q.2.dropLast [id] [] = .ok r ∧
      r.1 = ["builtins"]) :
    ∃ v t, evalPath W T depth other n q s = (.ok v, t) := by
  obtain ⟨m, path⟩ := q
  obtain ⟨n, rfl⟩ : ∃ k, n = k + 1 := ⟨n - 1, by omega⟩
  obtain ⟨g, hg, hex⟩ := hex
  obtain ⟨w, hw⟩ := hex (s.ns ++ s.back) (fun id hid => by
    obtain ⟨r, hr, hb⟩ := hids id hid
    exact ⟨r, hr, .inl ⟨hb, by rw [hns, hback]; rfl⟩⟩)
  rw [evalPath_stub hq hp]
  unfold evalStub
  rw [Ev.bind_ok (show Ev.get _ = (.ok _, _) from rfl), hnew]
  cases hk : T.nodesKinds.lookup m with
  | none => rw [hk] at hkind; cases hkind
  | some kinds =>
    rw [hk, Option.bind_some] at hkind
    unfold statementsOf at hst
    cases hr : T.rawAstNodes.lookup m with
    | none => rw [hr] at hst; cases hst
    | some nodes =>
      rw [hr, Option.bind_some] at hst
      cases hl : nodes.lookup path with
      | none => rw [hl] at hst; cases hst
      | some stmts =>
        rw [hl, Option.getD_some] at hst
        subst hst
        dsimp only
        rw [Ev.bind_ok (Ev.lift_ok (show getKey T.rawAstNodes m = .ok nodes by unfold getKey; rw [hr]) s),
          Ev.bind_ok (Ev.lift_ok (show getKey T.nodesKinds m = .ok kinds by unfold getKey; rw [hk]) s),
          Ev.bind_ok (Ev.lift_ok (show getKey kinds path = .ok .function by unfold getKey; rw [hkind]) s)]
        simp only [hl, ne_eq, reduceCtorEq, not_false_eq_true, if_true]
        have hdef : evalStmt W T depth other (evalPath W T depth other n) m path.dropLast (.functionDef f) s
            = (.ok w, { s with ns := dictPut g.name w s.ns }) := by
          rw [evalStmt, Ev.bind_ok (Ev.lift_ok hg _), Ev.bind_ok (show Ev.get _ = (.ok _, _) from rfl),
            Ev.bind_ok (Ev.lift_ok hw _), Ev.bind_ok (show putName _ _ _ = (.ok (), _) from rfl)]
          rfl
        rw [evalNodes, Ev.bind_ok hdef, Ev.bind_ok (show putName _ _ _ = (.ok (), _) from rfl), evalNodes]
        exact ⟨w, _, rfl⟩

/-- `def g(x=int): ...` -/
def defaultedFunction : FunctionDef :=
  { name := "g", args := { args := [⟨"x", none⟩], defaults := [.name "int" true] } }

/-- The function in a module `m` that cannot be imported. -/
example : ∃ v t, evalPath samplePython
    { classStubs [] "x" none with
      rawAstNodes := [(["m"], [(["g"], [.functionDef defaultedFunction])])],
      nodesKinds := [(["m"], [(["g"], .function)])] } 9 (fun _ => "") 9 (["m"], ["g"]) {} = (.ok v, t) := by
  refine C105_builtins_partial _ _ _ _ _ _ _ defaultedFunction (by decide) rfl (by decide) rfl rfl rfl rfl
    rfl ⟨_, rfl, fun _ _ => ⟨_, rfl⟩⟩ fun id hid => ?_
  have hu : namesUsed defaultedFunction = ["int"] := by decide +kernel
  rw [hu, List.mem_singleton] at hid
  subst hid
  exact ⟨(["builtins"], ["int"]), rfl, rfl⟩

/-- **C105**, methods: a class that only exists in stub files and has no members but functions can be
evaluated if its superclasses and all names in the decorators and defaults exist. Missing: functions
outside of classes (the full statement is false for these), and names of other members or of objects that
are only in stub files as well. -/
theorem C105_class_partial {V : Type} (W : Interpreter V) (T : Stubs) (depth : Nat)
    (other : Atom → String) (n : Nat) (q : QPath) (s : EvalState V) (names : List String) (hn : 2 ≤ n)
    (hq : runtimeObject W q = .ok none) (hp : q.2 ≠ []) (hnew : s.objects.lookup q = none)
    (hc : IsStubClass T q) (hnames : declaredNames T q = some names)
    (hfun : ∀ name ∈ names, statementsOf T (memberOf q name) ≠ [] ∧
      ∀ node ∈ statementsOf T (memberOf q name), ∃ f, node = .functionDef f ∧ f.name = name ∧
        Executable W T depth other q f ∧
        ∀ id ∈ namesUsed f, NameExists W T depth q id ∧ id ∉ names ∧ id ≠ "__module__" ∧ id ≠ "__name__")
    (hraw : (T.rawAstNodes.lookup q.1).isSome)
    (hsup : ∀ r ∈ superclassesOf T q, ∃ b, runtimeObject W r = .ok (some b))
    (hcls : ∀ bases members, ∃ v, W.newClass q.2 bases members = .ok v) :
    ∃ v t, evalPath W T depth other n q s = (.ok v, t) := by
  obtain ⟨m, path⟩ := q
  obtain ⟨n, rfl⟩ : ∃ k, n = k + 2 := ⟨n - 2, by omega⟩
  rw [evalPath_stub hq hp]
  unfold evalStub
  rw [Ev.bind_ok (show Ev.get _ = (.ok _, _) from rfl), hnew]
  unfold IsStubClass at hc
  cases hk : T.nodesKinds.lookup m with
  | none => rw [hk] at hc; cases hc
  | some kinds =>
    rw [hk, Option.bind_some] at hc
    cases hr : T.rawAstNodes.lookup m with
    | none => rw [hr] at hraw; cases hraw
    | some nodes =>
      have key : ∃ v t, evalClass W T depth other (evalPath W T depth other (n + 1)) m path nodes s
          = (.ok v, t) := by
        unfold declaredNames at hnames
        cases hd : T.definitions.lookup m with
        | none => rw [hd] at hnames; cases hnames
        | some defs =>
          rw [hd, Option.bind_some] at hnames
          cases hi : innerScope path defs with
          | none => rw [hi] at hnames; cases hnames
          | some scope =>
            rw [hi] at hnames
            have hnames : scope.names = names := Option.some.inj hnames
            unfold evalClass
            rw [Ev.bind_ok (Ev.lift_ok (show getKey T.definitions m = .ok defs by unfold getKey; rw [hd]) s),
              Ev.bind_ok (Ev.lift_ok (scopeAt_of_inner hi) s), hnames]
            obtain ⟨cls, mod, t, hmem⟩ := evalMembers_ok (W := W) (T := T) (depth := depth) (other := other)
              (m := m) (path := path) (nodes := nodes) (all := names) n names
              [("__module__", W.constant (.str evaluationName))]
              [("__name__", W.constant (.str evaluationName))] s (fun _ h => h)
              (by
                intro name hx
                obtain ⟨hne, hall⟩ := hfun name hx
                unfold statementsOf memberOf at hne hall
                rw [hr, Option.bind_some] at hne hall
                cases hl : nodes.lookup (path ++ [name]) with
                | none => rw [hl] at hne; exact absurd rfl hne
                | some stmts =>
                  rw [hl, Option.getD_some] at hall
                  refine ⟨stmts, rfl, fun node hnode => ?_⟩
                  obtain ⟨f, h1, h2, h3, h4⟩ := hall node hnode
                  exact ⟨f, h1, h2 ▸ hx, h3, h4⟩)
              (by
                intro id v h
                by_cases hid : id = "__name__"
                · exact .inl hid
                · have : (id == "__name__") = false := by simp [hid]
                  simp [List.lookup, this] at h)
              (by
                intro id h
                by_cases hid : id = "__module__"
                · exact .inl hid
                · have : (id == "__module__") = false := by simp [hid]
                  simp [List.lookup, this] at h)
            rw [Ev.bind_ok hmem]
            dsimp only
            have hs : (((T.superclasses.lookup m).getD []).lookup path).getD []
                = superclassesOf T (m, path) := by
              unfold superclassesOf
              cases T.superclasses.lookup m <;> rfl
            obtain ⟨bases, hb⟩ := each_ok (f := evalPath W T depth other (n + 1))
              (superclassesOf T (m, path)) { t with ns := mod, back := [] } (fun r hr => by
                obtain ⟨b, hb⟩ := hsup r hr
                exact ⟨b, fun s => evalPath_runtime hb n s⟩)
            have hb' : Ev.within mod [] (Ev.each (evalPath W T depth other (n + 1))
                (superclassesOf T (m, path))) t = (.ok (bases, mod), t) := by
              unfold Ev.within
              rw [hb]
            rw [hs, Ev.bind_ok hb']
            obtain ⟨v, hv⟩ := hcls bases cls
            simp only [List.isEmpty_nil, if_true]
            rw [Ev.bind_ok (show Ev.pure cls t = (.ok cls, t) from rfl), Ev.bind_ok (Ev.lift_ok hv t),
              Ev.bind_ok (show Ev.modify _ _ = (.ok (), _) from rfl),
              Ev.bind_ok (show putName _ _ _ = (.ok (), _) from rfl)]
            exact ⟨v, _, rfl⟩
      dsimp only
      rw [Ev.bind_ok (Ev.lift_ok (show getKey T.rawAstNodes m = .ok nodes by unfold getKey; rw [hr]) s),
        Ev.bind_ok (Ev.lift_ok (show getKey T.nodesKinds m = .ok kinds by unfold getKey; rw [hk]) s),
        Ev.bind_ok (Ev.lift_ok (show getKey kinds path = .ok .class_ by unfold getKey; rw [hc]) s)]
      cases hl : nodes.lookup path with
      | none => simpa only [hl, ne_eq, not_true_eq_false, if_false] using key
      | some x => simpa only [hl, ne_eq, not_true_eq_false, if_false] using key

/-- The same function in a class can be evaluated. -/
example : ∃ v t, evalPath tracingPython tracingStubs 9 (fun _ => "") 9 (["m"], ["C"]) {} = (.ok v, t) := by
  refine C105_class_partial tracingPython tracingStubs 9 (fun _ => "") 9 (["m"], ["C"]) {} ["f"] (by decide)
    rfl (by decide) rfl rfl rfl ?_ rfl (fun r h => by cases h) (fun _ _ => ⟨_, rfl⟩)
  intro name hname
  rw [List.mem_singleton] at hname
  subst hname
  refine ⟨fun h => (by cases h), fun node hnode => ?_⟩
  have : node = .functionDef tracedFunction := List.mem_singleton.1 hnode
  subst this
  refine ⟨_, rfl, rfl, traced_executable ["C"] (.inr rfl), fun id hid => ?_⟩
  refine ⟨traced_exists ["C"] (.inr rfl) id hid, ?_⟩
  rw [traced_used, List.mem_singleton] at hid
  subst hid
  decide

end Paradigm.Props
