import Verif.Lemmas.StubClasses
import Verif.Props.Evaluation

/-!
# C89, C90: classes that only exist in stub files
-/

namespace Paradigm.Props

open Spec

/-! ### Sample -/

/-- As `samplePython`, but a new class is represented by its path and the names of its members. -/
def recordingPython : Interpreter SampleValue :=
  { samplePython with newClass := fun path _ members => .ok (.many [.made path, .made (members.map Prod.fst)]) }

/-- A module `m` that cannot be imported, where the class `C` is defined (with the given member), and
possibly an alias `A`. -/
def classStubs (alias : List Expr) (member : String) (nodes : Option (List Stmt)) : Stubs where
  definitions := [(["builtins"], .mk [("int", .mk []), ("str", .mk []), ("list", .mk [])]),
    (["m"], .mk (("C", .mk [(member, .mk [])]) :: alias.map fun _ => ("A", .mk [])))]
  references := [(["builtins"], []), (["m"], [])]
  submodules := []
  superclasses := []
  rawAstNodes := [(["m"], (nodes.toList.map fun nodes => (["C", member], nodes)) ++
    alias.map fun e => (["A"], [.assign [.name "A" false] e]))]
  nodesKinds := [(["m"], [(["C"], .class_), (["C", member], .assignment), (["A"], .assignment)])]

/-! ### C89 -/

/-- **C89**, full statement: a class that only exists in stub files has no members but those that are
declared there, and `__module__` and `__annotations__`. -/
def C89_statement : Prop :=
  ∀ (V : Type) (W : Interpreter V) (T : Stubs) (depth : Nat) (other : Atom → String) (n : Nat) (q : QPath)
    (s t : EvalState V) (v : V) (names : List String), runtimeObject W q = .ok none →
    s.objects.lookup q = none → IsStubClass T q → declaredNames T q = some names →
    evalPath W T depth other n q s = (.ok v, t) →
    ∃ bases members, W.newClass q.2 bases members = .ok v ∧
      ∀ name, (members.lookup name).isSome → name = "__module__" ∨ name = "__annotations__" ∨ name ∈ names

/-- `A = int` and `class C: x = A`: the class has the member `A` as well. -/
theorem C89_refuted : ¬ C89_statement := by
  intro h
  obtain ⟨bases, members, h1, h2⟩ := h SampleValue recordingPython
    (classStubs [.name "int" true] "x" (some [.assign [.name "x" false] (.name "A" true)])) 9 (fun _ => "")
    9 (["m"], ["C"]) {} _ (.many [.made ["C"], .made ["__module__", "A", "x"]]) ["x"] rfl rfl rfl rfl rfl
  have h3 : members.map Prod.fst = ["__module__", "A", "x"] := by
    have : (Except.ok (.many [.made ["C"], .made (members.map Prod.fst)]) : Except PyErr SampleValue)
      = .ok (.many [.made ["C"], .made ["__module__", "A", "x"]]) := h1
    injection this with this
    injection this with this
    injection this with _ this
    injection this with this _
    injection this
  have h4 : (members.lookup "A").isSome := by
    match members, h3 with
    | [(a, x), (b, y), (c, z)], h3 =>
      simp only [List.map_cons, List.map_nil, List.cons.injEq] at h3
      obtain ⟨rfl, rfl, rfl, -⟩ := h3
      rfl
  have := h2 "A" h4
  revert this
  decide

/-- A class with a class in it (for which no statement is recorded) cannot be evaluated at all. -/
theorem C89_nested_refuted :
    (evalPath recordingPython (classStubs [] "D" none) 9 (fun _ => "") 9 (["m"], ["C"]) {}).1
      = .error .keyError := rfl

/-- **C89** where the members are functions and annotations: the class is made with the superclasses in
order (those that exist being the existing objects); its members are exactly `__module__`,
`__annotations__` if there is an annotation without a value, and the functions, where each is made from
its last definition with the annotations postponed. The annotations are evaluated and given to the new
class, as Python evaluates them if all their names exist. Missing: members that are assigned a value, which the full statement is false for. -/
theorem C89_members_partial {V : Type} (W : Interpreter V) (T : Stubs) (depth : Nat)
    (other : Atom → String) (n : Nat) (q : QPath) (s t : EvalState V) (v : V) (names : List String)
    (hq : runtimeObject W q = .ok none) (hp : q.2 ≠ []) (hnew : s.objects.lookup q = none)
    (hc : IsStubClass T q) (hnames : declaredNames T q = some names)
    (hmem : ∀ name ∈ names, FunctionsAndAnnotations T q name)
    (h : evalPath W T depth other n q s = (.ok v, t)) :
    ∃ bases members, W.newClass q.2 bases members = .ok v ∧
      Pointwise (fun r b => ∀ x, runtimeObject W r = .ok (some x) → b = x) (superclassesOf T q) bases ∧
      (∀ name, (members.lookup name).isSome ↔ name = "__module__" ∨
        (name = "__annotations__" ∧
          ∃ x ∈ names, ∃ node ∈ statementsOf T (memberOf q x), ∃ e, OnlyAnnotates node e) ∨
        (name ∈ names ∧ ∃ f, .functionDef f ∈ statementsOf T (memberOf q name))) ∧
      (∀ name ∈ names, name ≠ "__annotations__" → ∀ f,
        EndsWithFunction (statementsOf T (memberOf q name)) f →
        ∃ g ns w, lazyFunction other f = .ok g ∧ W.define g ns = .ok w ∧ members.lookup name = some w) ∧
      (("__module__" ∈ names → ∀ f, .functionDef f ∉ statementsOf T (memberOf q "__module__")) →
        members.lookup "__module__" = some (W.constant (.str evaluationName))) ∧
      ∀ name ∈ names, ∀ e, EndsWithAnnotation (statementsOf T (memberOf q name)) e →
        ∃ w, (v, name, w) ∈ t.given ∧
          ∀ env x, 2 ≤ n → OnNames (Available W T depth q.1 q.2 env) e → BitOps e → pyEval W env e = .ok x →
            w = x := by
  obtain ⟨m, path⟩ := q
  obtain ⟨n, rfl⟩ : ∃ k, n = k + 1 := by
    cases n with
    | zero => rw [evalPath] at h; cases congrArg Prod.fst h
    | succ k => exact ⟨k, rfl⟩
  rw [evalPath_stub hq hp] at h
  obtain ⟨nodes, hnodes, h⟩ := evalStub_class hnew hc h
  have hst : ∀ x l, nodes.lookup (path ++ [x]) = some l → statementsOf T (memberOf (m, path) x) = l := by
    intro x l hl
    simp only [statementsOf, memberOf, hnodes, Option.bind_some, hl, Option.getD_some]
  obtain ⟨bases, cls, anns, members, hg, hb, hm1, hm2, hcls, hgiven⟩ :=
    evalClass_made (stmts := fun x => statementsOf T (memberOf (m, path) x)) hst hnames hmem h
  have hann : anns ≠ [] ↔ ∃ x ∈ names, ∃ node ∈ statementsOf T (memberOf (m, path) x),
      ∃ e, OnlyAnnotates node e := by
    constructor
    · intro hne
      cases anns with
      | nil => exact absurd rfl hne
      | cons a anns =>
        obtain ⟨x, e⟩ := a
        have hx : (List.lookup x ((x, e) :: anns)) = some e := by simp [List.lookup]
        by_cases hmem' : x ∈ names
        · refine ⟨x, hmem', ?_⟩
          by_cases hex : ∃ node ∈ statementsOf T (memberOf (m, path) x), ∃ e, OnlyAnnotates node e
          · exact hex
          · have := hg.noAnnotation x hmem' (fun node hn he => hex ⟨node, hn, he⟩)
            rw [hx] at this
            cases this
        · have := hg.annsKept x hmem'
          rw [hx] at this
          cases this
    · rintro ⟨x, hx, hex⟩ rfl
      obtain ⟨e, he⟩ := endsWithAnnotation_of_mem hex
      have := hg.annotation x hx e he
      cases this
  have hlook : ∀ name, name ≠ "__annotations__" → members.lookup name = cls.lookup name := by
    intro name hne
    by_cases ha : anns = []
    · rw [hm1 ha]
    · obtain ⟨d, rfl⟩ := hm2 ha
      rw [lookup_dictPut, if_neg hne]
  have hkeys : ∀ name, (cls.lookup name).isSome ↔ name = "__module__" ∨
      (name ∈ names ∧ ∃ f, .functionDef f ∈ statementsOf T (memberOf (m, path) name)) := by
    intro name
    have hinit : (List.lookup name [("__module__", W.constant (.str evaluationName))]).isSome ↔
        name = "__module__" := by
      by_cases hx : name = "__module__"
      · simp [hx, List.lookup]
      · have : (name == "__module__") = false := by simp [hx]
        simp [hx, List.lookup, this]
    by_cases hx : name ∈ names
    · by_cases hf : ∃ f, .functionDef f ∈ statementsOf T (memberOf (m, path) name)
      · obtain ⟨f, hf'⟩ := endsWithFunction_of_mem (hmem name hx) hf
        obtain ⟨w, hw, -⟩ := hg.function name hx f hf'
        rw [hw]
        exact ⟨fun _ => .inr ⟨hx, hf⟩, fun _ => rfl⟩
      · rw [hg.noFunction name hx (fun f h => hf ⟨f, h⟩), hinit]
        exact ⟨.inl, fun h => h.elim id fun h => absurd h.2 hf⟩
    · rw [hg.kept name hx, hinit]
      exact ⟨.inl, fun h => h.elim id fun h => absurd h.1 hx⟩
  refine ⟨bases, members, hcls, ?_, ?_, ?_, ?_, ?_⟩
  · refine hb.imp fun r _ b _ hrb x hx => ?_
    obtain ⟨s', t', hrb⟩ := hrb
    cases n with
    | zero => rw [evalPath] at hrb; cases congrArg Prod.fst hrb
    | succ n =>
      rw [evalPath_runtime hx] at hrb
      exact (Except.ok.inj (congrArg Prod.fst hrb)).symm
  · intro name
    by_cases hname : name = "__annotations__"
    · subst hname
      by_cases ha : anns = []
      · rw [hm1 ha, hkeys]
        have := (not_congr hann).1 (fun h => h ha)
        exact ⟨fun h => h.elim .inl fun h => .inr (.inr h),
          fun h => h.elim .inl fun h => h.elim (fun h => absurd h.2 this) .inr⟩
      · obtain ⟨d, rfl⟩ := hm2 ha
        rw [lookup_dictPut, if_pos rfl]
        exact ⟨fun _ => .inr (.inl ⟨rfl, hann.1 ha⟩), fun _ => rfl⟩
    · rw [hlook name hname, hkeys]
      exact ⟨fun h => h.elim .inl fun h => .inr (.inr h),
        fun h => h.elim .inl fun h => h.elim (fun h => absurd h.1 hname) .inr⟩
  · intro name hx hne f hf
    obtain ⟨w, hw, g, g', ns, h1, h2, h3⟩ := hg.function name hx f hf
    have := (C80_postponed other f g h1).2.2.2
    rw [h2] at this
    cases this
    exact ⟨g, ns, w, h1, h3, (hlook name hne).trans hw⟩
  · intro hno
    rw [hlook _ (by decide)]
    by_cases hx : "__module__" ∈ names
    · exact hg.noFunction _ hx (hno hx)
    · exact hg.kept _ hx
  · intro name hx e he
    obtain ⟨w, s', t', hw, hev⟩ := hgiven name e (mem_of_lookup (hg.annotation name hx e he))
    refine ⟨w, hw, fun env x h2 hon hbit hpy => ?_⟩
    cases n with
    | zero => omega
    | succ n =>
      rw [pyEval_congr e (restricted_agrees hon)] at hpy
      obtain ⟨t'', h1, -⟩ := evalExpr_of_pyEval (I := fun _ => True) (R := Eq)
        (look := evalPath W T depth other (n + 1)) (fun _ => rfl) (fun _ _ _ => Eq.trans)
        (fun _ _ _ _ => trivial)
        (fun id v h s _ => ⟨s, restricted_look (other := other) n id v h s, rfl⟩)
        e x hbit hpy s' trivial
      rw [hev] at h1
      exact Except.ok.inj (congrArg Prod.fst h1)

/-- `class C:` with `def f(self) -> int: ...` and `f: str`. -/
def methodStubs : Stubs :=
  classStubs [] "f" (some [.functionDef
    { name := "f", args := { args := [⟨"self", none⟩] }, returns := some (.name "int" true) },
    .annAssign (.name "f" false) (.name "str" true) none])

example : ∃ t, evalPath recordingPython methodStubs 9 (fun _ => "") 9 (["m"], ["C"]) {} =
      (.ok (.many [.made ["C"], .made ["__module__", "f", "__annotations__"]]), t) ∧
    runtimeObject recordingPython (["m"], ["C"]) = .ok none ∧ IsStubClass methodStubs (["m"], ["C"]) ∧
    declaredNames methodStubs (["m"], ["C"]) = some ["f"] ∧
    FunctionsAndAnnotations methodStubs (["m"], ["C"]) "f" := by
  refine ⟨_, rfl, rfl, rfl, rfl, ?_⟩
  intro node hnode
  rcases List.mem_cons.1 hnode with rfl | hnode
  · exact .inr ⟨_, rfl, rfl⟩
  · rcases List.mem_cons.1 hnode with rfl | hnode
    · exact .inl ⟨_, _, rfl⟩
    · cases hnode

/-! ### C90 -/

/-- **C90**, full statement: a class that only exists in stub files is one object: a name and an alias of
it have the same value. -/
def C90_statement : Prop :=
  ∀ (V : Type) (W : Interpreter V) (T : Stubs) (depth : Nat) (other : Atom → String) (n : Nat) (self : V)
    (m : Path) (name alias : String) (s t : EvalState V) (v w : V),
    runtimeObject W (m, [name]) = .ok none → runtimeObject W (m, [alias]) = .ok none →
    IsStubClass T (m, [name]) → aliasValue T (m, [alias]) = some (.name name true) →
    resolve T.toTables depth m [] [name] [] = .ok (m, [name]) →
    resolve T.toTables depth m [] [alias] [] = .ok (m, [alias]) →
    evaluateNode W T depth other n m [] (.name name true) (initialEval self) = (.ok v, s) →
    evaluateNode W T depth other n m [] (.name alias true) s = (.ok w, t) → w = v

/-- The names of the members of a class of `recordingPython`. -/
def recordedNames : Except PyErr SampleValue → Option Path
  | .ok (.many [_, .made names]) => some names
  | _ => none

/-- `A = C` and `class C: x = A`. -/
def twiceStubs : Stubs :=
  classStubs [.name "C" true] "x" (some [.assign [.name "x" false] (.name "A" true)])

/-- `A = C` and `class C: x = A`: the class is made twice, and `A` stays the first one. -/
theorem C90_refuted : ¬ C90_statement := by
  intro h
  cases h1 : evaluateNode recordingPython twiceStubs 9 (fun _ => "") 9 ["m"] [] (.name "C" true)
      (initialEval (.named "Self")) with
  | mk r s =>
    have hv : recordedNames r = some ["__module__", "x"] := by
      have : recordedNames (evaluateNode recordingPython twiceStubs 9 (fun _ => "") 9 ["m"] []
        (.name "C" true) (initialEval (.named "Self"))).1 = some ["__module__", "x"] := by decide +kernel
      rw [h1] at this
      exact this
    cases h2 : evaluateNode recordingPython twiceStubs 9 (fun _ => "") 9 ["m"] [] (.name "A" true) s with
    | mk r' t =>
      have hw : recordedNames r' = some ["__module__", "A", "x"] := by
        have : recordedNames (evaluateNode recordingPython twiceStubs 9 (fun _ => "") 9 ["m"] []
          (.name "A" true) (evaluateNode recordingPython twiceStubs 9 (fun _ => "") 9 ["m"] []
            (.name "C" true) (initialEval (.named "Self"))).2).1 = some ["__module__", "A", "x"] := by
          decide +kernel
        rw [h1, h2] at this
        exact this
      cases r with
      | error e => cases hv
      | ok v =>
        cases r' with
        | error e => cases hw
        | ok w =>
          have := h SampleValue recordingPython twiceStubs 9 (fun _ => "") 9 (.named "Self") ["m"] "C" "A"
            s t v w rfl rfl rfl rfl rfl rfl h1 h2
          rw [this, hv] at hw
          revert hw
          decide

/-- **C90**, names: once a class that only exists in stub files was evaluated, whatever is asked in
between, all names that resolve to it have this object as value. -/
theorem C90_once_partial {V : Type} (W : Interpreter V) (T : Stubs) (depth : Nat)
    (other : Atom → String) (n k : Nat) (q : QPath) (m parent m' parent' : Path) (id id' : String)
    (s t : EvalState V) (v : V) (queries : List Query) (hq : runtimeObject W q = .ok none) (hp : q.2 ≠ [])
    (hc : IsStubClass T q) (hr : resolve T.toTables depth m parent [id] [] = .ok q)
    (hr' : resolve T.toTables depth m' parent' [id'] [] = .ok q)
    (h : evaluateNode W T depth other n m parent (.name id true) s = (.ok v, t)) :
    (answers W T depth other (k + 1) (queries ++ [(m', parent', .name id' true)]) t).getLast?
      = some (.ok v) := by
  have hv : t.objects.lookup q = some v := by
    rw [evaluateNode, evalExpr] at h
    simp only [Bool.not_true, Bool.false_eq_true, if_false] at h
    rw [Ev.bind_ok (show evResolve T depth m parent [id] _ = (.ok q, _) from Ev.lift_ok hr _)] at h
    cases n with
    | zero => rw [evalPath] at h; cases congrArg Prod.fst h
    | succ n =>
      rw [evalPath_stub hq hp] at h
      exact evalStub_cached (fun w r => evalPath_keeps n r) hc h
  clear h
  induction queries generalizing t with
  | nil =>
    have : (evaluateNode W T depth other (k + 1) m' parent' (.name id' true) t).1 = .ok v := by
      rw [evaluateNode, evalExpr]
      simp only [Bool.not_true, Bool.false_eq_true, if_false]
      rw [Ev.bind_ok (show evResolve T depth m' parent' [id'] _ = (.ok q, _) from Ev.lift_ok hr' _),
        evalPath_stub hq hp]
      unfold evalStub
      rw [Ev.bind_ok (show Ev.get _ = (.ok _, _) from rfl)]
      simp only [hv]
      rfl
    simp only [List.nil_append, answers, this, List.getLast?_singleton]
  | cons x queries ih =>
    obtain ⟨a, b, e⟩ := x
    have := ih _ (evaluateNode_keeps (W := W) (T := T) (depth := depth) (other := other) (k + 1) a b e t hv)
    simp only [List.cons_append, answers]
    rw [List.getLast?_cons, this]
    rfl

/-- **C90**, aliases: evaluated after the class, an alias of it that was not evaluated before has this
object as value. Missing: aliases that are evaluated while the class is (the full statement is false for
these). -/
theorem C90_alias_partial {V : Type} (W : Interpreter V) (T : Stubs) (depth : Nat)
    (other : Atom → String) (n k : Nat) (q a : QPath) (m parent m' parent' : Path) (id id' name : String)
    (s t : EvalState V) (v : V) (hq : runtimeObject W q = .ok none) (hp : q.2 ≠ [])
    (hc : IsStubClass T q) (hr : resolve T.toTables depth m parent [id] [] = .ok q)
    (ha : runtimeObject W a = .ok none) (hal : aliasValue T a = some (.name name true))
    (hr' : resolve T.toTables depth m' parent' [id'] [] = .ok a)
    (hself : ∀ x, a.2.getLast? = some x → resolve T.toTables depth a.1 a.2.dropLast [x] [] = .ok a)
    (hname : resolve T.toTables depth a.1 a.2.dropLast [name] [] = .ok q)
    (href : ∀ x, ∃ w, W.forwardRef x = .ok w)
    (h : evaluateNode W T depth other n m parent (.name id true) s = (.ok v, t))
    (hfresh : t.assigned.lookup a = none) (hfresh' : t.objects.lookup a = none) :
    (evaluateNode W T depth other (k + 2) m' parent' (.name id' true) t).1 = .ok v := by
  have hv : t.objects.lookup q = some v := by
    rw [evaluateNode, evalExpr] at h
    simp only [Bool.not_true, Bool.false_eq_true, if_false] at h
    rw [Ev.bind_ok (show evResolve T depth m parent [id] _ = (.ok q, _) from Ev.lift_ok hr _)] at h
    cases n with
    | zero => rw [evalPath] at h; cases congrArg Prod.fst h
    | succ n =>
      rw [evalPath_stub hq hp] at h
      exact evalStub_cached (fun w r => evalPath_keeps n r) hc h
  have hap : a.2 ≠ [] := by
    obtain ⟨_, _, _, x, _, _, _, _, _, _, hl, _⟩ := aliasValue_spec hal
    intro h0; rw [h0] at hl; cases hl
  rw [evaluateNode, evalExpr]
  simp only [Bool.not_true, Bool.false_eq_true, if_false]
  rw [Ev.bind_ok (show evResolve T depth m' parent' [id'] _ = (.ok a, _) from Ev.lift_ok hr' _),
    evalPath_stub ha hap,
    evalStub_alias_eq hal hself (s := { t with ns := [], back := [] }) hfresh']
  simp only [hfresh]
  obtain ⟨w, hw⟩ := href (".".intercalate a.2)
  have key : ∀ u : EvalState V, u.objects = t.objects →
      evalExpr W T depth (evalPath W T depth other (k + 1)) a.1 a.2.dropLast (.name name true) u
        = (.ok v, u) := by
    intro u hu
    rw [evalExpr]
    simp only [Bool.not_true, Bool.false_eq_true, if_false]
    rw [Ev.bind_ok (show evResolve T depth a.1 a.2.dropLast [name] _ = (.ok q, _) from Ev.lift_ok hname _),
      evalPath_stub hq hp]
    unfold evalStub
    rw [Ev.bind_ok (show Ev.get _ = (.ok _, _) from rfl)]
    rw [hu]
    simp only [hv]
    rfl
  simp only [hw]
  rw [key { t with ns := [], back := [], assigned := dictPut a w t.assigned } rfl]

/-- The class of `methodStubs`, and `A = C`. -/
example : ∃ t, evaluateNode recordingPython (classStubs [.name "C" true] "x"
      (some [.annAssign (.name "x" false) (.name "A" true) none])) 9 (fun _ => "") 9 ["m"] []
      (.name "C" true) {} =
      (.ok (.many [.made ["C"], .made ["__module__", "__annotations__"]]), t) ∧
    IsStubClass (classStubs [.name "C" true] "x"
      (some [.annAssign (.name "x" false) (.name "A" true) none])) (["m"], ["C"]) ∧
    runtimeObject recordingPython (["m"], ["C"]) = .ok none := ⟨_, rfl, rfl, rfl⟩

end Paradigm.Props
