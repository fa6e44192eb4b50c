import Verif.Lemmas.Converse
import Verif.Lemmas.EvaluationEnds
import Verif.Lemmas.Star
import Verif.Lemmas.Definitions
import Verif.Lemmas.Good

/-!
# C75–C80: what annotations evaluate to
-/

namespace Paradigm.Props

open Spec

/-! ### Sample -/

/-- Objects of the samples. -/
inductive SampleValue where
  | named (name : String)
  | item (value index : SampleValue)
  | union (left right : SampleValue)
  | forward
  | atom (value : Atom)
  | many (elements : List SampleValue)
  | made (path : Path)

/-- Python with the modules `builtins` and `shapes`. Of the builtins there are `int`, `str` and the
generic `list`; only `int | str` is supported as an operator. -/
def samplePython : Interpreter SampleValue where
  importModule m :=
    if m = ["builtins"] then .ok (some (.named "builtins"))
    else if m = ["shapes"] then .ok (some (.named "shapes"))
    else .ok none
  getattr v name :=
    match v with
    | .named "builtins" =>
      if name = "int" ∨ name = "str" ∨ name = "list" then .ok (.named name) else .error .attributeError
    | _ => .error .attributeError
  getitem v i :=
    match v with
    | .named "list" => .ok (.item v i)
    | _ => .error (.typeError "not subscriptable")
  call _ _ _ := .error (.typeError "not callable")
  unary _ _ := .error (.typeError "no such operator")
  binary op l r :=
    match l, r with
    | .named "int", .named "str" => if op = "BitOr" then .ok (.union l r) else .error (.typeError op)
    | _, _ => .error (.typeError op)
  union l r := .ok (.union l r)
  constant a := .atom a
  tuple vs := .many vs
  list vs := .many vs
  dict kvs := .ok (.many (kvs.map Prod.fst))
  forwardRef _ := .ok .forward
  newModule m := .made m
  newClass path _ _ := .ok (.made path)
  define f _ := .ok (.made [f.name])

/-- Tables with the names of builtins and one module, whose objects are all assignments. -/
def aliasStubs (m : Path) (aliases : List (String × List Expr)) : Stubs where
  definitions := [(["builtins"], .mk [("int", .mk []), ("str", .mk []), ("list", .mk [])]),
    (m, .mk (aliases.map fun a => (a.1, .mk [])))]
  references := [(["builtins"], []), (m, [])]
  submodules := []
  superclasses := []
  rawAstNodes := [(m, aliases.map fun a => ([a.1], a.2.map fun e => .assign [.name a.1 false] e))]
  nodesKinds := [(m, aliases.map fun a => ([a.1], .assignment))]

/-- `name[index]`. -/
def sampleSubscript (name : String) (index : Expr) : Expr := .subscript (.name name true) index true

/-! ### C75 -/

/-- **C75**, full statement: an expression whose names all exist evaluates as in Python. -/
def C75_statement : Prop :=
  ∀ (V : Type) (W : Interpreter V) (T : Stubs) (depth : Nat) (other : Atom → String) (n : Nat)
    (m parent : Path) (env : String → Option V) (e : Expr) (s : EvalState V),
    OnNames (Available W T depth m parent env) e →
    (evaluateNode W T depth other (n + 1) m parent e s).1 = pyEval W env e

/-- `int[str]` raises in Python, but evaluates to `int`. -/
theorem C75_refuted : ¬ C75_statement := by
  intro h
  have := h SampleValue samplePython (aliasStubs ["m"] []) 5 (fun _ => "") 0 ["m"] []
    (fun id => some (.named id)) (sampleSubscript "int" (.name "str" true)) {}
    ⟨⟨(["builtins"], ["int"]), .named "int", rfl, rfl, rfl⟩,
      ⟨(["builtins"], ["str"]), .named "str", by rfl, by rfl, by rfl⟩⟩
  have h1 : (evaluateNode samplePython (aliasStubs ["m"] []) 5 (fun _ => "") 1 ["m"] []
    (sampleSubscript "int" (.name "str" true)) {}).1 = .ok (.named "int") := rfl
  have h2 : pyEval samplePython (fun id => some (.named id)) (sampleSubscript "int" (.name "str" true))
    = .error (.typeError "not subscriptable") := rfl
  rw [h1, h2] at this
  cases this

/-- **C75**, values: where all names exist and Python gives a value, the evaluator gives the same and
nothing is cached. -/
theorem C75_value_partial {V : Type} (W : Interpreter V) (T : Stubs) (depth : Nat)
    (other : Atom → String) (n : Nat) (m parent : Path) (env : String → Option V) (e : Expr) (v : V)
    (s : EvalState V) (hn : OnNames (Available W T depth m parent env) e) (ho : BitOps e)
    (hv : pyEval W env e = .ok v) :
    evaluateNode W T depth other (n + 1) m parent e s = (.ok v, { s with ns := [], back := [] }) := by
  rw [pyEval_congr e (restricted_agrees hn)] at hv
  obtain ⟨t, h1, h2⟩ := evalExpr_of_pyEval (I := fun _ => True) (R := Eq)
    (look := evalPath W T depth other (n + 1)) (fun _ => rfl) (fun _ _ _ => Eq.trans)
    (fun _ _ _ _ => trivial)
    (fun id v h s _ => ⟨s, restricted_look (other := other) n id v h s, rfl⟩)
    e v ho hv { s with ns := [], back := [] } trivial
  rw [evaluateNode, h1, h2]

/-- **C75**, exactly: without attributes, the evaluator gives a value if and only if Python with the two
fallbacks for generic classes and unions does, and the same one. -/
theorem C75_lenient_partial {V : Type} (W : Interpreter V) (T : Stubs) (depth : Nat)
    (other : Atom → String) (n : Nat) (m parent : Path) (env : String → Option V) (e : Expr) (v : V)
    (s : EvalState V) (hn : OnNames (Available W T depth m parent env) e) (ho : BitOps e)
    (hp : PlainCalls e) (ha : NoAttributes e) :
    (evaluateNode W T depth other (n + 1) m parent e s).1 = .ok v ↔ pyEval (lenient W) env e = .ok v := by
  have hagree : pyEval (lenient W) env e = pyEval (lenient W) (restricted W T depth m parent env) e :=
    pyEval_congr e (restricted_agrees hn)
  constructor
  · intro h
    cases hr : evalExpr W T depth (evalPath W T depth other (n + 1)) m parent e
        { s with ns := [], back := [] } with
    | mk r t =>
      rw [evaluateNode, hr] at h
      subst h
      rcases pyEval_of_evalExpr (restricted_look n) e v _ t (restricted_some hn) hp hr with g | g
      · rw [hagree]; exact g
      · exact absurd ha g.2
  · intro h
    rw [hagree] at h
    obtain ⟨t, h1, -⟩ := evalExpr_of_pyEval (W := lenient W) (I := fun _ => True) (R := Eq)
      (look := evalPath W T depth other (n + 1)) (fun _ => rfl) (fun _ _ _ => Eq.trans)
      (fun _ _ _ _ => trivial)
      (fun id v h s _ => ⟨s, restricted_look n id v h s, rfl⟩)
      e v ho h { s with ns := [], back := [] } trivial
    rw [evalExpr_lenient] at h1
    rw [evaluateNode, h1]

/-- **C75**, attributes: a value of the evaluator is that of Python with the two fallbacks, unless Python
misses an attribute (which the evaluator then looks for in the stubs). -/
theorem C75_attributes {V : Type} (W : Interpreter V) (T : Stubs) (depth : Nat)
    (other : Atom → String) (n : Nat) (m parent : Path) (env : String → Option V) (e : Expr) (v : V)
    (s : EvalState V) (hn : OnNames (Available W T depth m parent env) e) (hp : PlainCalls e)
    (h : (evaluateNode W T depth other (n + 1) m parent e s).1 = .ok v) :
    pyEval (lenient W) env e = .ok v ∨
      pyEval (lenient W) env e = .error .attributeError ∧ ¬ NoAttributes e := by
  cases hr : evalExpr W T depth (evalPath W T depth other (n + 1)) m parent e
      { s with ns := [], back := [] } with
  | mk r t =>
    rw [evaluateNode, hr] at h
    subst h
    rw [pyEval_congr e (restricted_agrees hn)]
    exact pyEval_of_evalExpr (restricted_look n) e v _ t (restricted_some hn) hp hr

/-- `list[int | str]`. -/
example : OnNames (Available samplePython (aliasStubs ["m"] []) 5 ["m"] [] fun id => some (.named id))
      (sampleSubscript "list" (.binOp (.name "int" true) "BitOr" (.name "str" true))) ∧
    pyEval samplePython (fun id => some (.named id))
      (sampleSubscript "list" (.binOp (.name "int" true) "BitOr" (.name "str" true)))
      = .ok (.item (.named "list") (.union (.named "int") (.named "str"))) :=
  ⟨⟨⟨(["builtins"], ["list"]), .named "list", rfl, rfl, rfl⟩,
    ⟨(["builtins"], ["int"]), .named "int", rfl, rfl, rfl⟩,
    ⟨(["builtins"], ["str"]), .named "str", rfl, rfl, rfl⟩⟩, rfl⟩

/-! ### C76 -/

/-- A question: an expression in a module and class. -/
abbrev Query := Path × Path × Expr

/-- The answers to questions one after the other. -/
def answers {V : Type} (W : Interpreter V) (T : Stubs) (depth : Nat) (other : Atom → String) (n : Nat) :
    List Query → EvalState V → List (Except PyErr V)
  | [], _ => []
  | (m, parent, e) :: qs, s =>
    let r := evaluateNode W T depth other n m parent e s
    r.1 :: answers W T depth other n qs r.2

/-- **C76**, full statement: the answer to a question does not depend on what was asked before. -/
def C76_statement : Prop :=
  ∀ (V : Type) (W : Interpreter V) (T : Stubs) (depth : Nat) (other : Atom → String) (n : Nat) (self : V)
    (queries : List Query),
    answers W T depth other n queries (initialEval self) =
      queries.map fun q => (evaluateNode W T depth other n q.1 q.2.1 q.2.2 (initialEval self)).1

/-- `A = list[B]` and `B = list[A]`. -/
def mutualAliases : Stubs :=
  aliasStubs ["m"] [("A", [sampleSubscript "list" (.name "B" true)]), ("B", [sampleSubscript "list" (.name "A" true)])]

/-- Two aliases that use each other: asked after `A`, the answer for `B` is another one. -/
theorem C76_refuted : ¬ C76_statement := by
  intro h
  have := h SampleValue samplePython mutualAliases 5 (fun _ => "") 9 (.named "Self")
    [(["m"], [], .name "A" true), (["m"], [], .name "B" true)]
  have h1 : answers samplePython mutualAliases 5 (fun _ => "") 9
    [(["m"], [], .name "A" true), (["m"], [], .name "B" true)] (initialEval (.named "Self")) =
      [.ok (.item (.named "list") (.item (.named "list") .forward)),
        .ok (.item (.named "list") .forward)] := rfl
  have h2 : ([(["m"], [], .name "A" true), (["m"], [], .name "B" true)] : List Query).map (fun q =>
      (evaluateNode samplePython mutualAliases 5 (fun _ => "") 9 q.1 q.2.1 q.2.2
        (initialEval (.named "Self"))).1) =
      [.ok (.item (.named "list") (.item (.named "list") .forward)),
        .ok (.item (.named "list") (.item (.named "list") .forward))] := rfl
  rw [h1, h2] at this
  cases this

/-- `_typeshed.Self` has a meaning of its own. -/
def selfKnown {V : Type} (self : V) (q : QPath) : Option V :=
  if q = (["_typeshed"], ["Self"]) then some self else none

theorem initialEval_cache {V : Type} (W : Interpreter V) (T : Stubs) (depth n : Nat) (self : V) :
    CacheOk W T depth (selfKnown self) n (initialEval self) where
  assigned q v _ h := by cases h
  objects q v h := by
    left
    unfold initialEval at h
    unfold selfKnown
    by_cases g : q = (["_typeshed"], ["Self"])
    · subst g; rw [if_pos rfl]; simpa [List.lookup] using h
    · have : (q == (["_typeshed"], ["Self"])) = false := by simpa using g
      simp [List.lookup, this] at h
  known q v h := by
    unfold selfKnown at h
    unfold initialEval
    by_cases g : q = (["_typeshed"], ["Self"])
    · subst g; rw [if_pos rfl] at h; simpa [List.lookup] using h
    · rw [if_neg g] at h; cases h

/-- **C76**, answers: whatever was asked before, expressions that have a meaning (all of whose names
exist, or are aliases that do not depend on themselves) evaluate to their meaning. -/
theorem C76_meaning_partial {V : Type} (W : Interpreter V) (T : Stubs) (depth : Nat)
    (other : Atom → String) (n N : Nat) (self : V) (hN : n ≤ N) (hdepth : 2 ≤ depth)
    (hdef : ∀ q e, aliasValue T q = some e → DefinedIn T.toTables q.1 q.2)
    (hops : ∀ q e, aliasValue T q = some e → BitOps e)
    (href : ∀ t, ∃ v, W.forwardRef t = .ok v) (queries : List (Query × V))
    (hq : ∀ q ∈ queries, BitOps q.1.2.2 ∧
      Means (lenient W) T depth (selfKnown self) n q.1.1 q.1.2.1 q.1.2.2 q.2) :
    answers W T depth other N (queries.map Prod.fst) (initialEval self) =
      queries.map fun q => .ok q.2 := by
  have key : ∀ (queries : List (Query × V)) (s : EvalState V),
      (∀ q ∈ queries, BitOps q.1.2.2 ∧
        Means (lenient W) T depth (selfKnown self) n q.1.1 q.1.2.1 q.1.2.2 q.2) →
      CacheOk (lenient W) T depth (selfKnown self) n s →
      answers W T depth other N (queries.map Prod.fst) s = queries.map fun q => .ok q.2 := by
    intro queries
    induction queries with
    | nil => intro s _ _; rfl
    | cons x xs ih =>
      obtain ⟨⟨m, parent, e⟩, v⟩ := x
      intro s hq hs
      obtain ⟨hb, hm⟩ := hq ((m, parent, e), v) (by simp)
      have hs0 : CacheOk (lenient W) T depth (selfKnown self) n { s with ns := [], back := [] } :=
        ⟨hs.assigned, hs.objects, hs.known⟩
      obtain ⟨t, ht, hstep⟩ := evalExpr_of_pyEval (W := lenient W) (T := T) (depth := depth)
        (look := evalPath (lenient W) T depth other N) (m := m) (parent := parent)
        (env := nameEnv (lenient W) T depth (selfKnown self) n m parent)
        (I := CacheOk (lenient W) T depth (selfKnown self) n)
        (R := CacheStep (lenient W) T depth (selfKnown self))
        CacheStep.refl (fun _ _ _ => CacheStep.trans) (fun _ _ => CacheOk.step)
        (by
          intro id w hid u hu
          unfold nameEnv at hid
          cases hres : resolve T.toTables depth m parent [id] [] with
          | error x => rw [hres] at hid; cases hid
          | ok r =>
            rw [hres] at hid
            rw [Ev.bind_ok (show evResolve T depth m parent [id] u = (.ok r, u) from
              Ev.lift_ok hres u)]
            exact evalPath_meaning (W := lenient W) hdef hdepth hops href n N hN r w hid u hu)
        e v hb hm _ hs0
      rw [evalExpr_lenient] at ht
      rw [show evalPath (lenient W) T depth other N = evalPath W T depth other N from
        funext (evalPath_lenient N)] at ht
      have he : evaluateNode W T depth other N m parent e s = (.ok v, t) := ht
      simp only [List.map_cons, answers, he]
      rw [ih t (fun q h => hq q (by simp [h])) (hs0.step hstep)]
  exact key queries _ hq (initialEval_cache _ _ _ _ _)

theorem initialEval_good {V : Type} (W : Interpreter V) (T : Stubs) (depth : Nat) (self : V) :
    CachesGood W T depth (selfKnown self) (initialEval self) := fun _ => initialEval_cache _ _ _ _ _

/-- One question: the recursion limit is hit, or the caches stay good. -/
theorem evaluateNode_good {V : Type} {W : Interpreter V} {T : Stubs} {depth : Nat}
    {other : Atom → String} {N : Nat} {known : QPath → Option V} (hdepth : 2 ≤ depth)
    (hdef : ∀ q e, aliasValue T q = some e → DefinedIn T.toTables q.1 q.2)
    (hops : ∀ q e, aliasValue T q = some e → BitOps e)
    (href : ∀ t, ∃ v, W.forwardRef t = .ok v) (hown : OwnTargets T depth) (m parent : Path) (e : Expr)
    {s : EvalState V} (hs : CachesGood (lenient W) T depth known s)
    (hr : (evaluateNode W T depth other N m parent e s).1 ≠ .error .recursionError) :
    CachesGood (lenient W) T depth known (evaluateNode W T depth other N m parent e s).2 := by
  have := evalExpr_sim (W := lenient W) (T := T) (depth := depth) (look := evalPath (lenient W) T depth other N)
    (look' := evalPath (lenient W) T depth other N)
    (evalPath_good (W := lenient W) (known := known) hdef hdepth hops href hown N) m parent e
    { s with ns := [], back := [] } (CachesGood.caches s _ rfl rfl hs)
  rw [evalExpr_lenient, show evalPath (lenient W) T depth other N = evalPath W T depth other N from
    funext (evalPath_lenient N)] at this
  rcases this with h | ⟨-, h⟩
  · exact absurd h hr
  · exact h

/-- One question with a meaning whose nesting is within the recursion limit. -/
theorem evaluateNode_steady {V : Type} {W : Interpreter V} {T : Stubs} {depth : Nat}
    {other : Atom → String} {n N : Nat} {known : QPath → Option V} (hN : n ≤ N) (hdepth : 2 ≤ depth)
    (hdef : ∀ q e, aliasValue T q = some e → DefinedIn T.toTables q.1 q.2)
    (hops : ∀ q e, aliasValue T q = some e → BitOps e)
    (href : ∀ t, ∃ v, W.forwardRef t = .ok v) {m parent : Path} {e : Expr} {v : V} (hb : BitOps e)
    (hm : Means (lenient W) T depth known n m parent e v)
    {s : EvalState V} (hs : CachesGood (lenient W) T depth known s) :
    ∃ t, evaluateNode W T depth other N m parent e s = (.ok v, t) ∧ CachesGood (lenient W) T depth known t := by
  obtain ⟨t, ht, hstep⟩ := evalExpr_of_pyEval (W := lenient W) (T := T) (depth := depth)
    (look := evalPath (lenient W) T depth other N) (m := m) (parent := parent)
    (env := nameEnv (lenient W) T depth known n m parent)
    (I := CacheOk (lenient W) T depth known n)
    (R := CacheStep (lenient W) T depth known)
    CacheStep.refl (fun _ _ _ => CacheStep.trans) (fun _ _ => CacheOk.step)
    (by
      intro id w hid u hu
      unfold nameEnv at hid
      cases hres : resolve T.toTables depth m parent [id] [] with
      | error x => rw [hres] at hid; cases hid
      | ok r =>
        rw [hres] at hid
        rw [Ev.bind_ok (show evResolve T depth m parent [id] u = (.ok r, u) from
          Ev.lift_ok hres u)]
        exact evalPath_meaning (W := lenient W) hdef hdepth hops href n N hN r w hid u hu)
    e v hb hm _ (CachesGood.caches s { s with ns := [], back := [] } rfl rfl hs n)
  rw [evalExpr_lenient, show evalPath (lenient W) T depth other N =
    evalPath W T depth other N from funext (evalPath_lenient _)] at ht
  exact ⟨t, ht, (CachesGood.caches s { s with ns := [], back := [] } rfl rfl hs).step hstep⟩

/-- One question with a meaning: the recursion limit is hit, or the answer is the meaning. -/
theorem evaluateNode_meaning {V : Type} {W : Interpreter V} {T : Stubs} {depth : Nat}
    {other : Atom → String} {n N : Nat} {known : QPath → Option V} (hdepth : 2 ≤ depth)
    (hdef : ∀ q e, aliasValue T q = some e → DefinedIn T.toTables q.1 q.2)
    (hops : ∀ q e, aliasValue T q = some e → BitOps e)
    (href : ∀ t, ∃ v, W.forwardRef t = .ok v) {m parent : Path} {e : Expr} {v : V} (hb : BitOps e)
    (hm : Means (lenient W) T depth known n m parent e v)
    {s : EvalState V} (hs : CachesGood (lenient W) T depth known s) :
    (evaluateNode W T depth other N m parent e s).1 = .error .recursionError ∨
      (evaluateNode W T depth other N m parent e s).1 = .ok v := by
  obtain ⟨t, ht, -⟩ := evaluateNode_steady (other := other) (N := max n N) (by omega) hdepth hdef hops href
    hb hm hs
  rw [evaluateNode] at ht
  rcases evalExpr_sim (W := W) (T := T) (depth := depth)
    (evalPath_more (W := W) (T := T) (depth := depth) (other := other) N (max n N) (by omega)) m parent e
    { s with ns := [], back := [] } trivial with h | ⟨h, -⟩
  · exact .inl h
  · right
    rw [evaluateNode, h, ht]

/-- **C76**, any questions: whatever was asked before (be it answered or not, as long as the recursion
limit was not hit), an expression that has a meaning evaluates to its meaning. -/
theorem C76_whatever_partial {V : Type} (W : Interpreter V) (T : Stubs) (depth : Nat)
    (other : Atom → String) (N : Nat) (self : V) (hdepth : 2 ≤ depth)
    (hdef : ∀ q e, aliasValue T q = some e → DefinedIn T.toTables q.1 q.2)
    (hops : ∀ q e, aliasValue T q = some e → BitOps e)
    (href : ∀ t, ∃ v, W.forwardRef t = .ok v) (hown : OwnTargets T depth) (queries : List Query)
    (hr : .error .recursionError ∉ answers W T depth other N queries (initialEval self))
    (i n : Nat) (m parent : Path) (e : Expr) (v : V) (hi : queries[i]? = some (m, parent, e))
    (hb : BitOps e) (hm : Means (lenient W) T depth (selfKnown self) n m parent e v) :
    (answers W T depth other N queries (initialEval self))[i]? = some (.ok v) := by
  have key : ∀ (queries : List Query) (i : Nat) (s : EvalState V),
      CachesGood (lenient W) T depth (selfKnown self) s →
      .error .recursionError ∉ answers W T depth other N queries s →
      queries[i]? = some (m, parent, e) → (answers W T depth other N queries s)[i]? = some (.ok v) := by
    intro queries
    induction queries with
    | nil => intro i s _ _ h; simp at h
    | cons x xs ih =>
      obtain ⟨m', parent', e'⟩ := x
      intro i s hs hr hi
      simp only [answers, List.mem_cons, not_or] at hr
      cases i with
      | zero =>
        simp only [List.getElem?_cons_zero, Option.some.injEq, Prod.mk.injEq] at hi
        obtain ⟨rfl, rfl, rfl⟩ := hi
        simp only [answers, List.getElem?_cons_zero, Option.some.injEq]
        rcases evaluateNode_meaning (other := other) (N := N) hdepth hdef hops href hb hm hs with h | h
        · exact absurd h.symm hr.1
        · exact h
      | succ i =>
        simp only [List.getElem?_cons_succ] at hi
        simp only [answers, List.getElem?_cons_succ]
        exact ih i _ (evaluateNode_good hdepth hdef hops href hown m' parent' e' hs fun h => hr.1 h.symm)
          hr.2 hi
  exact key queries i _ (initialEval_good _ _ _ _) hr hi

/-- `A = list[int]` and `B = list[A]`. -/
def chainedAliases : Stubs :=
  aliasStubs ["m"] [("A", [sampleSubscript "list" (.name "int" true)]), ("B", [sampleSubscript "list" (.name "A" true)])]

example : Means samplePython chainedAliases 5 (selfKnown (.named "Self")) 3 ["m"] [] (.name "B" true)
    (.item (.named "list") (.item (.named "list") (.named "int"))) := rfl

example : answers samplePython chainedAliases 5 (fun _ => "") 9
    [(["m"], [], .name "A" true), (["m"], [], .name "B" true)] (initialEval (.named "Self")) =
      [.ok (.item (.named "list") (.named "int")),
        .ok (.item (.named "list") (.item (.named "list") (.named "int")))] := rfl

/-! ### C77 -/

/-- **C77**, full statement: what fails once fails again. -/
def C77_statement : Prop :=
  ∀ (V : Type) (W : Interpreter V) (T : Stubs) (depth : Nat) (other : Atom → String) (n : Nat)
    (m parent : Path) (e : Expr) (s : EvalState V) (x : PyErr),
    (evaluateNode W T depth other n m parent e s).1 = .error x →
    (evaluateNode W T depth other n m parent e (evaluateNode W T depth other n m parent e s).2).1
      = .error x

/-- `A = missing`: at first the name is not found, later `A` is a forward reference. -/
theorem C77_refuted : ¬ C77_statement := by
  intro h
  have := h SampleValue samplePython (aliasStubs ["m"] [("A", [.name "missing" true])]) 5 (fun _ => "") 9 ["m"] []
    (.name "A" true) {} .objectNotFound rfl
  have h1 : (evaluateNode samplePython (aliasStubs ["m"] [("A", [.name "missing" true])]) 5 (fun _ => "") 9
    ["m"] [] (.name "A" true) (evaluateNode samplePython
      (aliasStubs ["m"] [("A", [.name "missing" true])]) 5 (fun _ => "") 9 ["m"] []
      (.name "A" true) {}).2).1 = .ok .forward := rfl
  rw [h1] at this
  cases this

/-- **C77** where all names exist and no attributes are taken: the answer is always the same, be it a
value or an exception, and nothing is cached. -/
theorem C77_available_partial {V : Type} (W : Interpreter V) (T : Stubs) (depth : Nat)
    (other : Atom → String) (n : Nat) (m parent : Path) (env : String → Option V) (e : Expr)
    (hn : OnNames (Available W T depth m parent env) e) (ha : NoAttributes e) :
    ∃ r, ∀ s, evaluateNode W T depth other (n + 1) m parent e s
      = (r, { s with ns := [], back := [] }) := by
  obtain ⟨r, hr⟩ := evalExpr_same (restricted_look (other := other) n) e (restricted_some hn) ha
  exact ⟨r, fun s => hr _⟩

/-! ### C78 -/

/-- The stubs where of the definitions of an object only the last is left. -/
def lastOnly (T : Stubs) (q : QPath) : Stubs :=
  { T with rawAstNodes := T.rawAstNodes.map fun nodes => (nodes.1, nodes.2.map fun entry =>
      (entry.1, if (nodes.1, entry.1) = q then entry.2.getLast?.toList else entry.2)) }

/-- **C78**, full statement: of several definitions the last one counts. -/
def C78_statement : Prop :=
  ∀ (V : Type) (W : Interpreter V) (T : Stubs) (depth : Nat) (other : Atom → String) (n : Nat) (self : V)
    (q : QPath) (v : V), (evalPath W T depth other n q (initialEval self)).1 = .ok v →
    (evalPath W (lastOnly T q) depth other n q (initialEval self)).1 = .ok v

/-- `A = int` followed by `A = str`: the result is `int`. -/
theorem C78_refuted : ¬ C78_statement := by
  intro h
  have := h SampleValue samplePython (aliasStubs ["m"] [("A", [.name "int" true, .name "str" true])]) 5
    (fun _ => "") 9 (.named "Self") (["m"], ["A"]) (.named "int") rfl
  have h2 : (evalPath samplePython
      (lastOnly (aliasStubs ["m"] [("A", [.name "int" true, .name "str" true])]) (["m"], ["A"])) 5
      (fun _ => "") 9 (["m"], ["A"]) (initialEval (.named "Self"))).1 = .ok (.named "str") := rfl
  rw [h2] at this
  injection this with this
  injection this with this
  revert this
  decide

/-- Executing `def` statements with one name one after the other: the object the name is bound to at the
end. -/
def defineAll {V : Type} (W : Interpreter V) (ns : Dict String V) : List FunctionDef → Except PyErr V
  | [] => .error .nameError
  | [f] => W.define f ns
  | f :: fs =>
    match W.define f ns with
    | .ok v => defineAll W (dictPut f.name v ns) fs
    | .error e => .error e

theorem dictPut_again {α β : Type} [BEq α] [LawfulBEq α] (k : α) (v w : β) : ∀ d : Dict α β,
    dictPut k v (dictPut k w d) = dictPut k v d
  | [] => by simp [dictPut]
  | (k', v') :: d => by
    rw [dictPut]
    by_cases h : k' = k
    · subst h; simp [dictPut]
    · have : (k' == k) = false := by simpa using h
      simp [dictPut, this, dictPut_again]

theorem mapExcept_cons_inv {α β : Type} {f : α → Except PyErr β} {x : α} {xs : List α} {ys : List β}
    (h : mapExcept f (x :: xs) = .ok ys) :
    ∃ y ys', f x = .ok y ∧ mapExcept f xs = .ok ys' ∧ ys = y :: ys' := by
  rw [mapExcept] at h
  cases hx : f x with
  | error e => rw [hx] at h; cases h
  | ok y =>
    rw [hx] at h
    simp only at h
    cases hxs : mapExcept f xs with
    | error e => rw [hxs] at h; cases h
    | ok ys' => rw [hxs] at h; cases h; exact ⟨y, ys', rfl, rfl, rfl⟩

theorem evalNodes_functions {V : Type} {W : Interpreter V} {T : Stubs} {depth : Nat}
    {other : Atom → String} {look : QPath → Ev V V} {m path : Path} {name : String}
    (hlast : path.getLast? = some name) : ∀ (fs gs : List FunctionDef) (v : Option V) (s : EvalState V),
    fs ≠ [] → (∀ f ∈ fs, f.name = name) → mapExcept (lazyFunction other) fs = .ok gs → s.back = [] →
    (evalNodes W T depth other look m path v (fs.map .functionDef) s).1 = defineAll W s.ns gs
  | [], _, _, _, h, _, _, _ => absurd rfl h
  | f :: fs, gs, v, s, _, hname, hgs, hback => by
    obtain ⟨g, gs', hg, hgs', rfl⟩ := mapExcept_cons_inv hgs
    have hgname : g.name = name := by
      have : g.name = f.name := by
        unfold lazyFunction at hg
        repeat obtain ⟨_, -, hg⟩ := except_bind_ok.1 hg
        cases hg
        rfl
      rw [this]
      exact hname f (by simp)
    have hunf : evalNodes W T depth other look m path v ((f :: fs).map .functionDef) = (do
        let v ← evalStmt W T depth other look m path.dropLast (.functionDef f)
        putName (path.getLast?.getD "") v
        evalNodes W T depth other look m path (some v) (fs.map .functionDef)) := by
      cases v <;> rw [List.map_cons, evalNodes]
    have hstmt : evalStmt W T depth other look m path.dropLast (.functionDef f) s =
        match W.define g s.ns with
        | .ok v => (.ok v, { s with ns := dictPut name v s.ns })
        | .error e => (.error e, s) := by
      rw [evalStmt, Ev.bind_ok (Ev.lift_ok hg s), Ev.bind_ok (show Ev.get s = (.ok s, s) from rfl),
        show s.ns ++ s.back = s.ns by rw [hback, List.append_nil]]
      cases hd : W.define g s.ns with
      | error e => rw [Ev.bind_error (show Ev.lift (Except.error e) s = (.error e, s) from rfl)]
      | ok v => rw [Ev.bind_ok (Ev.lift_ok rfl s), hgname]; rfl
    rw [hunf]
    cases hd : W.define g s.ns with
    | error e =>
      rw [hd] at hstmt
      rw [Ev.bind_error hstmt]
      cases gs' <;> simp [defineAll, hd]
    | ok w =>
      rw [hd] at hstmt
      rw [Ev.bind_ok hstmt]
      rw [Ev.bind_ok (show putName (path.getLast?.getD "") w { s with ns := dictPut name w s.ns } =
        (.ok (), { s with ns := dictPut name w s.ns }) by
          rw [hlast]; unfold putName Ev.modify; simp [dictPut_again])]
      cases fs with
      | nil =>
        cases hgs'
        simp [defineAll, hd, evalNodes, Ev.pure]
      | cons f' fs =>
        have := evalNodes_functions (W := W) (T := T) (depth := depth) (look := look) (m := m) hlast
          (f' :: fs) gs' (some w) { s with ns := dictPut name w s.ns } (by simp)
          (fun f hf => hname f (by simp [hf])) hgs' hback
        rw [this]
        cases gs' with
        | nil =>
          obtain ⟨_, _, -, -, h⟩ := mapExcept_cons_inv hgs'
          cases h
        | cons g' gs' => simp [defineAll, hd, hgname]

/-- **C78** for functions: the name of a function that only exists in stubs evaluates to what Python's
executing of its definitions in order (their annotations being postponed) binds the name to. -/
theorem C78_functions_partial {V : Type} (W : Interpreter V) (T : Stubs) (depth : Nat)
    (other : Atom → String) (n : Nat) (m parent : Path) (id name : String) (q : QPath)
    (nodes : Dict Path (List Stmt)) (kinds : Dict Path NodeKind) (kind : NodeKind)
    (fs gs : List FunctionDef) (s : EvalState V)
    (hres : resolve T.toTables depth m parent [id] [] = .ok q) (hq : runtimeObject W q = .ok none)
    (hlast : q.2.getLast? = some name) (hnew : s.objects.lookup q = none)
    (hn : T.rawAstNodes.lookup q.1 = some nodes) (hk : T.nodesKinds.lookup q.1 = some kinds)
    (hkind : kinds.lookup q.2 = some kind) (hc : kind ≠ .class_)
    (hfs : nodes.lookup q.2 = some (fs.map .functionDef)) (hne : fs ≠ [])
    (hname : ∀ f ∈ fs, f.name = name) (hgs : mapExcept (lazyFunction other) fs = .ok gs) :
    (evaluateNode W T depth other (n + 1) m parent (.name id true) s).1 = defineAll W [] gs := by
  rw [evaluateNode, evalExpr]
  simp only [Bool.not_true, Bool.false_eq_true, if_false]
  rw [Ev.bind_ok (show evResolve T depth m parent [id] _ = (.ok q, _) from Ev.lift_ok hres _),
    evalPath_stub hq (by intro h; rw [h] at hlast; cases hlast)]
  unfold evalStub
  rw [Ev.bind_ok (show Ev.get _ = (.ok _, _) from rfl)]
  simp only [hnew]
  rw [Ev.bind_ok (Ev.lift_ok (show getKey T.rawAstNodes q.1 = .ok nodes by unfold getKey; rw [hn]) _),
    Ev.bind_ok (Ev.lift_ok (show getKey T.nodesKinds q.1 = .ok kinds by unfold getKey; rw [hk]) _),
    Ev.bind_ok (Ev.lift_ok (show getKey kinds q.2 = .ok kind by unfold getKey; rw [hkind]) _)]
  simp only [hfs]
  rw [if_pos hc]
  exact evalNodes_functions hlast fs gs none _ hne hname hgs rfl

/-- Two overloads of `run` in a module that only exists as a stub. -/
def overloadStubs : Stubs where
  definitions := [(["builtins"], .mk []), (["m"], .mk [("run", .mk [])])]
  references := [(["builtins"], []), (["m"], [])]
  submodules := []
  superclasses := []
  rawAstNodes := [(["m"], [(["run"], [
    .functionDef { name := "run", args := { args := [⟨"x", some (.name "int" true)⟩] } },
    .functionDef { name := "run", args := { args := [⟨"x", some (.name "str" true)⟩, ⟨"y", none⟩] } }])])]
  nodesKinds := [(["m"], [(["run"], .function)])]

/-- A Python whose functions remember their parameters. -/
def rememberingPython : Interpreter SampleValue :=
  { samplePython with define := fun f _ => .ok (.made (f.name :: f.args.args.map Arg.name)) }

example : resolve overloadStubs.toTables 5 ["m"] [] ["run"] [] = .ok (["m"], ["run"]) ∧
    (evaluateNode rememberingPython overloadStubs 5 (fun _ => "") 9 ["m"] [] (.name "run" true)
      (initialEval (.named "Self"))).1 = .ok (.made ["run", "x", "y"]) := ⟨rfl, rfl⟩

/-! ### C79 -/

/-- **C79**, full statement: if names can be resolved and Python's own operations end, evaluating ends. -/
def C79_statement : Prop :=
  ∀ (V : Type) (W : Interpreter V) (T : Stubs) (depth : Nat) (other : Atom → String) (m parent : Path)
    (e : Expr) (s : EvalState V), NoRecursion W →
    (∀ m parent path, resolve T.toTables depth m parent path [] ≠ .error .recursionError) →
    ∃ n, ∀ N, n ≤ N → (evaluateNode W T depth other N m parent e s).1 ≠ .error .recursionError

/-- Names are resolved within a number of nested calls that does not depend on them, if there is a
bounded rank. -/
theorem resolve_bounded {T : Tables} {ρ : Path → Path → Nat} (H : Ranked T ρ) {K : Nat}
    (hK : ∀ m p, ρ m p ≤ K) (m parent path : Path) :
    resolve T ((K + 1) * (2 * T.definitions.length + 2) + 1) m parent path [] ≠ .error .recursionError := by
  have key : ∀ n, (K + 1) * (2 * T.definitions.length + 2) ≤ n → ∀ m object,
      resolve T n m [] object [] ≠ .error .recursionError := by
    intro n hn m object
    refine (resolve_ranked H n m object [] ?_).1
    have h1 := starDepth_le_bound T m []
    have h2 := Nat.mul_le_mul_right (2 * T.definitions.length + 2) (hK m object)
    rw [Nat.add_mul] at hn
    omega
  by_cases hp : parent = []
  · subst hp; exact key _ (by omega) m path
  · cases path with
    | nil =>
      rw [resolve_succ]
      unfold step
      cases T.definitions.lookup m <;> simp
    | cons head rest =>
      cases hd : T.definitions.lookup m with
      | none => rw [resolve_succ]; unfold step; simp [hd]
      | some scope =>
        by_cases c1 : scopeContains scope parent = true
        · by_cases c2 : scopeContains scope (parent ++ [head]) = true
          · have h3 : parent.isEmpty = false := by cases parent <;> simp_all
            have : resolve T ((K + 1) * (2 * T.definitions.length + 2) + 1) m parent (head :: rest) []
                = resolve T ((K + 1) * (2 * T.definitions.length + 2)) m [] (parent ++ head :: rest) [] := by
              rw [resolve_succ]
              unfold step
              simp [hd, c1, c2, h3]
            rw [this]
            exact key _ (Nat.le_refl _) _ _
          · have : resolve T ((K + 1) * (2 * T.definitions.length + 2) + 1) m parent (head :: rest) []
                = resolve T ((K + 1) * (2 * T.definitions.length + 2) + 1) m [] (head :: rest) [] := by
              rw [resolve_succ, resolve_succ]
              unfold step
              simp [hd, c1, c2, scopeContains_nil]
            rw [this]
            exact key _ (by omega) _ _
        · rw [resolve_succ]; unfold step; simp [hd, c1]

/-- A rank for tables without references and base classes. -/
def plainRank (_ : Path) : Path → Nat
  | [] => 0
  | head :: _ => if head = "object" then 0 else 1

theorem plainRank_ranked {T : Tables} (hr : ∀ m refs p, T.references.lookup m = some refs →
      refs.lookup p = none) (hs : ∀ m c, T.supers m c = none) : Ranked T plainRank where
  append m p rest := by cases p <;> simp [plainRank]
  star m s p h := Nat.le_refl _
  builtin m p h := Nat.le_refl _
  object m head p rest _ hne := by simp [plainRank, hne]
  superclass m c ss s rest _ h := by rw [hs] at h; cases h
  reference m refs p rm ro rest _ h h' := by rw [hr m refs p h] at h'; cases h'
  referenceModule m refs p rm ro rest _ h h' := by rw [hr m refs p h] at h'; cases h'

theorem aliasStubs_resolve (m : Path) (aliases : List (String × List Expr)) :
    ∀ m' parent path, resolve (aliasStubs m aliases).toTables 13 m' parent path []
      ≠ .error .recursionError := by
  refine resolve_bounded (K := 1) (ρ := plainRank) (plainRank_ranked ?_ ?_) ?_
  · intro m' refs p h
    simp only [aliasStubs, List.lookup] at h
    split at h
    · cases h; rfl
    · split at h
      · cases h; rfl
      · cases h
  · intro m' c; rfl
  · intro m' p
    cases p <;> simp only [plainRank] <;> (try split) <;> omega

/-- `class C: x = C`, in a module that only exists as a stub. -/
def selfStubs : Stubs where
  definitions := [(["builtins"], .mk []), (["m"], .mk [("C", .mk [("x", .mk [])])])]
  references := [(["builtins"], []), (["m"], [])]
  submodules := []
  superclasses := []
  rawAstNodes := [(["m"], [(["C", "x"], [.assign [.name "x" false] (.name "C" true)])])]
  nodesKinds := [(["m"], [(["C"], .class_), (["C", "x"], .assignment)])]

theorem selfStubs_resolve : ∀ m parent path, resolve selfStubs.toTables 13 m parent path []
    ≠ .error .recursionError := by
  refine resolve_bounded (K := 1) (ρ := plainRank) (plainRank_ranked ?_ ?_) ?_
  · intro m' refs p h
    simp only [selfStubs, List.lookup] at h
    split at h
    · cases h; rfl
    · split at h
      · cases h; rfl
      · cases h
  · intro m' c; rfl
  · intro m' p
    cases p <;> simp only [plainRank] <;> (try split) <;> omega

theorem samplePython_ends : NoRecursion samplePython where
  importModule m := by unfold samplePython; simp only; split <;> (try split) <;> simp
  getattr v name := by unfold samplePython; simp only; split <;> (try split) <;> simp
  getitem v i := by unfold samplePython; simp only; split <;> simp
  call f vs kvs := by simp [samplePython]
  unary op v := by simp [samplePython]
  binary op l r := by unfold samplePython; simp only; split <;> (try split) <;> simp
  union l r := by simp [samplePython]
  dict kvs := by simp [samplePython]
  forwardRef t := by simp [samplePython]
  define f ns := by simp [samplePython]
  hidden v name := by unfold samplePython; simp only; split <;> (try split) <;> simp

theorem selfStubs_diverges : ∀ (n : Nat) (s : EvalState SampleValue), s.objects = [] →
    ∃ t, evalPath samplePython selfStubs 13 (fun _ => "") n (["m"], ["C"]) s = (.error .recursionError, t)
  | 0, s, _ => ⟨s, rfl⟩
  | n + 1, s, h => by
    obtain ⟨ns, back, assigned, objects, modules, given, clock⟩ := s
    simp only at h
    subst h
    have hr : resolve selfStubs.toTables 13 ["m"] ["C"] ["C"] [] = .ok (["m"], ["C"]) := rfl
    obtain ⟨t, ht⟩ := selfStubs_diverges n
      ⟨[("__name__", .atom (.str evaluationName))], [], assigned, [], modules, given, clock⟩ rfl
    have hdep : evalDependencies selfStubs 13 (evalPath samplePython selfStubs 13 (fun _ => "") n)
        ["m"] ["C"] ["C"] ⟨[("__name__", .atom (.str evaluationName))], [], assigned, [], modules, given, clock⟩
        = (.error .recursionError, t) := by
      rw [evalDependencies, Ev.bind_ok (show evResolve selfStubs 13 ["m"] ["C"] ["C"] _ = (.ok _, _) from
        Ev.lift_ok hr _), if_pos (by decide), Ev.bind_error ht]
    have hnodes : (Stmt.assign [.name "x" false] (.name "C" true)).dependencies = ["C"] := rfl
    refine ⟨{ t with ns := ns, back := back }, ?_⟩
    show evalClass samplePython selfStubs 13 (fun _ => "")
      (evalPath samplePython selfStubs 13 (fun _ => "") n) ["m"] ["C"]
      [(["C", "x"], [.assign [.name "x" false] (.name "C" true)])]
      ⟨ns, back, assigned, [], modules, given, clock⟩ = _
    have hw : Ev.within [("__name__", SampleValue.atom (.str evaluationName))] []
        (evalDependencies selfStubs 13 (evalPath samplePython selfStubs 13 (fun _ => "") n)
          ["m"] ["C"] ["C"]) ⟨ns, back, assigned, [], modules, given, clock⟩
        = (.error .recursionError, { t with ns := ns, back := back }) := by
      rw [Ev.within, hdep]
    have hdefs : evalDefinitions samplePython selfStubs 13 (fun _ => "")
        (evalPath samplePython selfStubs 13 (fun _ => "") n) ["m"] ["C"] none
        [.assign [.name "x" false] (.name "C" true)] [("__module__", .atom (.str evaluationName))]
        [("__name__", .atom (.str evaluationName))] ⟨ns, back, assigned, [], modules, given, clock⟩
        = (.error .recursionError, { t with ns := ns, back := back }) := by
      rw [evalDefinitions, Ev.bind_ok (show Ev.lift (lazyStmt (fun _ => "")
        (.assign [.name "x" false] (.name "C" true))) _ = (.ok _, _) from Ev.lift_ok rfl _), hnodes,
        show samplePython.order ["C"] = ["C"] from rfl, Ev.bind_error hw]
    unfold evalClass
    rw [Ev.bind_ok (show Ev.lift (getKey selfStubs.definitions ["m"]) _ = (.ok _, _) from Ev.lift_ok rfl _),
      Ev.bind_ok (show Ev.lift (scopeAt (Scope.mk [("C", Scope.mk [("x", Scope.mk [])])]) ["C"]) _ =
        (.ok (Scope.mk [("x", .mk [])]), _) from Ev.lift_ok rfl _)]
    have hm : evalMembers samplePython selfStubs 13 (fun _ => "")
        (evalPath samplePython selfStubs 13 (fun _ => "") n) ["m"] ["C"]
        [(["C", "x"], [.assign [.name "x" false] (.name "C" true)])] ["x"]
        [("__module__", .atom (.str evaluationName))] [("__name__", .atom (.str evaluationName))] []
        ⟨ns, back, assigned, [], modules, given, clock⟩
        = (.error .recursionError, { t with ns := ns, back := back }) := by
      rw [evalMembers, Ev.bind_ok (show Ev.lift (getKey
        [(["C", "x"], [Stmt.assign [.name "x" false] (.name "C" true)])] (["C"] ++ ["x"])) _ =
        (.ok [Stmt.assign [.name "x" false] (.name "C" true)], _) from Ev.lift_ok rfl _)]
      exact Ev.bind_error hdefs
    exact Ev.bind_error hm

/-- A class that only exists in a stub and has itself as an attribute. -/
theorem C79_refuted : ¬ C79_statement := by
  intro h
  obtain ⟨n, hn⟩ := h SampleValue samplePython selfStubs 13 (fun _ => "") ["m"] [] (.name "C" true) {}
    samplePython_ends selfStubs_resolve
  refine hn n (Nat.le_refl _) ?_
  obtain ⟨t, ht⟩ := selfStubs_diverges n {} rfl
  rw [evaluateNode, evalExpr]
  simp only [Bool.not_true, Bool.false_eq_true, if_false]
  rw [Ev.bind_ok (show evResolve selfStubs 13 ["m"] [] ["C"] _ = (.ok (["m"], ["C"]), _) from
    Ev.lift_ok rfl _), ht]

/-- **C79** where no class exists in stubs only: aliases may depend on themselves and on each other. As
many nested calls are enough as there are modules and objects that are assigned to, and one more. -/
theorem C79_terminates_partial {V : Type} (W : Interpreter V) (T : Stubs) (depth : Nat)
    (other : Atom → String) (n : Nat) (m parent : Path) (e : Expr) (s : EvalState V) (hW : NoRecursion W)
    (hres : ∀ m parent path, resolve T.toTables depth m parent path [] ≠ .error .recursionError)
    (hcls : ∀ q, runtimeObject W q = .ok none → ∀ kinds, T.nodesKinds.lookup q.1 = some kinds →
      kinds.lookup q.2 ≠ some .class_)
    (hne : ∀ nodes ∈ T.rawAstNodes, ∀ entry ∈ nodes.2, ∀ node ∈ entry.2, ∀ e, node ≠ .assign [] e)
    (hn : (assignedObjects T depth).length + T.definitions.length < n) :
    (evaluateNode W T depth other n m parent e s).1 ≠ .error .recursionError := by
  refine (evalExpr_terminates hW uncached_keep hres
    (evalPath_terminates hW hres hcls hne n) m parent e _ ?_).1
  refine Nat.lt_of_le_of_lt ?_ hn
  unfold uncached
  have h1 := List.length_filter_le (fun q => !(s.assigned.lookup q).isSome) (assignedObjects T depth)
  have h2 := List.length_filter_le (fun q => !(s.modules.lookup q).isSome) (T.definitions.map Prod.fst)
  rw [List.length_map] at h2
  exact Nat.add_le_add h1 h2

/-- Two aliases that use each other. -/
example : (∀ m parent path, resolve mutualAliases.toTables 13 m parent path []
      ≠ .error .recursionError) ∧
    (∀ q, runtimeObject samplePython q = .ok none → ∀ kinds,
      mutualAliases.nodesKinds.lookup q.1 = some kinds → kinds.lookup q.2 ≠ some .class_) ∧
    (assignedObjects mutualAliases 13).length + mutualAliases.definitions.length = 4 := by
  refine ⟨aliasStubs_resolve _ _, ?_, rfl⟩
  intro q _ kinds h
  simp only [mutualAliases, aliasStubs, List.lookup] at h
  split at h
  · cases h
    simp only [List.map, List.lookup]
    split
    · simp
    · split <;> simp
  · cases h

/-! ### C80 -/

/-- A parameter without its annotation. -/
def bareArg (a : Arg) : Arg := { a with annotation := none }

/-- A function without its annotations. -/
def bareFunction (f : FunctionDef) : FunctionDef :=
  { f with returns := none, args := { f.args with
      posonlyargs := f.args.posonlyargs.map bareArg, args := f.args.args.map bareArg,
      vararg := f.args.vararg.map bareArg, kwonlyargs := f.args.kwonlyargs.map bareArg,
      kwarg := f.args.kwarg.map bareArg } }

/-- The annotations of a function: of the parameters in order and of the result. -/
def annotationsOf (f : FunctionDef) : List (Option Expr) :=
  (f.args.posonlyargs ++ f.args.args ++ f.args.vararg.toList ++ f.args.kwonlyargs
    ++ f.args.kwarg.toList).map Arg.annotation ++ [f.returns]

theorem lazyExpr_idem {other : Atom → String} {e e' : Option Expr} (h : lazyExpr other e = .ok e') :
    e'.isSome = e.isSome ∧ (∀ x, e' = some x → ∃ t, x = .constant (.str t)) ∧
      lazyExpr other e' = .ok e' := by
  cases e with
  | none => cases h; exact ⟨rfl, (by intro x h; cases h), rfl⟩
  | some e =>
    rw [lazyExpr] at h
    cases ht : toStr other e with
    | error x => rw [ht] at h; cases h
    | ok t =>
      rw [ht] at h
      cases h
      exact ⟨rfl, (by intro x h; cases h; exact ⟨t, rfl⟩), rfl⟩

/-- What postponing a parameter gives. -/
def PostponedArg (other : Atom → String) (a b : Arg) : Prop :=
  bareArg b = bareArg a ∧ b.annotation.isSome = a.annotation.isSome ∧
    (∀ x, b.annotation = some x → ∃ t, x = .constant (.str t)) ∧ lazyArg other b = .ok b

theorem lazyArg_postponed {other : Atom → String} {a b : Arg} (h : lazyArg other a = .ok b) :
    PostponedArg other a b := by
  unfold lazyArg at h
  cases hx : lazyExpr other a.annotation with
  | error e => rw [hx] at h; cases h
  | ok x =>
    rw [hx] at h
    cases h
    obtain ⟨h1, h2, h3⟩ := lazyExpr_idem hx
    exact ⟨rfl, h1, h2, by unfold lazyArg; simp only [h3]⟩

/-- What postponing parameters gives. -/
def PostponedArgs (other : Atom → String) (as bs : List Arg) : Prop :=
  bs.map bareArg = as.map bareArg ∧
    bs.map (fun b => b.annotation.isSome) = as.map (fun a => a.annotation.isSome) ∧
    (∀ b ∈ bs, ∀ x, b.annotation = some x → ∃ t, x = .constant (.str t)) ∧
    mapExcept (lazyArg other) bs = .ok bs

theorem lazyArgs_postponed {other : Atom → String} : ∀ {as bs : List Arg},
    mapExcept (lazyArg other) as = .ok bs → PostponedArgs other as bs
  | [], bs, h => by cases h; exact ⟨rfl, rfl, nofun, rfl⟩
  | a :: as, bs, h => by
    obtain ⟨b, bs', hb, hbs, rfl⟩ := mapExcept_cons_inv h
    obtain ⟨h1, h2, h3, h4⟩ := lazyArg_postponed hb
    obtain ⟨g1, g2, g3, g4⟩ := lazyArgs_postponed hbs
    refine ⟨by simp [h1, g1], by simp [h2, g2], ?_, ?_⟩
    · intro x hx
      rcases List.mem_cons.1 hx with rfl | hx
      · exact h3
      · exact g3 x hx
    · rw [mapExcept, h4, g4]

theorem lazyArgOption_postponed {other : Atom → String} {a b : Option Arg}
    (h : lazyArgOption other a = .ok b) :
    b.map bareArg = a.map bareArg ∧ b.toList.map (fun b => b.annotation.isSome)
        = a.toList.map (fun a => a.annotation.isSome) ∧
      (∀ b' ∈ b.toList, ∀ x, b'.annotation = some x → ∃ t, x = .constant (.str t)) ∧
      lazyArgOption other b = .ok b := by
  cases a with
  | none => cases h; exact ⟨rfl, rfl, nofun, rfl⟩
  | some a =>
    rw [lazyArgOption] at h
    cases hx : lazyArg other a with
    | error e => rw [hx] at h; cases h
    | ok x =>
      rw [hx] at h
      cases h
      obtain ⟨h1, h2, h3, h4⟩ := lazyArg_postponed hx
      refine ⟨by simp [h1], by simp [h2], ?_, by rw [lazyArgOption, h4]⟩
      intro b hb
      simp only [Option.toList, List.mem_singleton] at hb
      subst hb
      exact h3

/-- **C80** Postponing the annotations of a function changes nothing but its annotations: there are
annotations where there were some, all of them strings, and postponing again changes nothing. -/
theorem C80_postponed (other : Atom → String) (f g : FunctionDef) (h : lazyFunction other f = .ok g) :
    bareFunction g = bareFunction f ∧
    (annotationsOf g).map Option.isSome = (annotationsOf f).map Option.isSome ∧
    (∀ x, some x ∈ annotationsOf g → ∃ t, x = .constant (.str t)) ∧
    lazyFunction other g = .ok g := by
  unfold lazyFunction at h
  obtain ⟨r, hr, h⟩ := except_bind_ok.1 h
  obtain ⟨ps, hps, h⟩ := except_bind_ok.1 h
  obtain ⟨as, has, h⟩ := except_bind_ok.1 h
  obtain ⟨va, hva, h⟩ := except_bind_ok.1 h
  obtain ⟨ks, hks, h⟩ := except_bind_ok.1 h
  obtain ⟨ka, hka, h⟩ := except_bind_ok.1 h
  cases h
  obtain ⟨r1, r2, r3⟩ := lazyExpr_idem hr
  obtain ⟨p1, p2, p3, p4⟩ := lazyArgs_postponed hps
  obtain ⟨a1, a2, a3, a4⟩ := lazyArgs_postponed has
  obtain ⟨v1, v2, v3, v4⟩ := lazyArgOption_postponed hva
  obtain ⟨k1, k2, k3, k4⟩ := lazyArgs_postponed hks
  obtain ⟨w1, w2, w3, w4⟩ := lazyArgOption_postponed hka
  refine ⟨by simp [bareFunction, p1, a1, v1, k1, w1], ?_, ?_, ?_⟩
  · simp only [annotationsOf, List.map_append, List.map_map, List.map_cons, List.map_nil, r1]
    simp only [Function.comp_def, p2, a2, v2, k2, w2]
  · intro x hx
    simp only [annotationsOf, List.mem_append, List.mem_map, List.mem_singleton] at hx
    rcases hx with ⟨b, hb, hx⟩ | hx
    · rcases hb with (((hb | hb) | hb) | hb) | hb
      · exact p3 b hb x hx
      · exact a3 b hb x hx
      · exact v3 b hb x hx
      · exact k3 b hb x hx
      · exact w3 b hb x hx
    · exact r2 x hx.symm
  · unfold lazyFunction
    simp only [r3, p4, a4, v4, k4, w4]
    rfl

/-- `def run(x: list[int], *rest, key: str = …) -> int | None: …`. -/
example : lazyFunction (fun _ => "...") {
      name := "run"
      returns := some (.binOp (.name "int" true) "BitOr" (.constant .none))
      args := {
        args := [⟨"x", some (sampleSubscript "list" (.name "int" true))⟩]
        vararg := some ⟨"rest", none⟩
        kwonlyargs := [⟨"key", some (.name "str" true)⟩]
        kwDefaults := [some (.constant .ellipsis)] } } =
    .ok {
      name := "run"
      returns := some (.constant (.str "int | None"))
      args := {
        args := [⟨"x", some (.constant (.str "list[int]"))⟩]
        vararg := some ⟨"rest", none⟩
        kwonlyargs := [⟨"key", some (.constant (.str "str"))⟩]
        kwDefaults := [some (.constant .ellipsis)] } } := rfl

end Paradigm.Props
