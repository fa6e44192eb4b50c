import Verif.Lemmas.Assignments
import Verif.Lemmas.Session
import Verif.Props.Evaluation
import Verif.Props.Parsed
import Verif.Props.Reading

/-!
# C102: signatures asked for one after the other
-/

namespace Paradigm.Props

open Spec

/-- **C102**, full statement: the signature of a callable does not depend on which callables were asked
about before. -/
def C102_statement : Prop :=
  ∀ (R : Runtime) (W : Interpreter Obj) (other : Atom → String) (n : Nat) (self : Obj)
    (cs : List Callable),
    session R (R.evaluator W other n) cs (initialEval self) =
      cs.map fun c => (fromCallableS R (R.evaluator W other n) c (initialEval self)).1

/-! ### Sample -/

/-- Python with the builtin classes `int` and `list`, of which only the second can be subscribed. -/
def sessionPython : Interpreter Obj where
  importModule m := if m = ["builtins"] then .ok (some (.form 90)) else .ok none
  getattr v name :=
    match v with
    | .form 90 =>
      if name = "int" then .ok (.cls 91) else if name = "list" then .ok (.cls 92)
      else .error .attributeError
    | _ => .error .attributeError
  getitem v i :=
    match v with
    | .cls 92 => .ok (.pep585 92 [i])
    | _ => .error (.typeError "not subscriptable")
  call _ _ _ := .error (.typeError "not callable")
  unary _ _ := .error (.typeError "no such operator")
  binary op _ _ := .error (.typeError op)
  union l _ := .ok l
  constant a := .atom a
  tuple vs := .tuple vs
  list vs := .list vs
  dict _ := .error (.typeError "unhashable")
  forwardRef _ := .ok (.form 93)
  newModule _ := .form 94
  newClass _ _ _ := .ok (.cls 95)
  define _ _ := .ok (.form 96)

/-- `def name(x: annotation)`. -/
def defOf (name : String) (annotation : Expr) : FunctionDef :=
  { name := name, args := { args := [⟨"x", some annotation⟩] } }

/-- The stub of `m` has the aliases `A = list[a]`, `B = list[b]`, `C = list[int]` and `D = missing` and
the functions `f(x: A)`, `g(x: B)` and `h(x: C)`. -/
def sessionFiles (a b : String) : StubFiles := filesOf [
  (["builtins"], [.classDef "int" [] [] [], .classDef "list" [] [] []]),
  (["m"], [.assign [tgt "A"] (sampleSubscript "list" (nm a)), .assign [tgt "B"] (sampleSubscript "list" (nm b)),
    .assign [tgt "C"] (sampleSubscript "list" (nm "int")), .assign [tgt "D"] (nm "missing"),
    .functionDef (defOf "f" (nm "A")), .functionDef (defOf "g" (nm "B")), .functionDef (defOf "h" (nm "C"))])]

/-- The tables read from these files, and where the functions are found. -/
def sessionRuntime (a b : String) : Runtime where
  stubs := match parseStubs (sessionFiles a b) (fun _ => "") 20 [["m"]] with
    | .ok T => T
    | .error _ => stubsSample
  depth := 5
  ev := fun _ _ _ => .error .keyError
  index := [(["m"], [(["f"], [(["m"], ["f"])]), (["g"], [(["m"], ["g"])]),
    (["h"], [(["m"], ["h"])])])]

def sessionF : Callable := .function { module_ := .text "m", qualname := "f" } (.error .keyError)
def sessionG : Callable := .function { module_ := .text "m", qualname := "g" } (.error .keyError)
def sessionH : Callable := .function { module_ := .text "m", qualname := "h" } (.error .keyError)

/-- The type of the only parameter. -/
def parameterType : Except PyErr Sig → Option Obj
  | .ok (.plain ⟨[p], _⟩) => some p.annotation
  | _ => none

/-- `A = list[B]` and `B = list[A]`: the answer for `g` depends on whether `f` was asked about before. -/
theorem C102_refuted : ¬ C102_statement := by
  intro h
  have := h (sessionRuntime "B" "A") sessionPython (fun _ => "") 9 (.form 99) [sessionF, sessionG]
  have h1 : (session (sessionRuntime "B" "A") ((sessionRuntime "B" "A").evaluator sessionPython (fun _ => "") 9)
      [sessionF, sessionG] (initialEval (.form 99))).map parameterType =
      [some (.pep585 92 [.pep585 92 [.form 93]]), some (.pep585 92 [.form 93])] := rfl
  have h2 : ([sessionF, sessionG].map fun c => (fromCallableS (sessionRuntime "B" "A")
      ((sessionRuntime "B" "A").evaluator sessionPython (fun _ => "") 9) c (initialEval (.form 99))).1).map
      parameterType =
      [some (.pep585 92 [.pep585 92 [.form 93]]), some (.pep585 92 [.pep585 92 [.form 93]])] := rfl
  rw [this, h2] at h1
  cases h1

/-- The expression has a value that does not depend on itself, or all its names exist at run time. -/
def Settled (R : Runtime) (W : Interpreter Obj) (self : Obj) (n : Nat) (m parent : Path) (e : Expr) : Prop :=
  (BitOps e ∧ ∃ v, Means (lenient W) R.stubs R.depth (selfKnown self) n m parent e v) ∨
    ∃ env, OnNames (Available W R.stubs R.depth m parent env) e ∧ NoAttributes e

/-- Garbage collection keeps what is cached for aliases with a meaning. -/
theorem collected_good {W : Interpreter Obj} {T : Stubs} {depth : Nat} {self : Obj} {s t : EvalState Obj}
    (h : Collected s t) (hs : CachesGood W T depth (selfKnown self) s) :
    CachesGood W T depth (selfKnown self) t := fun n => by
  refine ⟨?_, fun q v g => (hs n).objects q v (h.objects q v g), fun q v g => ?_⟩
  · rw [h.assigned]
    exact (hs n).assigned
  · have g' := (hs n).known q v g
    unfold selfKnown at g
    by_cases hq : q = (["_typeshed"], ["Self"])
    · subst hq
      rw [h.self, g']
    · rw [if_neg hq] at g
      cases g

/-- Nothing is collected. -/
theorem keepingAll : Collecting fun s => s := fun _ => ⟨rfl, rfl, rfl, fun _ _ h => h, rfl, fun _ _ h => h⟩

/-- **C102** for callables whose annotations do not depend on themselves: whatever callables were asked
about before (as long as none hit the recursion limit), and whatever garbage was collected in between, the answer is the
one given at first. -/
theorem C102_settled_partial (R : Runtime) (W : Interpreter Obj) (other : Atom → String) (n N : Nat)
    (collect : EvalState Obj → EvalState Obj) (hcollect : Collecting collect)
    (self : Obj) (hN : n ≤ N) (hpos : 0 < N) (hdepth : 2 ≤ R.depth)
    (hdef : ∀ q e, aliasValue R.stubs q = some e → DefinedIn R.stubs.toTables q.1 q.2)
    (hops : ∀ q e, aliasValue R.stubs q = some e → BitOps e)
    (href : ∀ t, ∃ v, W.forwardRef t = .ok v) (hown : OwnTargets R.stubs R.depth) (cs : List Callable)
    (hr : .error .recursionError ∉ session R ((R.evaluator W other N).after collect) cs (initialEval self))
    (i : Nat) (c : Callable) (hi : cs[i]? = some c)
    (hc : ∀ m parent e, MayRead R c m parent e → Settled R W self n m parent e) :
    (session R ((R.evaluator W other N).after collect) cs (initialEval self))[i]? =
        some (fromCallableS R ((R.evaluator W other N).after collect) c (initialEval self)).1 ∧
      (session R ((R.evaluator W other N).after collect) cs (initialEval self))[i]? =
        some (fromCallable { R with
          ev := fun m parent e => ((R.evaluator W other N).after collect m parent e (initialEval self)).1 } c) := by
  have hgc : ∀ s, CachesGood (lenient W) R.stubs R.depth (selfKnown self) s →
      CachesGood (lenient W) R.stubs R.depth (selfKnown self) (collect s) := fun s hs =>
    collected_good (hcollect s) hs
  have hkeep : ∀ m parent e, Keeps (CachesGood (lenient W) R.stubs R.depth (selfKnown self))
      ((R.evaluator W other N).after collect m parent e) := by
    intro m parent e s hs
    by_cases hrec : ((R.evaluator W other N).after collect m parent e s).1 = .error .recursionError
    · exact .inl hrec
    · exact .inr ⟨rfl, evaluateNode_good hdepth hdef hops href hown m parent e (hgc s hs) hrec⟩
  have hsteady : ∀ m parent e, Settled R W self n m parent e →
      Steady (CachesGood (lenient W) R.stubs R.depth (selfKnown self)) ((R.evaluator W other N).after collect m parent e)
        ((R.evaluator W other N).after collect m parent e (initialEval self)).1 := by
    intro m parent e hst
    have h0 := initialEval_good (lenient W) R.stubs R.depth self
    rcases hst with ⟨hb, v, hm⟩ | ⟨env, hn, ha⟩
    · have key : ∀ s, CachesGood (lenient W) R.stubs R.depth (selfKnown self) s →
          ∃ t, (R.evaluator W other N).after collect m parent e s = (.ok v, t) ∧
            CachesGood (lenient W) R.stubs R.depth (selfKnown self) t := by
        intro s hs
        have := evaluateNode_steady (other := other) hN hdepth hdef hops href hb hm (hgc s hs)
        exact this
      obtain ⟨t, ht, -⟩ := key _ h0
      rw [ht]
      exact key
    · obtain ⟨N, rfl⟩ : ∃ k, N = k + 1 := ⟨N - 1, by omega⟩
      obtain ⟨r, hr⟩ := C77_available_partial W R.stubs R.depth other N m parent env e hn ha
      intro s hs
      refine ⟨{ collect s with ns := [], back := [] }, ?_,
        CachesGood.caches (collect s) _ rfl rfl (hgc s hs)⟩
      show evaluateNode _ _ _ _ _ _ _ _ _ = _
      rw [hr]
      show _ = ((evaluateNode _ _ _ _ _ _ _ _ _).1, _)
      rw [hr]
  have hfn : Steady (CachesGood (lenient W) R.stubs R.depth (selfKnown self))
      (fromCallableS R ((R.evaluator W other N).after collect) c) (fromCallable { R with
        ev := fun m parent e => ((R.evaluator W other N).after collect m parent e (initialEval self)).1 } c) := by
    rw [← fromCallableS_ev R fun m parent e => ((R.evaluator W other N).after collect m parent e (initialEval self)).1]
    refine fromCallableS_steady fun f hf q node hq hnode m' parent' e' hreads => ?_
    exact hsteady m' parent' e' (hc m' parent' e' ⟨f, hf, q, node, (lookedUp_ev R _ f.1 f.2 q).1 hq, hnode, hreads⟩)
  have h2 := session_nth hkeep hfn (initialEval_good (lenient W) R.stubs R.depth self) hr hi
  obtain ⟨t, ht, -⟩ := hfn _ (initialEval_good (lenient W) R.stubs R.depth self)
  exact ⟨by rw [h2, ht], h2⟩

/-! ### Tables made from stub files -/

/-- **C76** for tables made from stub files without chained assignments. -/
theorem C76_parsed_partial {V : Type} (W : Interpreter V) (E : StubFiles) (rep : Atom → String) (k : Nat)
    (modules : List Path) (T : Stubs) (hT : parseStubs E rep k modules = .ok T) (hE : PlainFiles E)
    (depth : Nat) (other : Atom → String) (N : Nat) (self : V) (hdepth : 2 ≤ depth)
    (href : ∀ t, ∃ v, W.forwardRef t = .ok v) (queries : List Query)
    (hr : .error .recursionError ∉ answers W T depth other N queries (initialEval self))
    (i n : Nat) (m parent : Path) (e : Expr) (v : V) (hi : queries[i]? = some (m, parent, e))
    (hb : BitOps e) (hm : Means (lenient W) T depth (selfKnown self) n m parent e v) :
    (answers W T depth other N queries (initialEval self))[i]? = some (.ok v) :=
  C76_whatever_partial W T depth other N self hdepth (alias_defined hT) (ops_of_files hE hT) href
    (own_targets hT (targets_of_files hE hT) hdepth) queries hr i n m parent e v hi hb hm

/-- **C102** for tables made from stub files without chained assignments. -/
theorem C102_parsed_partial (R : Runtime) (W : Interpreter Obj) (other : Atom → String) (n N : Nat)
    (collect : EvalState Obj → EvalState Obj) (hcollect : Collecting collect)
    (self : Obj) (hN : n ≤ N) (hpos : 0 < N) (hdepth : 2 ≤ R.depth)
    (E : StubFiles) (rep : Atom → String) (k : Nat) (modules : List Path)
    (hT : parseStubs E rep k modules = .ok R.stubs) (hE : PlainFiles E)
    (href : ∀ t, ∃ v, W.forwardRef t = .ok v) (cs : List Callable)
    (hr : .error .recursionError ∉ session R ((R.evaluator W other N).after collect) cs (initialEval self))
    (i : Nat) (c : Callable) (hi : cs[i]? = some c)
    (hc : ∀ m parent e, MayRead R c m parent e → Settled R W self n m parent e) :
    (session R ((R.evaluator W other N).after collect) cs (initialEval self))[i]? =
        some (fromCallableS R ((R.evaluator W other N).after collect) c (initialEval self)).1 :=
  (C102_settled_partial R W other n N collect hcollect self hN hpos hdepth (alias_defined hT) (ops_of_files hE hT) href
    (own_targets hT (targets_of_files hE hT) hdepth) cs hr i c hi hc).1

/-! ### Examples -/

/-- To check all stored statements, go through the tables. -/
theorem stored_all {T : Stubs} {P : QPath → Stmt → Prop}
    (h : ∀ md ∈ T.rawAstNodes, ∀ ps ∈ md.2, ∀ node ∈ ps.2, P (md.1, ps.1) node) {q : QPath} {node : Stmt}
    (hq : StoredAt T q node) : P q node := by
  obtain ⟨nodes, stmts, h1, h2, h3⟩ := hq
  exact h (q.1, nodes) (mem_of_lookup h1) (q.2, stmts) (mem_of_lookup h2) node h3

theorem files_plain {d : Dict Path (List Stmt)} (h : ∀ mb ∈ d, AllPlainlyAssigning mb.2) : PlainFiles (filesOf d) :=
  fun m body hm => h (m, body) (mem_of_lookup hm)

theorem session_nodes : (sessionRuntime "B" "A").stubs.rawAstNodes = [(["builtins"], []),
    (["m"], [(["A"], [.assign [tgt "A"] (sampleSubscript "list" (nm "B"))]),
      (["B"], [.assign [tgt "B"] (sampleSubscript "list" (nm "A"))]),
      (["C"], [.assign [tgt "C"] (sampleSubscript "list" (nm "int"))]),
      (["f"], [.functionDef (defOf "f" (nm "A"))]), (["g"], [.functionDef (defOf "g" (nm "B"))]),
      (["h"], [.functionDef (defOf "h" (nm "C"))])]),
    (["__specializations"], [])] := rfl

theorem session_files : PlainFiles (sessionFiles "B" "A") := by
  refine files_plain fun mb hmb => ?_
  simp only [List.mem_cons, List.not_mem_nil, or_false] at hmb
  rcases hmb with rfl | rfl <;>
    simp [AllPlainlyAssigning, PlainlyAssigning, PlainAssignment, BitOps, sampleSubscript, nm, tgt]

/-- `h` reads nothing but `C`. -/
theorem session_reads {m parent : Path} {e : Expr}
    (h : MayRead (sessionRuntime "B" "A") sessionH m parent e) :
    m = ["m"] ∧ parent = [] ∧ e = nm "C" := by
  obtain ⟨f, hf, q, node, hq, hs, hr⟩ := h
  have hf : f = (false, .ofFunction { module_ := .text "m", qualname := "h" }) := by
    simpa [sessionH, lookedFor] using hf
  subst hf
  obtain ⟨paths, h1, h2⟩ := hq
  have h0 : toQualifiedPaths (sessionRuntime "B" "A")
    (.ofFunction { module_ := .text "m", qualname := "h" }) = .ok [(["m"], ["h"])] := rfl
  rw [h0] at h1
  cases h1
  have hq : q = (["m"], ["h"]) := by simpa using h2
  subst hq
  obtain ⟨nodes, stmts, h1, h2, h3⟩ := hs
  have hnode : node = .functionDef (defOf "h" (nm "C")) := by
    rw [session_nodes] at h1
    cases h1
    cases h2
    simpa using h3
  subst hnode
  cases hr with
  | parameter h => exact ⟨rfl, rfl, by simpa [argumentsParts, defOf] using h⟩
  | returns h => cases h
  | item h => cases h
  | named h => cases h

/-- `f` and `g` have annotations that depend on themselves; `h` does not, whatever is asked before. -/
example : (session (sessionRuntime "B" "A") ((sessionRuntime "B" "A").evaluator sessionPython (fun _ => "") 9)
    [sessionF, .other, sessionG, sessionH] (initialEval (.form 99)))[3]? =
    some (fromCallableS (sessionRuntime "B" "A")
      ((sessionRuntime "B" "A").evaluator sessionPython (fun _ => "") 9) sessionH (initialEval (.form 99))).1 := by
  refine C102_parsed_partial (sessionRuntime "B" "A") sessionPython (fun _ => "") 3 9 _ keepingAll (.form 99) (by decide)
    (by decide) (by decide) (sessionFiles "B" "A") (fun _ => "") 20 [["m"]] rfl session_files
    (fun _ => ⟨_, rfl⟩) [sessionF, .other, sessionG, sessionH] ?_ 3 sessionH rfl ?_
  · intro h
    simp only [session, List.mem_cons, List.not_mem_nil, or_false] at h
    rcases h with h | h | h | h <;> cases h
  · intro m parent e h
    obtain ⟨rfl, rfl, rfl⟩ := session_reads h
    exact .inl ⟨trivial, .pep585 92 [.cls 91], rfl⟩

/-- Nothing but `Self` survives from one evaluation to the next. -/
def forgetting (s : EvalState Obj) : EvalState Obj :=
  { s with
    objects := s.objects.filter fun e => e.1 == (["_typeshed"], ["Self"])
    modules := []
    clock := s.clock + 1 }

theorem lookup_only (q q' : QPath) : ∀ d : Dict QPath Obj,
    (d.filter fun e => e.1 == q').lookup q = if q = q' then d.lookup q else none
  | [] => by simp
  | (k, v) :: d => by
    by_cases hk : k = q'
    · subst hk
      rw [List.filter_cons_of_pos (by simp)]
      by_cases h : q = k
      · subst h
        simp [List.lookup]
      · have := lookup_only q k d
        rw [if_neg h] at this
        rw [if_neg h, List.lookup, beq_false_of_ne h]
        exact this
    · rw [List.filter_cons_of_neg (by simpa using hk), lookup_only q q' d]
      by_cases h : q = q'
      · subst h
        rw [if_pos rfl, if_pos rfl, List.lookup, beq_false_of_ne (Ne.symm hk)]
      · rw [if_neg h, if_neg h]

theorem forgetting_collects : Collecting forgetting := fun s => by
  refine ⟨rfl, rfl, rfl, fun q v h => ?_, ?_, fun m v h => by cases h⟩
  · unfold forgetting at h
    dsimp only at h
    rw [lookup_only] at h
    split at h
    · exact h
    · cases h
  · unfold forgetting
    dsimp only
    rw [lookup_only, if_pos rfl]

/-- The same if the weak caches are emptied before every evaluation. -/
example : (session (sessionRuntime "B" "A")
    (((sessionRuntime "B" "A").evaluator sessionPython (fun _ => "") 9).after forgetting)
    [sessionF, .other, sessionG, sessionH] (initialEval (.form 99)))[3]? =
    some (fromCallableS (sessionRuntime "B" "A")
      (((sessionRuntime "B" "A").evaluator sessionPython (fun _ => "") 9).after forgetting) sessionH
      (initialEval (.form 99))).1 := by
  refine C102_parsed_partial (sessionRuntime "B" "A") sessionPython (fun _ => "") 3 9 forgetting
    forgetting_collects (.form 99) (by decide)
    (by decide) (by decide) (sessionFiles "B" "A") (fun _ => "") 20 [["m"]] rfl session_files
    (fun _ => ⟨_, rfl⟩) [sessionF, .other, sessionG, sessionH] ?_ 3 sessionH rfl ?_
  · intro h
    simp only [session, List.mem_cons, List.not_mem_nil, or_false] at h
    rcases h with h | h | h | h <;> cases h
  · intro m parent e h
    obtain ⟨rfl, rfl, rfl⟩ := session_reads h
    exact .inl ⟨trivial, .pep585 92 [.cls 91], rfl⟩

example : parameterType (fromCallableS (sessionRuntime "B" "A")
    ((sessionRuntime "B" "A").evaluator sessionPython (fun _ => "") 9) sessionH (initialEval (.form 99))).1 =
    some (.pep585 92 [.cls 91]) := rfl

/-- The same for the evaluator alone; the second question fails. -/
example : (answers sessionPython (sessionRuntime "B" "A").stubs 5 (fun _ => "") 9
    [(["m"], [], nm "A"), (["m"], [], nm "missing"), (["m"], [], nm "B"), (["m"], [], nm "C")]
    (initialEval (.form 99)))[3]? = some (.ok (.pep585 92 [.cls 91])) := by
  refine C76_parsed_partial sessionPython (sessionFiles "B" "A") (fun _ => "") 20 [["m"]] _ rfl session_files
    5 (fun _ => "") 9 (.form 99) (by decide) (fun _ => ⟨_, rfl⟩) _ ?_ 3 3 ["m"] [] (nm "C") _ rfl
    trivial rfl
  intro h
  simp only [answers, List.mem_cons, List.not_mem_nil, or_false] at h
  rcases h with h | h | h | h <;> cases h

end Paradigm.Props
