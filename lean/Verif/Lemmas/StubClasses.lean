import Verif.Lemmas.Definitions
import Verif.Lemmas.EvaluationEnds
import Verif.Lemmas.Pointwise
import Verif.Spec.StubClasses

/-!
# Lemmas about classes that only exist in stub files
-/

namespace Paradigm

open Spec

/-! ### Cached classes stay -/

section

variable {V α β : Type}

/-- The computation keeps the cached object. -/
def KeepsObject (q : QPath) (v : V) (x : Ev V α) : Prop :=
  ∀ s, s.objects.lookup q = some v → (x s).2.objects.lookup q = some v

variable {q : QPath} {v : V}

theorem KeepsObject.pure (a : α) : KeepsObject q v (Ev.pure a : Ev V α) := fun _ h => h

theorem KeepsObject.raise (e : PyErr) : KeepsObject q v (Ev.raise e : Ev V α) := fun _ h => h

theorem KeepsObject.lift (x : Except PyErr α) : KeepsObject q v (Ev.lift x : Ev V α) := fun _ h => h

theorem KeepsObject.get : KeepsObject q v (Ev.get : Ev V (EvalState V)) := fun _ h => h

theorem KeepsObject.modify {f : EvalState V → EvalState V} (h : ∀ s, (f s).objects = s.objects) :
    KeepsObject q v (Ev.modify f) := fun s g => by
  show (f s).objects.lookup q = some v
  rw [h]; exact g

theorem KeepsObject.bind {x : Ev V α} {f : α → Ev V β} (hx : KeepsObject q v x)
    (hf : ∀ a, KeepsObject q v (f a)) : KeepsObject q v (x >>= f) := by
  intro s hs
  have h1 := hx s hs
  cases h : x s with
  | mk r t =>
    rw [h] at h1
    cases r with
    | ok a => rw [Ev.bind_ok h]; exact hf a t h1
    | error e => rw [Ev.bind_error h]; exact h1

theorem KeepsObject.within {x : Ev V α} (hx : KeepsObject q v x) (ns back : Dict String V) :
    KeepsObject q v (Ev.within ns back x) := by
  intro s hs
  have h1 := hx { s with ns := ns, back := back } hs
  unfold Ev.within
  cases h : x { s with ns := ns, back := back } with
  | mk r t =>
    rw [h] at h1
    cases r <;> exact h1

theorem KeepsObject.each {f : α → Ev V β} (hf : ∀ x, KeepsObject q v (f x)) : ∀ xs : List α,
    KeepsObject q v (Ev.each f xs)
  | [] => KeepsObject.pure _
  | x :: xs => by
    rw [Ev.each]
    exact (hf x).bind fun _ => (KeepsObject.each hf xs).bind fun _ => KeepsObject.pure _

theorem KeepsObject.putName (name : String) (w : V) : KeepsObject q v (putName name w) :=
  KeepsObject.modify fun _ => rfl

end

section

variable {V : Type} {W : Interpreter V} {T : Stubs} {depth : Nat} {other : Atom → String}
  {look : QPath → Ev V V} {q : QPath} {v : V} (hlook : ∀ r, KeepsObject q v (look r))

theorem evResolve_keeps (m parent path : Path) :
    KeepsObject q v (evResolve (V := V) T depth m parent path) := KeepsObject.lift _

include hlook

mutual

theorem evalExpr_keeps (m parent : Path) : ∀ e : Expr,
    KeepsObject q v (evalExpr W T depth look m parent e)
  | .name id load => by
    rw [evalExpr]
    split
    · exact KeepsObject.raise _
    · exact (evResolve_keeps _ _ _).bind fun r => hlook r
  | .attribute value attr load => by
    rw [evalExpr]
    split
    · exact KeepsObject.raise _
    · refine (evalExpr_keeps m parent value).bind fun x => ?_
      split
      · exact KeepsObject.pure _
      · exact (KeepsObject.lift _).bind fun _ => (evResolve_keeps _ _ _).bind fun r => hlook r
      · exact KeepsObject.raise _
  | .subscript value slice load => by
    rw [evalExpr]
    split
    · exact KeepsObject.raise _
    · exact (evalExpr_keeps m parent value).bind fun _ => (evalExpr_keeps m parent slice).bind fun _ =>
        KeepsObject.lift _
  | .tuple elts load => by
    rw [evalExpr]
    split
    · exact KeepsObject.raise _
    · exact (evalExprs_keeps m parent elts).bind fun _ => KeepsObject.pure _
  | .list elts => by
    rw [evalExpr]
    exact (evalExprs_keeps m parent elts).bind fun _ => KeepsObject.pure _
  | .call func args keywords => by
    rw [evalExpr]
    exact (evalExprs_keeps m parent args).bind fun _ =>
      (evalKeywords_keeps m parent keywords).bind fun _ =>
        (evalExpr_keeps m parent func).bind fun _ => KeepsObject.lift _
  | .constant value => by rw [evalExpr]; exact KeepsObject.pure _
  | .binOp left op right => by
    rw [evalExpr]
    exact (evalExpr_keeps m parent left).bind fun _ => (evalExpr_keeps m parent right).bind fun _ =>
      KeepsObject.lift _
  | .other tag [operand] => by
    rcases other_cases tag [operand] with rfl | ⟨hd, ⟨o, ho, e⟩ | ho⟩
    · rw [evalExpr_dict, evalEntries_short _ _ _ _ _ _ (by intro _ _ _ h; cases h)]
      exact (KeepsObject.pure _).bind fun _ => KeepsObject.lift _
    · cases e
      rw [evalExpr_unary _ _ _ _ _ _ ho]
      exact (evalExpr_keeps m parent operand).bind fun _ => KeepsObject.lift _
    · obtain ⟨x, hx⟩ := evalExpr_other W T depth look m parent hd ho
      rw [hx]
      exact KeepsObject.raise _
  | .other tag [] => by
    rcases other_cases tag [] with rfl | ⟨hd, ⟨o, ho, e⟩ | ho⟩
    · rw [evalExpr_dict, evalEntries_short _ _ _ _ _ _ (by intro _ _ _ h; cases h)]
      exact (KeepsObject.pure _).bind fun _ => KeepsObject.lift _
    · cases e
    · obtain ⟨x, hx⟩ := evalExpr_other W T depth look m parent hd ho
      rw [hx]
      exact KeepsObject.raise _
  | .other tag (k :: x :: es) => by
    rcases other_cases tag (k :: x :: es) with rfl | ⟨hd, ⟨o, ho, e⟩ | ho⟩
    · rw [evalExpr_dict]
      exact (evalEntries_keeps m parent (k :: x :: es)).bind fun _ => KeepsObject.lift _
    · cases e
    · obtain ⟨y, hy⟩ := evalExpr_other W T depth look m parent hd ho
      rw [hy]
      exact KeepsObject.raise _

theorem evalExprs_keeps (m parent : Path) : ∀ es : List Expr,
    KeepsObject q v (evalExprs W T depth look m parent es)
  | [] => by rw [evalExprs]; exact KeepsObject.pure _
  | e :: es => by
    rw [evalExprs]
    exact (evalExpr_keeps m parent e).bind fun _ => (evalExprs_keeps m parent es).bind fun _ =>
      KeepsObject.pure _

theorem evalKeywords_keeps (m parent : Path) : ∀ es : List (Option String × Expr),
    KeepsObject q v (evalKeywords W T depth look m parent es)
  | [] => by rw [evalKeywords]; exact KeepsObject.pure _
  | (k, e) :: es => by
    rw [evalKeywords]
    exact (evalExpr_keeps m parent e).bind fun _ => (evalKeywords_keeps m parent es).bind fun _ =>
      KeepsObject.pure _

theorem evalEntries_keeps (m parent : Path) : ∀ es : List Expr,
    KeepsObject q v (evalEntries W T depth look m parent es)
  | [] => by rw [evalEntries_short _ _ _ _ _ _ (by intro _ _ _ h; cases h)]; exact KeepsObject.pure _
  | [_] => by rw [evalEntries_short _ _ _ _ _ _ (by intro _ _ _ h; cases h)]; exact KeepsObject.pure _
  | k :: e :: es => by
    rw [evalEntries]
    exact (evalExpr_keeps m parent k).bind fun _ => (evalExpr_keeps m parent e).bind fun _ =>
      (evalEntries_keeps m parent es).bind fun _ => KeepsObject.pure _

end

omit hlook in
theorem cachedTarget_keeps : ∀ qs : List QPath, KeepsObject q v (cachedTarget W qs)
  | [] => by rw [cachedTarget]; exact KeepsObject.pure _
  | r :: qs => by
    rw [cachedTarget]
    refine KeepsObject.get.bind fun s => ?_
    split
    · exact KeepsObject.pure _
    · exact (KeepsObject.lift _).bind fun _ => KeepsObject.bind (KeepsObject.modify fun _ => rfl) fun _ =>
        cachedTarget_keeps qs

theorem evalAssign_keeps (m parent : Path) (targets : List Expr) (value : Option Expr) :
    KeepsObject q v (evalAssign W T depth look m parent targets value) := by
  unfold evalAssign
  refine (KeepsObject.each (fun _ => KeepsObject.lift _) _).bind fun _ =>
    (KeepsObject.each (fun _ => evResolve_keeps _ _ _) _).bind fun _ =>
      (cachedTarget_keeps _).bind fun c => ?_
  have hlast : ∀ (paths : List QPath) (result : V), KeepsObject q v (do
      Ev.modify fun s =>
        { s with assigned := paths.foldl (fun d q => dictPut q result d) s.assigned }
      Ev.pure result : Ev V V) := fun _ _ =>
    KeepsObject.bind (KeepsObject.modify fun _ => rfl) fun _ => KeepsObject.pure _
  cases c with
  | some w => exact (KeepsObject.pure _).bind fun _ => hlast _ _
  | none =>
    cases value with
    | none => exact (KeepsObject.raise _).bind fun _ => hlast _ _
    | some e => exact (evalExpr_keeps hlook m parent e).bind fun _ => hlast _ _

theorem evalStmt_keeps (m parent : Path) (node : Stmt) :
    KeepsObject q v (evalStmt W T depth other look m parent node) := by
  cases node
  case annAssign => rw [evalStmt]; exact evalAssign_keeps hlook _ _ _ _
  case assign => rw [evalStmt]; exact evalAssign_keeps hlook _ _ _ _
  case functionDef f =>
    rw [evalStmt]
    exact (KeepsObject.lift _).bind fun _ => KeepsObject.get.bind fun _ => (KeepsObject.lift _).bind fun _ =>
      (KeepsObject.putName _ _).bind fun _ => KeepsObject.pure _
  all_goals
    rw [evalStmt]
    · exact KeepsObject.raise _
    all_goals simp

theorem evalNodes_keeps (m path : Path) : ∀ (nodes : List Stmt) (w : Option V),
    KeepsObject q v (evalNodes W T depth other look m path w nodes)
  | [], none => by rw [evalNodes]; exact KeepsObject.raise _
  | [], some _ => by rw [evalNodes]; exact KeepsObject.pure _
  | node :: nodes, w => by
    have : evalNodes W T depth other look m path w (node :: nodes) = (do
        let v ← evalStmt W T depth other look m path.dropLast node
        putName (path.getLast?.getD "") v
        evalNodes W T depth other look m path (some v) nodes) := by
      cases w <;> rw [evalNodes]
    rw [this]
    exact (evalStmt_keeps hlook _ _ _).bind fun _ => (KeepsObject.putName _ _).bind fun _ =>
      evalNodes_keeps m path nodes _

theorem evalDependencies_keeps (m path : Path) : ∀ names : List String,
    KeepsObject q v (evalDependencies T depth look m path names)
  | [] => by rw [evalDependencies]; exact KeepsObject.pure _
  | name :: names => by
    rw [evalDependencies]
    refine (evResolve_keeps _ _ _).bind fun r => ?_
    split
    · exact (hlook r).bind fun _ => (KeepsObject.putName _ _).bind fun _ =>
        evalDependencies_keeps m path names
    · exact evalDependencies_keeps m path names

theorem evalDefinitions_keeps (m path : Path) : ∀ (nodes : List Stmt) (w : Option V)
    (cls mod : Dict String V),
    KeepsObject q v (evalDefinitions W T depth other look m path w nodes cls mod)
  | [], w, cls, mod => by rw [evalDefinitions]; exact KeepsObject.pure _
  | node :: nodes, w, cls, mod => by
    rw [evalDefinitions]
    refine (KeepsObject.lift _).bind fun node => ((evalDependencies_keeps hlook _ _ _).within _ _).bind
      fun x => ?_
    obtain ⟨⟨⟩, mod⟩ := x
    refine ((evalStmt_keeps hlook _ _ _).within _ _).bind fun x => ?_
    obtain ⟨w, cls⟩ := x
    exact evalDefinitions_keeps m path nodes _ _ _

theorem evalMembers_keeps (m path : Path) (nodes : Dict Path (List Stmt)) : ∀ (names : List String)
    (cls mod : Dict String V) (anns : Dict String Expr),
    KeepsObject q v (evalMembers W T depth other look m path nodes names cls mod anns)
  | [], cls, mod, anns => by rw [evalMembers]; exact KeepsObject.pure _
  | name :: names, cls, mod, anns => by
    rw [evalMembers]
    refine (KeepsObject.lift _).bind fun stmts => (evalDefinitions_keeps hlook _ _ _ _ _ _).bind fun x => ?_
    obtain ⟨value, cls, mod⟩ := x
    exact evalMembers_keeps m path nodes names _ _ _

theorem evalAnnotations_keeps (m path : Path) (cls : V) : ∀ anns : Dict String Expr,
    KeepsObject q v (evalAnnotations W T depth look m path cls anns)
  | [] => by rw [evalAnnotations]; exact KeepsObject.pure _
  | (name, e) :: anns => by
    rw [evalAnnotations]
    exact (evalExpr_keeps hlook _ _ _).bind fun _ => (evalAnnotations_keeps m path cls anns).bind fun _ =>
      KeepsObject.pure _

theorem evalClass_keeps {m path : Path} (hne : (m, path) ≠ q) (nodes : Dict Path (List Stmt)) :
    KeepsObject q v (evalClass W T depth other look m path nodes) := by
  unfold evalClass
  refine (KeepsObject.lift _).bind fun defs => (KeepsObject.lift _).bind fun scope =>
    (evalMembers_keeps hlook _ _ _ _ _ _ _).bind fun x => ?_
  obtain ⟨cls, mod, anns⟩ := x
  refine ((KeepsObject.each hlook _).within _ _).bind fun x => ?_
  obtain ⟨bases, _⟩ := x
  have hlast : ∀ cls : Dict String V, KeepsObject q v (do
      let w ← Ev.lift (W.newClass path bases cls)
      Ev.modify fun s => { s with objects := dictPut (m, path) w s.objects }
      putName (path.getLast?.getD "") w
      if anns.isEmpty then Ev.pure w
      else do
        let vs ← evalAnnotations W T depth look m path w anns
        Ev.modify fun s => { s with given := s.given ++ vs.map fun kv => (w, kv) }
        Ev.pure w : Ev V V) := by
    intro cls
    refine (KeepsObject.lift _).bind fun w => KeepsObject.bind ?_ fun _ =>
      (KeepsObject.putName _ _).bind fun _ => ?_
    · intro s hs
      show (dictPut (m, path) w s.objects).lookup q = some v
      rw [lookup_dictPut, if_neg (Ne.symm hne)]
      exact hs
    · split
      · exact KeepsObject.pure _
      · exact (evalAnnotations_keeps hlook _ _ _ _).bind fun _ =>
          KeepsObject.bind (KeepsObject.modify fun _ => rfl) fun _ => KeepsObject.pure _
  by_cases he : anns.isEmpty = true
  · simp only [he, if_true]
    have := hlast
    simp only [he, if_true] at this
    exact (KeepsObject.pure _).bind fun _ => this _
  · simp only [he, Bool.false_eq_true, if_false]
    have := hlast
    simp only [he, Bool.false_eq_true, if_false] at this
    exact (KeepsObject.lift _).bind fun _ => (KeepsObject.pure _).bind fun _ => this _

theorem evalStub_keeps (m path : Path) :
    KeepsObject q v (evalStub W T depth other look m path) := by
  intro s hs
  unfold evalStub
  rw [Ev.bind_ok (show Ev.get s = (.ok s, s) from rfl)]
  cases hl : s.objects.lookup (m, path) with
  | some w => exact hs
  | none =>
    have hne : (m, path) ≠ q := by intro h; rw [h, hs] at hl; cases hl
    refine ((KeepsObject.lift _).bind fun nodes => (KeepsObject.lift _).bind fun kinds =>
      (KeepsObject.lift _).bind fun kind => ?_ : KeepsObject q v _) s hs
    split
    · split
      · exact KeepsObject.raise _
      · exact evalClass_keeps hlook hne _
    · split
      · exact evalNodes_keeps hlook _ _ _ _
      · exact evalClass_keeps hlook hne _

theorem evalNames_keeps (m : Path) (module : V) : ∀ names : List String,
    KeepsObject q v (evalNames look m module names)
  | [] => by rw [evalNames]; exact KeepsObject.pure _
  | name :: names => by
    rw [evalNames]
    exact (hlook _).bind fun _ => (KeepsObject.putName _ _).bind fun _ =>
      KeepsObject.bind (KeepsObject.modify fun _ => rfl) fun _ => evalNames_keeps m module names

omit hlook in
/-- No evaluation replaces or removes a cached class. -/
theorem evalPath_keeps : ∀ (n : Nat) (r : QPath), KeepsObject q v (evalPath W T depth other n r)
  | 0, _ => by rw [evalPath]; exact KeepsObject.raise _
  | n + 1, (m, path) => by
    have ih := evalPath_keeps n
    rw [evalPath]
    refine (KeepsObject.lift _).bind fun o => ?_
    cases o with
    | none =>
      simp only
      split
      · refine KeepsObject.get.bind fun s => ?_
        split
        · exact KeepsObject.pure _
        · exact KeepsObject.bind (KeepsObject.modify fun _ => rfl) fun _ => (KeepsObject.lift _).bind fun _ =>
            (evalNames_keeps ih _ _ _).bind fun _ => KeepsObject.pure _
      · exact evalStub_keeps ih _ _
    | some module =>
      simp only
      split
      · exact KeepsObject.pure _
      · exact evalStub_keeps ih _ _
      · exact KeepsObject.raise _

omit hlook in
theorem evaluateNode_keeps (n : Nat) (m parent : Path) (e : Expr) :
    KeepsObject q v (evaluateNode W T depth other n m parent e) := fun s hs =>
  evalExpr_keeps (evalPath_keeps n) m parent e { s with ns := [], back := [] } hs

end

/-! ### What a class is made of -/

section

variable {V : Type} {W : Interpreter V} {T : Stubs} {depth : Nat} {other : Atom → String}
  {look : QPath → Ev V V}

theorem bareAnnotation_iff {node : Stmt} {e : Expr} :
    bareAnnotation node = some e ↔ OnlyAnnotates node e := by
  constructor
  · intro h
    cases node
    case annAssign target annotation value =>
      cases value with
      | none => cases h; exact ⟨target, rfl⟩
      | some x => cases h
    all_goals cases h
  · rintro ⟨target, rfl⟩
    rfl

theorem bareAnnotation_isNone {node : Stmt} :
    (bareAnnotation node).isNone = true ↔ ¬ ∃ e, OnlyAnnotates node e := by
  constructor
  · rintro h ⟨e, he⟩
    rw [bareAnnotation_iff.2 he] at h
    cases h
  · intro h
    cases hb : bareAnnotation node with
    | none => rfl
    | some e => exact absurd ⟨e, bareAnnotation_iff.1 hb⟩ h

theorem lazyFunction_name {f g : FunctionDef} (h : lazyFunction other f = .ok g) : g.name = f.name := by
  unfold lazyFunction at h
  obtain ⟨_, -, h⟩ := except_bind_ok.1 h
  obtain ⟨_, -, h⟩ := except_bind_ok.1 h
  obtain ⟨_, -, h⟩ := except_bind_ok.1 h
  obtain ⟨_, -, h⟩ := except_bind_ok.1 h
  obtain ⟨_, -, h⟩ := except_bind_ok.1 h
  obtain ⟨_, -, h⟩ := except_bind_ok.1 h
  cases h
  rfl

theorem evalStmt_function_ok {m parent : Path} {f : FunctionDef} {w : V} {s t : EvalState V}
    (h : evalStmt W T depth other look m parent (.functionDef f) s = (.ok w, t)) :
    ∃ g, lazyFunction other f = .ok g ∧ W.define g (s.ns ++ s.back) = .ok w ∧
      t = { s with ns := dictPut f.name w s.ns } := by
  rw [evalStmt] at h
  obtain ⟨g, s1, h1, h⟩ := Ev.bind_ok_inv h
  obtain ⟨s2, s3, h2, h⟩ := Ev.bind_ok_inv h
  obtain ⟨w', s4, h3, h⟩ := Ev.bind_ok_inv h
  obtain ⟨_, s5, h4, h⟩ := Ev.bind_ok_inv h
  have e1 : lazyFunction other f = .ok g := congrArg Prod.fst h1
  have e1' : s = s1 := congrArg Prod.snd h1
  have e2 : s1 = s2 := Except.ok.inj (congrArg Prod.fst h2)
  have e2' : s1 = s3 := congrArg Prod.snd h2
  have e3 : W.define g (s2.ns ++ s2.back) = .ok w' := congrArg Prod.fst h3
  have e3' : s3 = s4 := congrArg Prod.snd h3
  have e4 : { s4 with ns := dictPut g.name w' s4.ns } = s5 := congrArg Prod.snd h4
  have e5 : w' = w := Except.ok.inj (congrArg Prod.fst h)
  have e5' : s5 = t := congrArg Prod.snd h
  subst e1' e2 e2' e3' e4 e5 e5'
  exact ⟨g, e1, e3, by rw [lazyFunction_name e1]⟩

theorem within_ok {α : Type} {ns back : Dict String V} {x : Ev V α} {s t : EvalState V} {a : α}
    {ns' : Dict String V} (h : Ev.within ns back x s = (.ok (a, ns'), t)) :
    ∃ u, x { s with ns := ns, back := back } = (.ok a, u) ∧ u.ns = ns' := by
  unfold Ev.within at h
  cases hx : x { s with ns := ns, back := back } with
  | mk r u =>
    rw [hx] at h
    cases r with
    | error e => cases congrArg Prod.fst h
    | ok b =>
      have := Except.ok.inj (congrArg Prod.fst h)
      cases this
      exact ⟨u, rfl, rfl⟩

/-- What `w` is for a function definition: made from it by Python, its annotations postponed. -/
def MadeFrom (W : Interpreter V) (other : Atom → String) (f : FunctionDef) (w : V) : Prop :=
  ∃ g g' ns, lazyFunction other f = .ok g ∧ lazyFunction other g = .ok g' ∧ W.define g' ns = .ok w

theorem evalDefinitions_functions {m path : Path} {name : String} : ∀ (nodes : List Stmt)
    (w0 : Option V) (cls mod : Dict String V) (s t : EvalState V) (value : Option V)
    (cls' mod' : Dict String V),
    (∀ node ∈ nodes, ∃ f, node = .functionDef f ∧ f.name = name) →
    evalDefinitions W T depth other look m path w0 nodes cls mod s = (.ok (value, cls', mod'), t) →
    (∀ x, x ≠ name → cls'.lookup x = cls.lookup x) ∧ (nodes = [] → value = w0 ∧ cls' = cls) ∧
      ∀ before f, nodes = before ++ [.functionDef f] → ∃ w, value = some w ∧ MadeFrom W other f w
  | [], w0, cls, mod, s, t, value, cls', mod', _, h => by
    rw [evalDefinitions] at h
    have := Except.ok.inj (congrArg Prod.fst h)
    cases this
    exact ⟨fun _ _ => rfl, fun _ => ⟨rfl, rfl⟩, fun before f h => by cases before <;> cases h⟩
  | node :: nodes, w0, cls, mod, s, t, value, cls', mod', hn, h => by
    obtain ⟨f, rfl, hf⟩ := hn node (by simp)
    rw [evalDefinitions] at h
    obtain ⟨node', s1, h1, i1⟩ := Ev.bind_ok_inv h
    obtain ⟨⟨⟨⟩, mod1⟩, s2, h2, i2⟩ := Ev.bind_ok_inv i1
    dsimp only at i2
    obtain ⟨⟨w, cls1⟩, s3, h3, hrest⟩ := Ev.bind_ok_inv i2
    dsimp only at hrest
    clear h i1 i2
    have e1 : lazyStmt other (.functionDef f) = .ok node' := congrArg Prod.fst h1
    rw [lazyStmt] at e1
    cases hg : lazyFunction other f with
    | error e => rw [hg] at e1; cases e1
    | ok g =>
      rw [hg] at e1
      cases e1
      obtain ⟨u, h4, h5⟩ := within_ok h3
      obtain ⟨g', hg', hd, rfl⟩ := evalStmt_function_ok h4
      have hgn : g.name = name := (lazyFunction_name hg).trans hf
      simp only [hgn] at h5
      obtain ⟨i1, i2, i3⟩ := evalDefinitions_functions nodes (some w) cls1 mod1 _ _ _ _ _
        (fun x hx => hn x (by simp [hx])) hrest
      refine ⟨fun x hx => ?_, (by intro h; cases h), fun before f' hb => ?_⟩
      · rw [i1 x hx, ← h5, lookup_dictPut, if_neg hx]
      · cases before with
        | nil =>
          cases hb
          obtain ⟨rfl, -⟩ := i2 rfl
          exact ⟨w, rfl, g, g', _, hg, hg', hd⟩
        | cons b before =>
          have : nodes = before ++ [.functionDef f'] := by
            simp only [List.cons_append, List.cons.injEq] at hb
            exact hb.2
          exact i3 before f' this

theorem foldl_dictPut_name (name : String) : ∀ (es : List Expr) (d : Dict String Expr),
    (∀ x, x ≠ name → (es.foldl (fun d e => dictPut name e d) d).lookup x = d.lookup x) ∧
    (es = [] → es.foldl (fun d e => dictPut name e d) d = d) ∧
    ∀ before e, es = before ++ [e] → (es.foldl (fun d e => dictPut name e d) d).lookup name = some e
  | [], d => ⟨fun _ _ => rfl, fun _ => rfl, fun before e h => by cases before <;> cases h⟩
  | e :: es, d => by
    obtain ⟨i1, i2, i3⟩ := foldl_dictPut_name name es (dictPut name e d)
    refine ⟨fun x hx => ?_, (by intro h; cases h), fun before e' hb => ?_⟩
    · rw [List.foldl_cons, i1 x hx, lookup_dictPut, if_neg hx]
    · rw [List.foldl_cons]
      cases before with
      | nil =>
        cases hb
        rw [i2 rfl, lookup_dictPut, if_pos rfl]
      | cons b before =>
        simp only [List.cons_append, List.cons.injEq] at hb
        exact i3 before e' hb.2

/-- The statements of a list after which only annotations come. -/
theorem filter_last_function {nodes : List Stmt} {f : FunctionDef} (h : EndsWithFunction nodes f) :
    ∃ before, nodes.filter (fun s => (bareAnnotation s).isNone) = before ++ [.functionDef f] := by
  obtain ⟨before, after, rfl, ha⟩ := h
  refine ⟨before.filter fun s => (bareAnnotation s).isNone, ?_⟩
  rw [List.filter_append, List.filter_cons_of_pos (by rfl)]
  have : after.filter (fun s => (bareAnnotation s).isNone) = [] := by
    rw [List.filter_eq_nil_iff]
    intro node hnode h
    exact bareAnnotation_isNone.1 h (ha node hnode)
  rw [this]

theorem filterMap_last_annotation {nodes : List Stmt} {e : Expr} (h : EndsWithAnnotation nodes e) :
    ∃ before, nodes.filterMap bareAnnotation = before ++ [e] := by
  obtain ⟨before, node, after, rfl, hn, ha⟩ := h
  refine ⟨before.filterMap bareAnnotation, ?_⟩
  rw [List.filterMap_append, List.filterMap_cons, bareAnnotation_iff.2 hn]
  have : after.filterMap bareAnnotation = [] := by
    rw [List.filterMap_eq_nil_iff]
    intro node hnode
    cases hb : bareAnnotation node with
    | none => rfl
    | some e => exact absurd ⟨e, bareAnnotation_iff.1 hb⟩ (ha node hnode)
  rw [this]

theorem endsWithAnnotation_of_mem : ∀ {nodes : List Stmt}, (∃ node ∈ nodes, ∃ e, OnlyAnnotates node e) →
    ∃ e, EndsWithAnnotation nodes e
  | [], h => by obtain ⟨_, h, _⟩ := h; cases h
  | node :: nodes, h => by
    by_cases hn : ∃ node ∈ nodes, ∃ e, OnlyAnnotates node e
    · obtain ⟨e, before, x, after, rfl, hx, ha⟩ := endsWithAnnotation_of_mem hn
      exact ⟨e, node :: before, x, after, rfl, hx, ha⟩
    · obtain ⟨x, hx, e, he⟩ := h
      rcases List.mem_cons.1 hx with rfl | hx
      · exact ⟨e, [], x, nodes, rfl, he, fun y hy g => hn ⟨y, hy, g⟩⟩
      · exact absurd ⟨x, hx, e, he⟩ hn

theorem endsWithFunction_of_mem {name : String} : ∀ {nodes : List Stmt},
    (∀ node ∈ nodes, (∃ e, OnlyAnnotates node e) ∨ ∃ f, node = .functionDef f ∧ f.name = name) →
    (∃ f, .functionDef f ∈ nodes) → ∃ f, EndsWithFunction nodes f
  | [], _, h => by obtain ⟨_, h⟩ := h; cases h
  | node :: nodes, hall, h => by
    by_cases hn : ∃ f, Stmt.functionDef f ∈ nodes
    · obtain ⟨f, before, after, rfl, ha⟩ := endsWithFunction_of_mem
        (fun x hx => hall x (by simp [hx])) hn
      exact ⟨f, node :: before, after, rfl, ha⟩
    · obtain ⟨f, hf⟩ := h
      rcases List.mem_cons.1 hf with rfl | hf
      · refine ⟨f, [], nodes, rfl, fun x hx => ?_⟩
        rcases hall x (by simp [hx]) with h | ⟨g, rfl, -⟩
        · exact h
        · exact absurd ⟨g, hx⟩ hn
      · exact absurd ⟨f, hf⟩ hn

theorem filter_functions {nodes : List Stmt} {name : String}
    (h : ∀ node ∈ nodes, (∃ e, OnlyAnnotates node e) ∨ ∃ f, node = .functionDef f ∧ f.name = name) :
    ∀ node ∈ nodes.filter (fun s => (bareAnnotation s).isNone), ∃ f, node = .functionDef f ∧ f.name = name := by
  intro node hnode
  obtain ⟨h1, h2⟩ := List.mem_filter.1 hnode
  rcases h node h1 with g | g
  · exact absurd g (bareAnnotation_isNone.1 h2)
  · exact g

/-- What the loop over the members of a class has gathered. -/
structure Gathered (W : Interpreter V) (other : Atom → String) (stmts : String → List Stmt)
    (names : List String) (cls : Dict String V) (anns : Dict String Expr) (cls' : Dict String V)
    (anns' : Dict String Expr) : Prop where
  kept : ∀ x, x ∉ names → cls'.lookup x = cls.lookup x
  function : ∀ x ∈ names, ∀ f, EndsWithFunction (stmts x) f →
    ∃ w, cls'.lookup x = some w ∧ MadeFrom W other f w
  noFunction : ∀ x ∈ names, (∀ f, .functionDef f ∉ stmts x) → cls'.lookup x = cls.lookup x
  annsKept : ∀ x, x ∉ names → anns'.lookup x = anns.lookup x
  annotation : ∀ x ∈ names, ∀ e, EndsWithAnnotation (stmts x) e → anns'.lookup x = some e
  noAnnotation : ∀ x ∈ names, (∀ node ∈ stmts x, ¬ ∃ e, OnlyAnnotates node e) →
    anns'.lookup x = anns.lookup x

theorem evalMembers_gathered {m path : Path} {nodes : Dict Path (List Stmt)} {stmts : String → List Stmt}
    (hst : ∀ x l, nodes.lookup (path ++ [x]) = some l → stmts x = l) : ∀ (names : List String)
    (cls mod : Dict String V) (anns : Dict String Expr) (s t : EvalState V) (cls' mod' : Dict String V)
    (anns' : Dict String Expr),
    (∀ x ∈ names, ∀ node ∈ stmts x, (∃ e, OnlyAnnotates node e) ∨ ∃ f, node = .functionDef f ∧ f.name = x) →
    evalMembers W T depth other look m path nodes names cls mod anns s = (.ok (cls', mod', anns'), t) →
    Gathered W other stmts names cls anns cls' anns'
  | [], cls, mod, anns, s, t, cls', mod', anns', _, h => by
    rw [evalMembers] at h
    have := Except.ok.inj (congrArg Prod.fst h)
    cases this
    refine ⟨fun _ _ => rfl, fun _ h => ?_, fun _ h => ?_, fun _ _ => rfl, fun _ h => ?_, fun _ h => ?_⟩ <;>
      cases h
  | name :: names, cls, mod, anns, s, t, cls', mod', anns', hall, h => by
    rw [evalMembers] at h
    obtain ⟨l, s1, h1, h⟩ := Ev.bind_ok_inv h
    obtain ⟨⟨value, cls1, mod1⟩, s2, h2, h⟩ := Ev.bind_ok_inv h
    have e1 : getKey nodes (path ++ [name]) = .ok l := congrArg Prod.fst h1
    have hl : stmts name = l := by
      refine hst name l ?_
      unfold getKey at e1
      cases hk : nodes.lookup (path ++ [name]) with
      | none => rw [hk] at e1; cases e1
      | some x => rw [hk] at e1; cases e1; rfl
    subst hl
    have hfun := filter_functions (hall name (by simp))
    obtain ⟨d1, d2, d3⟩ := evalDefinitions_functions _ none cls mod _ _ _ _ _ hfun h2
    obtain ⟨a1, a2, a3⟩ := foldl_dictPut_name name ((stmts name).filterMap bareAnnotation) anns
    dsimp only at h
    have hcls : ∀ x, x ≠ name → List.lookup x (match value with
        | some v => dictPut name v cls1
        | none => cls1) = cls.lookup x := by
      intro x hx
      cases value with
      | none => exact d1 x hx
      | some v => simp only [lookup_dictPut, if_neg hx, d1 x hx]
    have ih := evalMembers_gathered hst names _ mod1 _ _ _ _ _ _ (fun x hx => hall x (by simp [hx])) h
    have hnone : (∀ f, .functionDef f ∉ stmts name) →
        (stmts name).filter (fun s => (bareAnnotation s).isNone) = [] := by
      intro g
      rw [List.filter_eq_nil_iff]
      intro node hnode hb
      obtain ⟨f, rfl, -⟩ := hfun node (List.mem_filter.2 ⟨hnode, hb⟩)
      exact g f hnode
    have hbare : (∀ node ∈ stmts name, ¬ ∃ e, OnlyAnnotates node e) →
        (stmts name).filterMap bareAnnotation = [] := by
      intro g
      rw [List.filterMap_eq_nil_iff]
      intro node hnode
      cases hb : bareAnnotation node with
      | none => rfl
      | some e => exact absurd ⟨e, bareAnnotation_iff.1 hb⟩ (g node hnode)
    refine ⟨fun x hx => ?_, fun x hx f hf => ?_, fun x hx hf => ?_, fun x hx => ?_, fun x hx e he => ?_,
      fun x hx he => ?_⟩
    · simp only [List.mem_cons, not_or] at hx
      exact (ih.kept x hx.2).trans (hcls x hx.1)
    · by_cases hm : x ∈ names
      · exact ih.function x hm f hf
      · have hxn : x = name := by
          rcases List.mem_cons.1 hx with h | h
          · exact h
          · exact absurd h hm
        subst hxn
        obtain ⟨before, hb⟩ := filter_last_function hf
        obtain ⟨w, rfl, hw⟩ := d3 before f hb
        refine ⟨w, ?_, hw⟩
        rw [ih.kept x hm]
        simp only [lookup_dictPut, if_pos]
    · by_cases hxn : x = name
      · subst hxn
        obtain ⟨rfl, rfl⟩ := d2 (hnone hf)
        by_cases hm : x ∈ names
        · exact ih.noFunction x hm hf
        · exact ih.kept x hm
      · have hm : x ∈ names := by
          rcases List.mem_cons.1 hx with h | h
          · exact absurd h hxn
          · exact h
        exact (ih.noFunction x hm hf).trans (hcls x hxn)
    · simp only [List.mem_cons, not_or] at hx
      rw [ih.annsKept x hx.2, a1 x hx.1]
    · by_cases hm : x ∈ names
      · exact ih.annotation x hm e he
      · have hxn : x = name := by
          rcases List.mem_cons.1 hx with h | h
          · exact h
          · exact absurd h hm
        subst hxn
        obtain ⟨before, hb⟩ := filterMap_last_annotation he
        rw [ih.annsKept x hm, a3 before e hb]
    · by_cases hxn : x = name
      · subst hxn
        have := a2 (hbare he)
        by_cases hm : x ∈ names
        · rw [ih.noAnnotation x hm he, this]
        · rw [ih.annsKept x hm, this]
      · have hm : x ∈ names := by
          rcases List.mem_cons.1 hx with h | h
          · exact absurd h hxn
          · exact h
        rw [ih.noAnnotation x hm he, a1 x hxn]

theorem each_pointwise {α β : Type} {f : α → Ev V β} : ∀ {xs : List α} {ys : List β} {s t : EvalState V},
    Ev.each f xs s = (.ok ys, t) → Pointwise (fun x y => ∃ s t, f x s = (.ok y, t)) xs ys
  | [], ys, s, t, h => by
    rw [Ev.each] at h
    have := Except.ok.inj (congrArg Prod.fst h)
    cases this
    exact trivial
  | x :: xs, ys, s, t, h => by
    rw [Ev.each] at h
    obtain ⟨y, s1, h1, h⟩ := Ev.bind_ok_inv h
    obtain ⟨ys', s2, h2, h⟩ := Ev.bind_ok_inv h
    have := Except.ok.inj (congrArg Prod.fst h)
    cases this
    exact ⟨⟨_, _, h1⟩, each_pointwise h2⟩

theorem evalAnnotations_mem {m path : Path} {cls : V} : ∀ {anns : Dict String Expr} {vs : Dict String V}
    {s t : EvalState V}, evalAnnotations W T depth look m path cls anns s = (.ok vs, t) →
    ∀ name e, (name, e) ∈ anns → ∃ w s t, (name, w) ∈ vs ∧
      evalExpr W T depth look m path e s = (.ok w, t)
  | [], vs, s, t, h, name, e, hm => by cases hm
  | (k, x) :: anns, vs, s, t, h, name, e, hm => by
    rw [evalAnnotations] at h
    obtain ⟨w, s1, h1, h⟩ := Ev.bind_ok_inv h
    obtain ⟨ws, s2, h2, h⟩ := Ev.bind_ok_inv h
    have := Except.ok.inj (congrArg Prod.fst h)
    cases this
    rcases List.mem_cons.1 hm with h | h
    · cases h
      exact ⟨w, _, _, List.mem_cons_self, h1⟩
    · obtain ⟨w', s', t', g1, g2⟩ := evalAnnotations_mem h2 name e h
      exact ⟨w', s', t', List.mem_cons_of_mem _ g1, g2⟩

theorem scopeAt_ok : ∀ {path : Path} {scope inner : Scope}, scopeAt scope path = .ok inner →
    innerScope path scope = some inner
  | [], scope, inner, h => by rw [scopeAt] at h; cases h; rfl
  | name :: path, scope, inner, h => by
    rw [scopeAt] at h
    rw [innerScope]
    have hg : scope.get? name = scope.entries.lookup name := rfl
    rw [← hg]
    cases hx : scope.get? name with
    | none => rw [hx] at h; cases h
    | some x => rw [hx] at h; exact scopeAt_ok h

theorem evalClass_made {m path : Path} {nodes : Dict Path (List Stmt)} {names : List String}
    {stmts : String → List Stmt} {s t : EvalState V} {v : V}
    (hst : ∀ x l, nodes.lookup (path ++ [x]) = some l → stmts x = l)
    (hnames : declaredNames T (m, path) = some names)
    (hmem : ∀ x ∈ names, ∀ node ∈ stmts x,
      (∃ e, OnlyAnnotates node e) ∨ ∃ f, node = .functionDef f ∧ f.name = x)
    (h : evalClass W T depth other look m path nodes s = (.ok v, t)) :
    ∃ bases cls anns members,
      Gathered W other stmts names [("__module__", W.constant (.str evaluationName))] [] cls anns ∧
      Pointwise (fun r b => ∃ s t, look r s = (.ok b, t)) (superclassesOf T (m, path)) bases ∧
      (anns = [] → members = cls) ∧
      (anns ≠ [] → ∃ d, members = dictPut "__annotations__" d cls) ∧
      W.newClass path bases members = .ok v ∧
      ∀ name e, (name, e) ∈ anns → ∃ w s' t', (v, name, w) ∈ t.given ∧
        evalExpr W T depth look m path e s' = (.ok w, t') := by
  unfold evalClass at h
  obtain ⟨defs, s1, h1, g1⟩ := Ev.bind_ok_inv h
  obtain ⟨scope, s2, h2, g2⟩ := Ev.bind_ok_inv g1
  obtain ⟨⟨cls, mod, anns⟩, s3, h3, g3⟩ := Ev.bind_ok_inv g2
  dsimp only at g3
  obtain ⟨⟨bases, mod'⟩, s4, h4, g4⟩ := Ev.bind_ok_inv g3
  dsimp only at g4
  clear h g1 g2 g3
  have e1 : getKey T.definitions m = .ok defs := congrArg Prod.fst h1
  have e2 : scopeAt defs path = .ok scope := congrArg Prod.fst h2
  have e3 : scope.names = names := by
    have hd : T.definitions.lookup m = some defs := by
      unfold getKey at e1
      cases hk : T.definitions.lookup m with
      | none => rw [hk] at e1; cases e1
      | some x => rw [hk] at e1; cases e1; rfl
    unfold declaredNames at hnames
    simp only [hd, Option.bind_some, scopeAt_ok e2, Option.map_some] at hnames
    exact Option.some.inj hnames
  rw [e3] at h3
  have hg := evalMembers_gathered hst names _ _ _ _ _ _ _ _ hmem h3
  obtain ⟨u, h5, -⟩ := within_ok h4
  have hb := each_pointwise h5
  have hsup : (((T.superclasses.lookup m).getD []).lookup path).getD [] = superclassesOf T (m, path) := by
    unfold superclassesOf
    cases T.superclasses.lookup m <;> rfl
  rw [hsup] at hb
  cases anns with
  | nil =>
    simp only [List.isEmpty_nil, if_true] at g4
    obtain ⟨cls', s5, h6, g5⟩ := Ev.bind_ok_inv g4
    obtain ⟨v', s6, h7, g6⟩ := Ev.bind_ok_inv g5
    obtain ⟨_, s7, h8, g7⟩ := Ev.bind_ok_inv g6
    obtain ⟨_, s8, h9, g8⟩ := Ev.bind_ok_inv g7
    have e6 : cls = cls' := Except.ok.inj (congrArg Prod.fst h6)
    have e7 : W.newClass path bases cls' = .ok v' := congrArg Prod.fst h7
    have e8 : v' = v := Except.ok.inj (congrArg Prod.fst g8)
    subst e6 e8
    exact ⟨bases, cls, [], cls, hg, hb, fun _ => rfl, fun h => absurd rfl h, e7, fun _ _ h => by cases h⟩
  | cons a anns =>
    simp only [List.isEmpty_cons, Bool.false_eq_true, if_false] at g4
    obtain ⟨d, s5', h6', g4'⟩ := Ev.bind_ok_inv g4
    obtain ⟨cls', s5, h6'', g5⟩ := Ev.bind_ok_inv g4'
    obtain ⟨v', s6, h7, g6⟩ := Ev.bind_ok_inv g5
    obtain ⟨_, s7, h8, g7⟩ := Ev.bind_ok_inv g6
    obtain ⟨_, s8, h9, g8⟩ := Ev.bind_ok_inv g7
    obtain ⟨vs, s9, h10, g9⟩ := Ev.bind_ok_inv g8
    obtain ⟨_, s10, h11, g10⟩ := Ev.bind_ok_inv g9
    have e6 : dictPut "__annotations__" d cls = cls' := Except.ok.inj (congrArg Prod.fst h6'')
    have e7 : W.newClass path bases cls' = .ok v' := congrArg Prod.fst h7
    have e8 : v' = v := Except.ok.inj (congrArg Prod.fst g10)
    have e9 : s10 = t := congrArg Prod.snd g10
    have e10 : { s9 with given := s9.given ++ vs.map fun kv => (v', kv) } = s10 := congrArg Prod.snd h11
    subst e6 e8 e9 e10
    refine ⟨bases, cls, a :: anns, _, hg, hb, fun h => (by cases h), fun _ => ⟨d, rfl⟩, e7,
      fun name e hm => ?_⟩
    obtain ⟨w, s', t', hw, he⟩ := evalAnnotations_mem h10 name e hm
    exact ⟨w, s', t', List.mem_append_right _ (List.mem_map_of_mem hw), he⟩

theorem evalStub_class {m path : Path} {s t : EvalState V} {v : V}
    (hnew : s.objects.lookup (m, path) = none) (hc : IsStubClass T (m, path))
    (h : evalStub W T depth other look m path s = (.ok v, t)) :
    ∃ nodes, T.rawAstNodes.lookup m = some nodes ∧
      evalClass W T depth other look m path nodes s = (.ok v, t) := by
  unfold evalStub at h
  obtain ⟨s0, s1, h1, g1⟩ := Ev.bind_ok_inv h
  have e0 : s = s0 := Except.ok.inj (congrArg Prod.fst h1)
  have e0' : s = s1 := congrArg Prod.snd h1
  subst e0 e0'
  rw [hnew] at g1
  obtain ⟨nodes, s2, h2, g2⟩ := Ev.bind_ok_inv g1
  obtain ⟨kinds, s3, h3, g3⟩ := Ev.bind_ok_inv g2
  obtain ⟨kind, s4, h4, g4⟩ := Ev.bind_ok_inv g3
  have e2 : getKey T.rawAstNodes m = .ok nodes := congrArg Prod.fst h2
  have e2' : s = s2 := congrArg Prod.snd h2
  have e3 : getKey T.nodesKinds m = .ok kinds := congrArg Prod.fst h3
  have e3' : s2 = s3 := congrArg Prod.snd h3
  have e4 : getKey kinds path = .ok kind := congrArg Prod.fst h4
  have e4' : s3 = s4 := congrArg Prod.snd h4
  subst e2' e3' e4'
  have hn : T.rawAstNodes.lookup m = some nodes := by
    unfold getKey at e2
    cases hk : T.rawAstNodes.lookup m with
    | none => rw [hk] at e2; cases e2
    | some x => rw [hk] at e2; cases e2; rfl
  have hk : kind = .class_ := by
    unfold IsStubClass at hc
    unfold getKey at e3 e4
    cases hk : T.nodesKinds.lookup m with
    | none => rw [hk] at e3; cases e3
    | some x =>
      rw [hk] at e3
      cases e3
      cases hp : kinds.lookup path with
      | none => rw [hp] at e4; cases e4
      | some y =>
        rw [hp] at e4
        cases e4
        simpa only [hk, Option.bind_some, hp, Option.some.injEq] using hc
  refine ⟨nodes, hn, ?_⟩
  clear h h1 h2 h3 h4 g1 g2 g3
  subst hk
  cases hl : nodes.lookup path with
  | none => simpa only [hl, ne_eq, not_true_eq_false, if_false] using g4
  | some x => simpa only [hl, ne_eq, not_true_eq_false, if_false] using g4

/-- The value of a class is the cached one at the end, if its annotations are evaluated without touching
the cached object. -/
theorem evalClass_cached {m path : Path} {nodes : Dict Path (List Stmt)} {s t : EvalState V} {v : V}
    (hlook : ∀ w r, KeepsObject (m, path) w (look r))
    (h : evalClass W T depth other look m path nodes s = (.ok v, t)) :
    t.objects.lookup (m, path) = some v := by
  unfold evalClass at h
  obtain ⟨defs, s1, h1, g1⟩ := Ev.bind_ok_inv h
  obtain ⟨scope, s2, h2, g2⟩ := Ev.bind_ok_inv g1
  obtain ⟨⟨cls, mod, anns⟩, s3, h3, g3⟩ := Ev.bind_ok_inv g2
  dsimp only at g3
  obtain ⟨⟨bases, mod'⟩, s4, h4, g4⟩ := Ev.bind_ok_inv g3
  dsimp only at g4
  clear h g1 g2 g3
  cases anns with
  | nil =>
    simp only [List.isEmpty_nil, if_true] at g4
    obtain ⟨cls', s5, h6, g5⟩ := Ev.bind_ok_inv g4
    obtain ⟨v', s6, h7, g6⟩ := Ev.bind_ok_inv g5
    obtain ⟨_, s7, h8, g7⟩ := Ev.bind_ok_inv g6
    obtain ⟨_, s8, h9, g8⟩ := Ev.bind_ok_inv g7
    have e8 : v' = v := Except.ok.inj (congrArg Prod.fst g8)
    have e8' : s8 = t := congrArg Prod.snd g8
    have e9 : { s7 with ns := dictPut (path.getLast?.getD "") v' s7.ns } = s8 := congrArg Prod.snd h9
    have e10 : { s6 with objects := dictPut (m, path) v' s6.objects } = s7 := congrArg Prod.snd h8
    subst e8 e8' e9 e10
    simp only [lookup_dictPut, if_pos]
  | cons a anns =>
    simp only [List.isEmpty_cons, Bool.false_eq_true, if_false] at g4
    obtain ⟨d, s5', h6', g4'⟩ := Ev.bind_ok_inv g4
    obtain ⟨cls', s5, h6'', g5⟩ := Ev.bind_ok_inv g4'
    obtain ⟨v', s6, h7, g6⟩ := Ev.bind_ok_inv g5
    obtain ⟨_, s7, h8, g7⟩ := Ev.bind_ok_inv g6
    obtain ⟨_, s8, h9, g8⟩ := Ev.bind_ok_inv g7
    obtain ⟨vs, s9, h10, g9⟩ := Ev.bind_ok_inv g8
    obtain ⟨_, s10, h11, g10⟩ := Ev.bind_ok_inv g9
    have e8 : v' = v := Except.ok.inj (congrArg Prod.fst g10)
    have e8' : s10 = t := congrArg Prod.snd g10
    have e9 : { s7 with ns := dictPut (path.getLast?.getD "") v' s7.ns } = s8 := congrArg Prod.snd h9
    have e10 : { s6 with objects := dictPut (m, path) v' s6.objects } = s7 := congrArg Prod.snd h8
    have e11 : { s9 with given := s9.given ++ vs.map fun kv => (v', kv) } = s10 := congrArg Prod.snd h11
    have hk := evalAnnotations_keeps (W := W) (T := T) (depth := depth) (hlook v') m path v' (a :: anns) s8 (by
      rw [← e9, ← e10]
      simp only [lookup_dictPut, if_pos])
    rw [h10] at hk
    subst e8 e8' e11
    exact hk

theorem evalStub_cached {m path : Path} {s t : EvalState V} {v : V}
    (hlook : ∀ w r, KeepsObject (m, path) w (look r)) (hc : IsStubClass T (m, path))
    (h : evalStub W T depth other look m path s = (.ok v, t)) :
    t.objects.lookup (m, path) = some v := by
  cases hnew : s.objects.lookup (m, path) with
  | some w =>
    unfold evalStub at h
    obtain ⟨s0, s1, h1, g1⟩ := Ev.bind_ok_inv h
    have e0 : s = s0 := Except.ok.inj (congrArg Prod.fst h1)
    have e0' : s = s1 := congrArg Prod.snd h1
    subst e0 e0'
    rw [hnew] at g1
    have e1 : w = v := Except.ok.inj (congrArg Prod.fst g1)
    have e1' : s = t := congrArg Prod.snd g1
    subst e1 e1'
    exact hnew
  | none =>
    obtain ⟨nodes, -, h⟩ := evalStub_class hnew hc h
    exact evalClass_cached hlook h

end

end Paradigm
