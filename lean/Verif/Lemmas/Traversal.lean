import Verif.Lemmas.Aliases
import Verif.Spec.Session

/-!
# Evaluations that differ in the nested calls allowed

`Sim I x y`: started where `I` holds, `x` runs out of nested calls, or it does what `y` does and `I` holds
afterwards.
-/

namespace Paradigm

open Spec

variable {V α β : Type}

def Sim (I : EvalState V → Prop) (x y : Ev V α) : Prop :=
  ∀ s, I s → (x s).1 = .error .recursionError ∨ (x s = y s ∧ I (y s).2)

namespace Sim

variable {I : EvalState V → Prop}

theorem pure (a : α) : Sim I (Ev.pure a) (Ev.pure a) := fun _ hs => .inr ⟨rfl, hs⟩

theorem raise (e : PyErr) : Sim I (Ev.raise e : Ev V α) (Ev.raise e) := fun _ hs => .inr ⟨rfl, hs⟩

theorem lift (x : Except PyErr α) : Sim I (Ev.lift x) (Ev.lift x) := fun _ hs => .inr ⟨rfl, hs⟩

theorem modify {f : EvalState V → EvalState V} (h : ∀ s, I s → I (f s)) :
    Sim I (Ev.modify f) (Ev.modify f) := fun s hs => .inr ⟨rfl, h s hs⟩

theorem bind {x y : Ev V α} {f g : α → Ev V β} (hx : Sim I x y) (hf : ∀ a, Sim I (f a) (g a)) :
    Sim I (x >>= f) (y >>= g) := by
  intro s hs
  cases h : x s with
  | mk o t =>
    rcases hx s hs with he | ⟨he, hI⟩
    · rw [h] at he
      cases he
      exact .inl (by rw [Ev.bind_error h])
    · rw [h] at he
      rw [← he] at hI
      cases o with
      | error e =>
        rw [Ev.bind_error h, Ev.bind_error he.symm]
        exact .inr ⟨rfl, hI⟩
      | ok a =>
        rw [Ev.bind_ok h, Ev.bind_ok he.symm]
        exact hf a t hI

/-- The first computation does not depend on nested calls. -/
theorem liftBind {x : Except PyErr α} {f g : α → Ev V β} (hf : ∀ a, x = .ok a → Sim I (f a) (g a)) :
    Sim I (Ev.lift x >>= f) (Ev.lift x >>= g) := by
  intro s hs
  cases x with
  | error e =>
    rw [Ev.bind_error (show (Ev.lift (.error e) : Ev V α) s = _ from rfl),
      Ev.bind_error (show (Ev.lift (.error e) : Ev V α) s = _ from rfl)]
    exact .inr ⟨rfl, hs⟩
  | ok a =>
    rw [Ev.bind_ok (show (Ev.lift (.ok a) : Ev V α) s = _ from rfl),
      Ev.bind_ok (show (Ev.lift (.ok a) : Ev V α) s = _ from rfl)]
    exact hf a rfl s hs

theorem getBind {f g : EvalState V → Ev V β} (hf : ∀ s, I s → Sim I (f s) (g s)) :
    Sim I (Ev.get >>= f) (Ev.get >>= g) := fun s hs => hf s hs s hs

theorem each {f g : α → Ev V β} : ∀ {xs : List α}, (∀ x ∈ xs, Sim I (f x) (g x)) →
    Sim I (Ev.each f xs) (Ev.each g xs)
  | [], _ => pure _
  | x :: xs, h => bind (h x (by simp)) fun y => bind (each fun x hx => h x (by simp [hx])) fun ys => pure _

theorem ite {c : Prop} [Decidable c] {x y x' y' : Ev V α} (h : c → Sim I x y) (h' : ¬ c → Sim I x' y') :
    Sim I (if c then x else x') (if c then y else y') := by
  by_cases g : c
  · rw [if_pos g, if_pos g]; exact h g
  · rw [if_neg g, if_neg g]; exact h' g

end Sim

/-- `I` is about the caches of values only. -/
def AboutCaches (I : EvalState V → Prop) : Prop :=
  ∀ s t : EvalState V, s.assigned = t.assigned → s.objects = t.objects → I s → I t

section

variable {I : EvalState V → Prop} (hI : AboutCaches I)

include hI

theorem Sim.within {x y : Ev V α} (h : Sim I x y) (ns back : Dict String V) :
    Sim I (Ev.within ns back x) (Ev.within ns back y) := by
  intro s hs
  rcases h { s with ns := ns, back := back } (hI s _ rfl rfl hs) with he | ⟨he, hI'⟩
  · left
    unfold Ev.within
    cases hx : x { s with ns := ns, back := back } with
    | mk o t =>
      rw [hx] at he
      cases he
      rfl
  · right
    unfold Ev.within
    rw [he]
    refine ⟨rfl, ?_⟩
    cases hy : y { s with ns := ns, back := back } with
    | mk o t =>
      rw [hy] at hI'
      cases o <;> exact hI t _ rfl rfl hI'

theorem Sim.putName (name : String) (v : V) : Sim I (putName name v) (putName name v) :=
  Sim.modify fun s hs => hI s _ rfl rfl hs

end

section

variable {W : Interpreter V} {T : Stubs} {depth : Nat} {other : Atom → String}
  {look look' : QPath → Ev V V} {I : EvalState V → Prop}
  (hlook : ∀ q, Sim I (look q) (look' q))

include hlook

mutual

theorem evalExpr_sim (m parent : Path) : ∀ e : Expr,
    Sim I (evalExpr W T depth look m parent e) (evalExpr W T depth look' m parent e)
  | .name id load => by
    rw [evalExpr, evalExpr]
    exact Sim.ite (fun _ => Sim.raise _) fun _ => Sim.bind (Sim.lift _) hlook
  | .attribute value attr load => by
    rw [evalExpr, evalExpr]
    refine Sim.ite (fun _ => Sim.raise _) fun _ => ?_
    refine Sim.bind (evalExpr_sim m parent value) fun v => ?_
    cases h : W.getattr v attr with
    | ok w => exact Sim.pure _
    | error e =>
      cases e with
      | attributeError => exact Sim.bind (Sim.lift _) fun path => Sim.bind (Sim.lift _) hlook
      | _ => exact Sim.raise _
  | .subscript value slice load => by
    rw [evalExpr, evalExpr]
    refine Sim.ite (fun _ => Sim.raise _) fun _ => ?_
    exact Sim.bind (evalExpr_sim m parent value) fun v =>
      Sim.bind (evalExpr_sim m parent slice) fun i => Sim.lift _
  | .tuple elts load => by
    rw [evalExpr, evalExpr]
    refine Sim.ite (fun _ => Sim.raise _) fun _ => ?_
    exact Sim.bind (evalExprs_sim m parent elts) fun v => Sim.pure _
  | .list elts => by
    rw [evalExpr, evalExpr]
    exact Sim.bind (evalExprs_sim m parent elts) fun v => Sim.pure _
  | .call func args keywords => by
    rw [evalExpr, evalExpr]
    exact Sim.bind (evalExprs_sim m parent args) fun vs =>
      Sim.bind (evalKeywords_sim m parent keywords) fun kvs =>
        Sim.bind (evalExpr_sim m parent func) fun f => Sim.lift _
  | .constant value => by rw [evalExpr, evalExpr]; exact Sim.pure _
  | .binOp left op right => by
    rw [evalExpr, evalExpr]
    exact Sim.bind (evalExpr_sim m parent left) fun l =>
      Sim.bind (evalExpr_sim m parent right) fun r => Sim.lift _
  | .other tag [] => by
    rcases other_cases tag [] with rfl | ⟨hd, ⟨o, ho, e⟩ | ho⟩
    · rw [evalExpr_dict, evalExpr_dict, evalEntries_short _ _ _ _ _ _ (by intro _ _ _ h; cases h),
        evalEntries_short _ _ _ _ _ _ (by intro _ _ _ h; cases h)]
      exact Sim.bind (Sim.pure _) fun kvs => Sim.lift _
    · cases e
    · rw [evalExpr, evalExpr]
      · exact Sim.ite (fun _ => Sim.raise _) fun _ => Sim.ite (fun h => absurd h hd) fun _ =>
          Sim.ite (fun _ => Sim.raise _) fun _ => Sim.raise _
      · intro _ h; cases h
      · intro _ h; cases h
  | .other tag [operand] => by
    rcases other_cases tag [operand] with rfl | ⟨hd, ⟨o, ho, e⟩ | ho⟩
    · rw [evalExpr_dict, evalExpr_dict, evalEntries_short _ _ _ _ _ _ (by intro _ _ _ h; cases h),
        evalEntries_short _ _ _ _ _ _ (by intro _ _ _ h; cases h)]
      exact Sim.bind (Sim.pure _) fun kvs => Sim.lift _
    · cases e
      rw [evalExpr_unary _ _ _ _ _ _ ho, evalExpr_unary _ _ _ _ _ _ ho]
      exact Sim.bind (evalExpr_sim m parent operand) fun v => Sim.lift _
    · rw [evalExpr, evalExpr, if_neg fun g => ho operand ⟨g, rfl⟩, if_neg hd,
        if_neg fun g => ho operand ⟨g, rfl⟩, if_neg hd]
      exact Sim.ite (fun _ => Sim.raise _) fun _ => Sim.raise _
  | .other tag (k :: x :: es) => by
    rcases other_cases tag (k :: x :: es) with rfl | ⟨hd, ⟨o, ho, e⟩ | ho⟩
    · rw [evalExpr_dict, evalExpr_dict]
      exact Sim.bind (evalEntries_sim m parent (k :: x :: es)) fun kvs => Sim.lift _
    · cases e
    · rw [evalExpr, evalExpr]
      · exact Sim.ite (fun _ => Sim.raise _) fun _ => Sim.ite (fun h => absurd h hd) fun _ =>
          Sim.ite (fun _ => Sim.raise _) fun _ => Sim.raise _
      · intro _ h; cases h
      · intro _ h; cases h

theorem evalExprs_sim (m parent : Path) : ∀ es : List Expr,
    Sim I (evalExprs W T depth look m parent es) (evalExprs W T depth look' m parent es)
  | [] => by rw [evalExprs, evalExprs]; exact Sim.pure _
  | e :: es => by
    rw [evalExprs, evalExprs]
    exact Sim.bind (evalExpr_sim m parent e) fun v =>
      Sim.bind (evalExprs_sim m parent es) fun vs => Sim.pure _

theorem evalKeywords_sim (m parent : Path) : ∀ es : List (Option String × Expr),
    Sim I (evalKeywords W T depth look m parent es) (evalKeywords W T depth look' m parent es)
  | [] => by rw [evalKeywords, evalKeywords]; exact Sim.pure _
  | (k, e) :: es => by
    rw [evalKeywords, evalKeywords]
    exact Sim.bind (evalExpr_sim m parent e) fun v =>
      Sim.bind (evalKeywords_sim m parent es) fun vs => Sim.pure _

theorem evalEntries_sim (m parent : Path) : ∀ es : List Expr,
    Sim I (evalEntries W T depth look m parent es) (evalEntries W T depth look' m parent es)
  | [] => by
    rw [evalEntries_short _ _ _ _ _ _ (by intro _ _ _ h; cases h),
      evalEntries_short _ _ _ _ _ _ (by intro _ _ _ h; cases h)]
    exact Sim.pure _
  | [_] => by
    rw [evalEntries_short _ _ _ _ _ _ (by intro _ _ _ h; cases h),
      evalEntries_short _ _ _ _ _ _ (by intro _ _ _ h; cases h)]
    exact Sim.pure _
  | k :: x :: es => by
    rw [evalEntries, evalEntries]
    exact Sim.bind (evalExpr_sim m parent k) fun v =>
      Sim.bind (evalExpr_sim m parent x) fun v =>
        Sim.bind (evalEntries_sim m parent es) fun vs => Sim.pure _

end

end

section

variable {W : Interpreter V} {T : Stubs} {depth : Nat} {other : Atom → String}
  {look look' : QPath → Ev V V} {I : EvalState V → Prop} {K : QPath → Prop}

/-- The node is stored for an object of the given module and class. -/
def StoredIn (T : Stubs) (m parent : Path) (node : Stmt) : Prop :=
  ∃ p, StoredAt T (m, p) node ∧ p.dropLast = parent

/-- What `I` is to satisfy: stored assignments and classes that are made keep it. -/
structure Kept (W : Interpreter V) (T : Stubs) (depth : Nat) (I : EvalState V → Prop) (K : QPath → Prop)
    (look look' : QPath → Ev V V) : Prop where
  caches : AboutCaches I
  calls : ∀ q, Sim I (look q) (look' q)
  assigns : ∀ m parent node targets value, StoredIn T m parent node →
    assignmentOf node = some (targets, value) →
    Sim I (evalAssign W T depth look m parent targets value) (evalAssign W T depth look' m parent targets value)
  absent : ∀ s q, I s → s.objects.lookup q = none → K q
  made : ∀ s q v kinds, I s → K q → T.nodesKinds.lookup q.1 = some kinds → kinds.lookup q.2 = some .class_ →
    I { s with objects := dictPut q v s.objects }

variable (H : Kept W T depth I K look look')

include H

theorem evalStmt_sim (m parent : Path) (node : Stmt)
    (hst : assignmentOf node ≠ none → StoredIn T m parent node) :
    Sim I (evalStmt W T depth other look m parent node) (evalStmt W T depth other look' m parent node) := by
  cases node with
  | annAssign target annotation value => exact H.assigns m parent _ _ _ (hst (by simp [assignmentOf])) rfl
  | assign targets value => exact H.assigns m parent _ _ _ (hst (by simp [assignmentOf])) rfl
  | functionDef f =>
    exact Sim.bind (Sim.lift _) fun f => Sim.getBind fun s _ => Sim.bind (Sim.lift _) fun v =>
      Sim.bind (Sim.putName H.caches _ _) fun _ => Sim.pure _
  | _ => exact Sim.raise _

theorem evalNodes_sim (m path : Path) : ∀ (nodes : List Stmt) (v : Option V),
    (∀ node ∈ nodes, StoredIn T m path.dropLast node) →
    Sim I (evalNodes W T depth other look m path v nodes) (evalNodes W T depth other look' m path v nodes)
  | [], none, _ => Sim.raise _
  | [], some v, _ => Sim.pure _
  | node :: nodes, v, h => by
    have : ∀ look : QPath → Ev V V, evalNodes W T depth other look m path v (node :: nodes) = (do
        let v ← evalStmt W T depth other look m path.dropLast node
        putName (path.getLast?.getD "") v
        evalNodes W T depth other look m path (some v) nodes) := by
      intro look
      cases v <;> rw [evalNodes]
    rw [this, this]
    exact Sim.bind (evalStmt_sim H m _ node fun _ => h node (by simp)) fun v =>
      Sim.bind (Sim.putName H.caches _ _) fun _ =>
        evalNodes_sim m path nodes (some v) fun n hn => h n (by simp [hn])

theorem evalDependencies_sim (m path : Path) : ∀ names : List String,
    Sim I (evalDependencies T depth look m path names) (evalDependencies T depth look' m path names)
  | [] => Sim.pure _
  | name :: names => by
    rw [evalDependencies, evalDependencies]
    refine Sim.bind (Sim.lift _) fun q => Sim.ite (fun _ => ?_) fun _ => evalDependencies_sim m path names
    exact Sim.bind (H.calls _) fun v => Sim.bind (Sim.putName H.caches _ _) fun _ =>
      evalDependencies_sim m path names

theorem evalDefinitions_sim (m path : Path) : ∀ (nodes : List Stmt) (value : Option V) (cls mod : Dict String V),
    (∀ node ∈ nodes, StoredIn T m path node) →
    Sim I (evalDefinitions W T depth other look m path value nodes cls mod)
      (evalDefinitions W T depth other look' m path value nodes cls mod)
  | [], _, _, _, _ => Sim.pure _
  | node :: nodes, value, cls, mod, h => by
    rw [evalDefinitions, evalDefinitions]
    refine Sim.liftBind fun node' hnode' => ?_
    refine Sim.bind (Sim.within H.caches (evalDependencies_sim H m path _) _ _) fun r => ?_
    refine Sim.bind (Sim.within H.caches (evalStmt_sim H m path node' fun hne => ?_) _ _) fun r' =>
      evalDefinitions_sim m path nodes _ _ _ fun n hn => h n (by simp [hn])
    have : node' = node := by
      cases node with
      | functionDef f =>
        rw [lazyStmt] at hnode'
        cases hf : lazyFunction other f with
        | error e => rw [hf] at hnode'; cases hnode'
        | ok f' => rw [hf] at hnode'; cases hnode'; exact absurd rfl hne
      | _ => cases hnode'; rfl
    rw [this]
    exact h node (by simp)

theorem evalMembers_sim (m path : Path) (nodes : Dict Path (List Stmt))
    (hnodes : T.rawAstNodes.lookup m = some nodes) : ∀ (names : List String) (cls mod : Dict String V)
    (anns : Dict String Expr),
    Sim I (evalMembers W T depth other look m path nodes names cls mod anns)
      (evalMembers W T depth other look' m path nodes names cls mod anns)
  | [], _, _, _ => Sim.pure _
  | name :: names, cls, mod, anns => by
    rw [evalMembers, evalMembers]
    refine Sim.liftBind fun stmts hstmts => ?_
    refine Sim.bind (evalDefinitions_sim H m path _ none cls mod fun node hn => ?_) fun r =>
      evalMembers_sim m path nodes hnodes names _ _ _
    refine ⟨path ++ [name], ⟨nodes, stmts, hnodes, ?_, (List.mem_filter.mp hn).1⟩, by simp⟩
    unfold getKey at hstmts
    cases hl : nodes.lookup (path ++ [name]) with
    | none => rw [hl] at hstmts; cases hstmts
    | some w => rw [hl] at hstmts; cases hstmts; rfl

theorem evalAnnotations_sim (m path : Path) (cls : V) : ∀ es : Dict String Expr,
    Sim I (evalAnnotations W T depth look m path cls es) (evalAnnotations W T depth look' m path cls es)
  | [] => Sim.pure _
  | (name, e) :: es => by
    rw [evalAnnotations, evalAnnotations]
    exact Sim.bind (evalExpr_sim H.calls m path e) fun v =>
      Sim.bind (evalAnnotations_sim m path cls es) fun vs => Sim.pure _

theorem evalClass_sim (m path : Path) (nodes : Dict Path (List Stmt))
    (hnodes : T.rawAstNodes.lookup m = some nodes) (hK : K (m, path)) {kinds : Dict Path NodeKind}
    (hk : T.nodesKinds.lookup m = some kinds) (hc : kinds.lookup path = some .class_) :
    Sim I (evalClass W T depth other look m path nodes) (evalClass W T depth other look' m path nodes) := by
  unfold evalClass
  refine Sim.bind (Sim.lift _) fun defs => Sim.bind (Sim.lift _) fun scope => ?_
  refine Sim.bind (evalMembers_sim H m path nodes hnodes _ _ _ _) fun r => ?_
  obtain ⟨cls, mod, anns⟩ := r
  refine Sim.bind (Sim.within H.caches (Sim.each fun q _ => H.calls q) _ _) fun r => ?_
  obtain ⟨bases, _⟩ := r
  have hrest : ∀ cls : Dict String V, Sim I (do
        let v ← Ev.lift (W.newClass path bases cls)
        Ev.modify fun s => { s with objects := dictPut (m, path) v s.objects }
        putName (path.getLast?.getD "") v
        if anns.isEmpty then Ev.pure v
        else do
          let vs ← evalAnnotations W T depth look m path v anns
          Ev.modify fun s => { s with given := s.given ++ vs.map fun kv => (v, kv) }
          Ev.pure v)
      (do
        let v ← Ev.lift (W.newClass path bases cls)
        Ev.modify fun s => { s with objects := dictPut (m, path) v s.objects }
        putName (path.getLast?.getD "") v
        if anns.isEmpty then Ev.pure v
        else do
          let vs ← evalAnnotations W T depth look' m path v anns
          Ev.modify fun s => { s with given := s.given ++ vs.map fun kv => (v, kv) }
          Ev.pure v) := by
    refine fun cls => Sim.bind (Sim.lift _) fun v => ?_
    refine Sim.bind (Sim.modify fun s hs => H.made s (m, path) v kinds hs hK hk hc) fun _ => ?_
    refine Sim.bind (Sim.putName H.caches _ _) fun _ => Sim.ite (fun _ => Sim.pure _) fun _ => ?_
    exact Sim.bind (evalAnnotations_sim H m path v anns) fun vs =>
      Sim.bind (Sim.modify fun s hs => H.caches s _ rfl rfl hs) fun _ => Sim.pure _
  dsimp only
  cases ha : anns.isEmpty with
  | true =>
    rw [ha] at hrest
    exact Sim.bind (Sim.pure _) hrest
  | false =>
    rw [ha] at hrest
    exact Sim.bind (Sim.lift _) fun d => Sim.bind (Sim.pure _) hrest

theorem evalStub_sim (m path : Path) :
    Sim I (evalStub W T depth other look m path) (evalStub W T depth other look' m path) := by
  unfold evalStub
  refine Sim.getBind fun s hs => ?_
  cases ho : s.objects.lookup (m, path) with
  | some v => exact Sim.pure _
  | none =>
    have hK := H.absent s _ hs ho
    refine Sim.liftBind fun nodes hnodes => Sim.liftBind fun kinds hkinds => Sim.liftBind fun kind hkind => ?_
    have hnodes : T.rawAstNodes.lookup m = some nodes := by
      unfold getKey at hnodes
      cases hl : T.rawAstNodes.lookup m with
      | none => rw [hl] at hnodes; cases hnodes
      | some w => rw [hl] at hnodes; cases hnodes; rfl
    have hkinds : T.nodesKinds.lookup m = some kinds := by
      unfold getKey at hkinds
      cases hl : T.nodesKinds.lookup m with
      | none => rw [hl] at hkinds; cases hkinds
      | some w => rw [hl] at hkinds; cases hkinds; rfl
    have hkind : kinds.lookup path = some kind := by
      unfold getKey at hkind
      cases hl : kinds.lookup path with
      | none => rw [hl] at hkind; cases hkind
      | some w => rw [hl] at hkind; cases hkind; rfl
    have hcls : ¬ kind ≠ .class_ → Sim I (evalClass W T depth other look m path nodes)
        (evalClass W T depth other look' m path nodes) := fun hc =>
      evalClass_sim H m path nodes hnodes hK hkinds (by rw [hkind]; simpa using hc)
    cases hp : nodes.lookup path with
    | none => exact Sim.ite (fun _ => Sim.raise _) hcls
    | some stmts =>
      exact Sim.ite (fun _ => evalNodes_sim H m path stmts none fun node hn =>
        ⟨path, ⟨nodes, stmts, hnodes, hp, hn⟩, rfl⟩) hcls

theorem evalNames_sim (m : Path) (module : V) : ∀ names : List String,
    Sim I (evalNames look m module names) (evalNames look' m module names)
  | [] => Sim.pure _
  | name :: names => by
    rw [evalNames, evalNames]
    exact Sim.bind (H.calls _) fun v => Sim.bind (Sim.putName H.caches _ _) fun _ =>
      Sim.bind (Sim.modify fun s hs => H.caches s _ rfl rfl hs) fun _ => evalNames_sim m module names

end

/-- One more nested call. -/
theorem evalPath_sim_succ {W : Interpreter V} {T : Stubs} {depth : Nat} {other : Atom → String}
    {I : EvalState V → Prop} {K : QPath → Prop} {n n' : Nat}
    (H : Kept W T depth I K (evalPath W T depth other n) (evalPath W T depth other n')) (q : QPath) :
    Sim I (evalPath W T depth other (n + 1) q) (evalPath W T depth other (n' + 1) q) := by
  obtain ⟨m, path⟩ := q
  rw [evalPath, evalPath]
  refine Sim.liftBind fun o _ => ?_
  cases o with
  | none =>
    refine Sim.ite (fun _ => ?_) fun _ => evalStub_sim H m path
    refine Sim.getBind fun s _ => ?_
    cases s.modules.lookup m with
    | some v => exact Sim.pure _
    | none =>
      exact Sim.bind (Sim.modify fun s hs => H.caches s _ rfl rfl hs) fun _ =>
        Sim.bind (Sim.lift _) fun scope => Sim.bind (evalNames_sim H m _ _) fun _ => Sim.pure _
  | some module =>
    dsimp only
    cases searchObject W module path with
    | ok v => exact Sim.pure _
    | error e =>
      cases e with
      | objectNotFound => exact evalStub_sim H m path
      | _ => exact Sim.raise _

/-- Where nested calls do not matter, assignments do not depend on them. -/
theorem evalAssign_sim {W : Interpreter V} {T : Stubs} {depth : Nat}
    {look look' : QPath → Ev V V} (hlook : ∀ q, Sim (fun _ => True) (look q) (look' q)) (m parent : Path)
    (targets : List Expr) (value : Option Expr) :
    Sim (fun _ => True) (evalAssign W T depth look m parent targets value)
      (evalAssign W T depth look' m parent targets value) := by
  have same : ∀ {α : Type} (x : Ev V α), Sim (fun _ => True) x x := fun x s _ => .inr ⟨rfl, trivial⟩
  unfold evalAssign
  refine Sim.bind (same _) fun names => Sim.bind (same _) fun paths => Sim.bind (same _) fun cached => ?_
  dsimp only
  cases cached with
  | some v => exact same _
  | none =>
    cases value with
    | none => exact same _
    | some e => exact Sim.bind (evalExpr_sim hlook m parent e) fun result => same _

/-- More nested calls only matter where they run out. -/
theorem evalPath_more {W : Interpreter V} {T : Stubs} {depth : Nat} {other : Atom → String} :
    ∀ (n n' : Nat), n ≤ n' → ∀ q : QPath,
    Sim (fun _ => True) (evalPath W T depth other n q) (evalPath W T depth other n' q)
  | 0, _, _, _ => fun s _ => .inl rfl
  | n + 1, 0, h, _ => absurd h (by omega)
  | n + 1, n' + 1, h, q => by
    have ih := evalPath_more (W := W) (T := T) (depth := depth) (other := other) n n' (by omega)
    exact evalPath_sim_succ (K := fun _ => True)
      ⟨fun _ _ _ _ _ => trivial, ih, fun m parent _ targets value _ _ => evalAssign_sim ih m parent targets value,
        fun _ _ _ _ => trivial, fun _ _ _ _ _ _ _ _ => trivial⟩ q

end Paradigm
