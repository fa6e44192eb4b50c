import Verif.Spec.ModuleOrder
import Verif.Model.Session
import Verif.Lemmas.Quiet

/-!
# Sessions look tables up
-/

namespace Paradigm

open Spec

theorem getKey_alike {α β : Type} [BEq α] {d d' : Dict α β} {k : α} (h : d.lookup k = d'.lookup k) :
    getKey d k = getKey d' k := by
  unfold getKey
  rw [h]

theorem getItem_alike {α β : Type} [BEq α] {d d' : Dict α β} {k : α} (h : d.lookup k = d'.lookup k) :
    getItem d k = getItem d' k := by
  unfold getItem
  rw [h]

/-! ### Evaluation -/

section

variable {a b : Stubs} (h : SayAlike a b)

include h in
theorem supers_alike (m p : Path) : (a.supers m p).getD [] = (b.supers m p).getD [] := by
  have := h.superclasses m p
  unfold Tables.supers
  exact this

include h in
theorem resolve_alike : ∀ n, resolve a.toTables n = resolve b.toTables n
  | 0 => by funext m p o v; simp only [resolve]
  | n + 1 => by
    have ih := resolve_alike n
    funext m p o v
    simp only [resolve, (h.tell _).definitions, (h.tell _).references, Tables.subs, (h.tell _).submodules,
      supers_alike h, ih]

variable {V : Type} (W : Interpreter V) (depth : Nat)

include h in
theorem evResolve_alike : evResolve (V := V) a depth = evResolve b depth := by
  funext m p o
  unfold evResolve
  rw [resolve_alike h]

end

section

variable {V : Type} {a b : Stubs} (W : Interpreter V) (depth : Nat) (h : SayAlike a b) (look : QPath → Ev V V)

include h

mutual

theorem evalExpr_alike (m parent : Path) : ∀ e : Expr,
    evalExpr W a depth look m parent e = evalExpr W b depth look m parent e
  | .name id load => by simp only [evalExpr, evResolve_alike h]
  | .attribute value attr load => by
    simp only [evalExpr, evResolve_alike h, evalExpr_alike m parent value]
  | .subscript value slice load => by
    simp only [evalExpr, evalExpr_alike m parent value, evalExpr_alike m parent slice]
  | .tuple elts load => by simp only [evalExpr, evalExprs_alike m parent elts]
  | .list elts => by simp only [evalExpr, evalExprs_alike m parent elts]
  | .call func args keywords => by
    simp only [evalExpr, evalExpr_alike m parent func, evalExprs_alike m parent args,
      evalKeywords_alike m parent keywords]
  | .constant value => by simp only [evalExpr]
  | .binOp left op right => by
    simp only [evalExpr, evalExpr_alike m parent left, evalExpr_alike m parent right]
  | .other tag [] => by
    simp only [evalExpr, evalEntries]
  | .other tag [operand] => by
    simp only [evalExpr, evalExpr_alike m parent operand, evalEntries]
  | .other tag (k :: v :: es) => by
    simp only [evalExpr, evalEntries, evalExpr_alike m parent k, evalExpr_alike m parent v,
      evalEntries_alike m parent es]

theorem evalExprs_alike (m parent : Path) : ∀ es : List Expr,
    evalExprs W a depth look m parent es = evalExprs W b depth look m parent es
  | [] => by simp only [evalExprs]
  | e :: es => by simp only [evalExprs, evalExpr_alike m parent e, evalExprs_alike m parent es]

theorem evalKeywords_alike (m parent : Path) : ∀ es : List (Option String × Expr),
    evalKeywords W a depth look m parent es = evalKeywords W b depth look m parent es
  | [] => by simp only [evalKeywords]
  | (k, e) :: es => by
    simp only [evalKeywords, evalExpr_alike m parent e, evalKeywords_alike m parent es]

theorem evalEntries_alike (m parent : Path) : ∀ es : List Expr,
    evalEntries W a depth look m parent es = evalEntries W b depth look m parent es
  | [] => by simp only [evalEntries]
  | [_] => by simp only [evalEntries]
  | k :: v :: es => by
    simp only [evalEntries, evalExpr_alike m parent k, evalExpr_alike m parent v, evalEntries_alike m parent es]

end

theorem evalAssign_alike (m parent : Path) (targets : List Expr) (value : Option Expr) :
    evalAssign W a depth look m parent targets value = evalAssign W b depth look m parent targets value := by
  unfold evalAssign
  simp only [evResolve_alike h, evalExpr_alike W depth h look]

variable (other : Atom → String)

theorem evalStmt_alike (m parent : Path) (s : Stmt) :
    evalStmt W a depth other look m parent s = evalStmt W b depth other look m parent s := by
  cases s <;> simp only [evalStmt, evalAssign_alike W depth h look]

theorem evalNodes_alike (m path : Path) : ∀ (v : Option V) (nodes : List Stmt),
    evalNodes W a depth other look m path v nodes = evalNodes W b depth other look m path v nodes
  | none, [] => by simp only [evalNodes]
  | some v, [] => by simp only [evalNodes]
  | none, node :: nodes => by
    simp only [evalNodes, evalStmt_alike W depth h look other, evalNodes_alike m path _ nodes]
  | some _, node :: nodes => by
    simp only [evalNodes, evalStmt_alike W depth h look other, evalNodes_alike m path _ nodes]

theorem evalDependencies_alike (m path : Path) : ∀ names : List String,
    evalDependencies a depth look m path names = evalDependencies b depth look m path names
  | [] => by simp only [evalDependencies]
  | name :: names => by simp only [evalDependencies, evResolve_alike h, evalDependencies_alike m path names]

theorem evalDefinitions_alike (m path : Path) : ∀ (nodes : List Stmt) (v : Option V) (cls mod : Dict String V),
    evalDefinitions W a depth other look m path v nodes cls mod
      = evalDefinitions W b depth other look m path v nodes cls mod
  | [], v, cls, mod => by simp only [evalDefinitions]
  | node :: nodes, v, cls, mod => by
    simp only [evalDefinitions, evalDependencies_alike depth h look, evalStmt_alike W depth h look other,
      evalDefinitions_alike m path nodes]

theorem evalMembers_alike (m path : Path) (nodes : Dict Path (List Stmt)) : ∀ (names : List String)
    (cls mod : Dict String V) (anns : Dict String Expr),
    evalMembers W a depth other look m path nodes names cls mod anns
      = evalMembers W b depth other look m path nodes names cls mod anns
  | [], cls, mod, anns => by simp only [evalMembers]
  | name :: names, cls, mod, anns => by
    simp only [evalMembers, evalDefinitions_alike W depth h look other, evalMembers_alike m path nodes names]

theorem evalAnnotations_alike (m path : Path) (cls : V) : ∀ es : Dict String Expr,
    evalAnnotations W a depth look m path cls es = evalAnnotations W b depth look m path cls es
  | [] => by simp only [evalAnnotations]
  | (name, e) :: es => by
    simp only [evalAnnotations, evalExpr_alike W depth h look, evalAnnotations_alike m path cls es]

theorem evalClass_alike (m path : Path) (nodes : Dict Path (List Stmt)) :
    evalClass W a depth other look m path nodes = evalClass W b depth other look m path nodes := by
  unfold evalClass
  simp only [getKey_alike (h.tell _).definitions, evalMembers_alike W depth h look other, h.superclasses,
    evalAnnotations_alike W depth h look]

theorem evalStub_alike (m path : Path) :
    evalStub W a depth other look m path = evalStub W b depth other look m path := by
  unfold evalStub
  simp only [getKey_alike (h.tell _).nodes, getKey_alike (h.tell _).kinds, evalClass_alike W depth h look other,
    evalNodes_alike W depth h look other]

omit look in
theorem evalPath_alike : ∀ n, evalPath W a depth other n = evalPath W b depth other n
  | 0 => by funext q; simp only [evalPath]
  | n + 1 => by
    have ih := evalPath_alike n
    funext q
    simp only [evalPath, ih, getKey_alike (h.tell _).definitions, evalStub_alike W depth h _ other]

omit look in
theorem evaluateNode_alike (n : Nat) : evaluateNode W a depth other n = evaluateNode W b depth other n := by
  funext m parent e s
  unfold evaluateNode
  rw [evalPath_alike W depth h other n, evalExpr_alike W depth h]

end

/-! ### Signatures -/

/-- With other tables. -/
def Runtime.on (R : Runtime) (T : Stubs) : Runtime := { R with stubs := T }

section

variable {a b : Stubs} (h : SayAlike a b) (R : Runtime) (E : Evaluator)

include h

theorem Runtime.resolve_alike (m parent object : Path) :
    (R.on a).resolve m parent object = (R.on b).resolve m parent object := by
  unfold Runtime.resolve
  show Paradigm.resolve a.toTables R.depth m parent object [] = Paradigm.resolve b.toTables R.depth m parent object []
  rw [Paradigm.resolve_alike h]

theorem kinds_alike (m : Path) : getItem (R.on a).stubs.nodesKinds m = getItem (R.on b).stubs.nodesKinds m :=
  getItem_alike (h.tell m).kinds

theorem nodes_alike (m : Path) : getItem (R.on a).stubs.rawAstNodes m = getItem (R.on b).stubs.rawAstNodes m :=
  getItem_alike (h.tell m).nodes

theorem isClassmethod_alike : isClassmethod (R.on a) = isClassmethod (R.on b) := by
  funext m parent e
  unfold isClassmethod
  simp only [R.resolve_alike h]

theorem adjustedParameters_onAlike : adjustedParameters (R.on a) = adjustedParameters (R.on b) := by
  funext f c m parent ps
  unfold adjustedParameters
  simp only [isClassmethod_alike h, show ∀ m, (R.on a).stubs.nodesKinds.lookup m = (R.on b).stubs.nodesKinds.lookup m
    from fun m => (h.tell m).kinds]

theorem fromFunctionDefS_alike : fromFunctionDefS (R.on a) E = fromFunctionDefS (R.on b) E := by
  funext f c m parent
  unfold fromFunctionDefS parametersFromS
  simp only [adjustedParameters_onAlike h]

theorem loadAstNodes_alike : loadAstNodes (R.on a) = loadAstNodes (R.on b) := by
  funext m object
  unfold loadAstNodes
  simp only [show ∀ m, (R.on a).stubs.rawAstNodes.lookup m = (R.on b).stubs.rawAstNodes.lookup m
    from fun m => (h.tell m).nodes]

theorem fromNamedS_alike : fromNamedS (R.on a) = fromNamedS (R.on b) := by
  funext statement e c m parent
  unfold fromNamedS
  simp only [R.resolve_alike h, kinds_alike h, nodes_alike h, loadAstNodes_alike h]

theorem fromExpressionS_alike : ∀ n, fromExpressionS (R.on a) E n = fromExpressionS (R.on b) E n ∧
    fromStatementS (R.on a) E n = fromStatementS (R.on b) E n
  | 0 => by
    constructor
    · funext e c m parent; simp only [fromExpressionS]
    · funext e c m parent; simp only [fromStatementS]
  | n + 1 => by
    obtain ⟨i1, i2⟩ := fromExpressionS_alike n
    constructor
    · funext e c m parent
      cases e <;> simp only [fromExpressionS, fromNamedS_alike h, i1, i2, R.resolve_alike h]
    · funext s c m parent
      cases s <;> simp only [fromStatementS, i1, fromFunctionDefS_alike h]

theorem builderSearch_alike (object : Path) : ∀ n, builderSearch (R.on a) object n = builderSearch (R.on b) object n
  | 0 => by funext q; simp only [builderSearch]
  | n + 1 => by
    have ih := builderSearch_alike object n
    have key : ∀ (T : Stubs) (m p : Path) (f : QPath → Except PyErr (Option QPath)),
        (match (T.superclasses.lookup m).bind (fun supers => supers.lookup p) with
          | none => .ok none
          | some bases => firstHit f bases)
        = firstHit f ((((T.superclasses.lookup m).getD []).lookup p).getD []) := by
      intro T m p f
      cases h1 : T.superclasses.lookup m with
      | none => rfl
      | some d => cases h2 : d.lookup p <;> simp [h2, firstHit]
    funext ⟨bm, bo⟩
    simp only [builderSearch, show ∀ m, (R.on a).stubs.rawAstNodes.lookup m = (R.on b).stubs.rawAstNodes.lookup m
      from fun m => (h.tell m).nodes, ih]
    have k1 := key a bm bo (builderSearch (R.on b) object n)
    have k2 := key b bm bo (builderSearch (R.on b) object n)
    rw [h.superclasses bm bo, ← k2] at k1
    cases (R.on b).stubs.rawAstNodes.lookup bm with
    | none => rfl
    | some annotations =>
      dsimp only
      split
      · rfl
      · split
        · rfl
        · exact k1

theorem resolveBuilder_alike : resolveBuilder (R.on a) = resolveBuilder (R.on b) := by
  funext paths
  unfold resolveBuilder
  have : classBuilder (R.on a) = classBuilder (R.on b) := by
    funext q
    unfold classBuilder
    rw [show (R.on a).depth = (R.on b).depth from rfl, builderSearch_alike h]
  rw [this]

theorem resolveQualifiedPaths_alike : resolveQualifiedPaths (R.on a) = resolveQualifiedPaths (R.on b) := by
  funext f
  unfold resolveQualifiedPaths
  have h1 : tryResolve (R.on a) = tryResolve (R.on b) := by
    funext q
    unfold tryResolve
    rw [R.resolve_alike h]
  have h2 : candidatePaths (R.on a) f = candidatePaths (R.on b) f := rfl
  rw [h1, h2]

theorem toQualifiedPaths_alike : toQualifiedPaths (R.on a) = toQualifiedPaths (R.on b) := by
  funext f
  unfold toQualifiedPaths
  simp only [resolveQualifiedPaths_alike h, kinds_alike h, resolveBuilder_alike h]

theorem fromPathsS_alike (value : Fn) : ∀ paths, fromPathsS (R.on a) E value paths = fromPathsS (R.on b) E value paths
  | [] => by simp only [fromPathsS]
  | (m, object) :: paths => by
    simp only [fromPathsS, loadAstNodes_alike h, (fromExpressionS_alike h R E _).2, fromPathsS_alike value paths,
      show (R.on a).depth = (R.on b).depth from rfl]

theorem fromFnS_alike (value : Fn) : fromFnS (R.on a) E value = fromFnS (R.on b) E value := by
  unfold fromFnS
  simp only [toQualifiedPaths_alike h, fromPathsS_alike h]

theorem fromInstanceS_alike (self : Obj) (attr : Except PyErr Fn) :
    fromInstanceS (R.on a) E self attr = fromInstanceS (R.on b) E self attr := by
  unfold fromInstanceS
  simp only [fromFnS_alike h]

theorem fromClassS_alike (f : Fn) : fromClassS (R.on a) E f = fromClassS (R.on b) E f := by
  unfold fromClassS
  simp only [resolveQualifiedPaths_alike h, resolveBuilder_alike h, loadAstNodes_alike h,
    (fromExpressionS_alike h R E _).2, show (R.on a).depth = (R.on b).depth from rfl]

theorem fromCallableS_alike : ∀ c, fromCallableS (R.on a) E c = fromCallableS (R.on b) E c
  | .builtin owner qualname obj raw => by
    cases owner <;> simp only [fromCallableS, fromFnS_alike h, fromInstanceS_alike h]
  | .function l raw => by simp only [fromCallableS, fromFnS_alike h]
  | .method obj self raw => by
    cases self <;> simp only [fromCallableS, fromFnS_alike h, fromInstanceS_alike h]
  | .methodWrapper self raw => by
    cases self <;> simp only [fromCallableS, fromInstanceS_alike h]
  | .descriptor l raw => by simp only [fromCallableS, fromFnS_alike h]
  | .cls l raw => by simp only [fromCallableS, fromClassS_alike h]
  | .partial_ func args keywords => by simp only [fromCallableS, fromCallableS_alike func]
  | .other => by simp only [fromCallableS]

theorem session_alike : ∀ (cs : List Callable) (s : EvalState Obj), session (R.on a) E cs s = session (R.on b) E cs s
  | [], _ => by simp only [session]
  | c :: cs, s => by simp only [session, fromCallableS_alike h, session_alike cs]

omit E in
theorem evaluator_alike (W : Interpreter Obj) (other : Atom → String) (n : Nat) :
    (R.on a).evaluator W other n = (R.on b).evaluator W other n :=
  evaluateNode_alike W R.depth h other n

end

end Paradigm
