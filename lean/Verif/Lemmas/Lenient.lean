import Verif.Lemmas.Aliases

/-!
# The evaluator is lenient

The evaluator does the same in Python and in the lenient Python of the specification.
-/

namespace Paradigm

open Spec

section

variable {V : Type} {W : Interpreter V} {T : Stubs} {depth : Nat} {other : Atom → String}
  {look : QPath → Ev V V}

theorem lenient_importModule : (lenient W).importModule = W.importModule := rfl
theorem lenient_getattr : (lenient W).getattr = W.getattr := rfl
theorem lenient_call : (lenient W).call = W.call := rfl
theorem lenient_unary : (lenient W).unary = W.unary := rfl
theorem lenient_union : (lenient W).union = W.union := rfl
theorem lenient_constant : (lenient W).constant = W.constant := rfl
theorem lenient_tuple : (lenient W).tuple = W.tuple := rfl
theorem lenient_list : (lenient W).list = W.list := rfl
theorem lenient_dict : (lenient W).dict = W.dict := rfl
theorem lenient_forwardRef : (lenient W).forwardRef = W.forwardRef := rfl
theorem lenient_newModule : (lenient W).newModule = W.newModule := rfl
theorem lenient_newClass : (lenient W).newClass = W.newClass := rfl
theorem lenient_define : (lenient W).define = W.define := rfl

theorem evalItem_lenient (value item : V) :
    evalItem (lenient W) value item = evalItem W value item := by
  unfold evalItem lenient
  simp only
  cases h : W.getitem value item with
  | ok v => rfl
  | error e => cases e <;> rfl

theorem evalBinary_lenient (op : String) (left right : V) :
    evalBinary (lenient W) op left right = evalBinary W op left right := by
  unfold evalBinary lenient
  simp only
  cases hop : binaryOperator op with
  | error e => rfl
  | ok u =>
    simp only
    cases h : W.binary op left right with
    | ok v => rfl
    | error e =>
      cases e <;> try rfl
      by_cases g : op = "BitOr"
      · simp only [if_pos g]
        cases W.union left right with
        | ok v => rfl
        | error e => cases e <;> rfl
      · simp only [if_neg g]

mutual

theorem evalExpr_lenient (m parent : Path) : ∀ e : Expr,
    evalExpr (lenient W) T depth look m parent e = evalExpr W T depth look m parent e
  | .name id load => by simp only [evalExpr]
  | .attribute value attr load => by
    simp only [evalExpr, evalExpr_lenient m parent value, lenient_getattr, lenient_call, lenient_unary, lenient_constant, lenient_tuple,
      lenient_list, lenient_dict, lenient_forwardRef, lenient_newClass, lenient_define]
  | .subscript value slice load => by
    simp only [evalExpr, evalExpr_lenient m parent value, evalExpr_lenient m parent slice,
      evalItem_lenient]
  | .tuple elts load => by
    simp only [evalExpr, evalExprs_lenient m parent elts, lenient_getattr, lenient_call, lenient_unary, lenient_constant, lenient_tuple,
      lenient_list, lenient_dict, lenient_forwardRef, lenient_newClass, lenient_define]
  | .list elts => by
    simp only [evalExpr, evalExprs_lenient m parent elts, lenient_getattr, lenient_call, lenient_unary, lenient_constant, lenient_tuple,
      lenient_list, lenient_dict, lenient_forwardRef, lenient_newClass, lenient_define]
  | .call func args keywords => by
    simp only [evalExpr, evalExprs_lenient m parent args, evalKeywords_lenient m parent keywords,
      evalExpr_lenient m parent func, lenient_getattr, lenient_call, lenient_unary, lenient_constant, lenient_tuple,
      lenient_list, lenient_dict, lenient_forwardRef, lenient_newClass, lenient_define]
  | .constant value => by simp only [evalExpr, lenient_getattr, lenient_call, lenient_unary, lenient_constant, lenient_tuple,
      lenient_list, lenient_dict, lenient_forwardRef, lenient_newClass, lenient_define]
  | .binOp left op right => by
    simp only [evalExpr, evalExpr_lenient m parent left, evalExpr_lenient m parent right,
      evalBinary_lenient]
  | .other tag children => by
    rcases children with _ | ⟨operand, _ | ⟨c, cs⟩⟩
    · simp only [evalExpr, evalEntries_lenient m parent [], lenient_getattr, lenient_call, lenient_unary, lenient_constant, lenient_tuple,
      lenient_list, lenient_dict, lenient_forwardRef, lenient_newClass, lenient_define]
    · simp only [evalExpr, evalEntries_lenient m parent [operand], evalExpr_lenient m parent operand,
        lenient_unary, lenient_dict]
    · simp only [evalExpr, evalEntries_lenient m parent (operand :: c :: cs), lenient_getattr, lenient_call, lenient_unary, lenient_constant, lenient_tuple,
      lenient_list, lenient_dict, lenient_forwardRef, lenient_newClass, lenient_define]

theorem evalExprs_lenient (m parent : Path) : ∀ es : List Expr,
    evalExprs (lenient W) T depth look m parent es = evalExprs W T depth look m parent es
  | [] => by simp only [evalExprs]
  | e :: es => by
    simp only [evalExprs, evalExpr_lenient m parent e, evalExprs_lenient m parent es]

theorem evalKeywords_lenient (m parent : Path) : ∀ es : List (Option String × Expr),
    evalKeywords (lenient W) T depth look m parent es = evalKeywords W T depth look m parent es
  | [] => by simp only [evalKeywords]
  | (k, e) :: es => by
    simp only [evalKeywords, evalExpr_lenient m parent e, evalKeywords_lenient m parent es]

theorem evalEntries_lenient (m parent : Path) : ∀ es : List Expr,
    evalEntries (lenient W) T depth look m parent es = evalEntries W T depth look m parent es
  | [] => by simp only [evalEntries]
  | [e] => by simp only [evalEntries]
  | k :: v :: es => by
    simp only [evalEntries, evalExpr_lenient m parent k, evalExpr_lenient m parent v,
      evalEntries_lenient m parent es]

end

theorem searchObject_lenient : ∀ (path : Path) (value : V),
    searchObject (lenient W) value path = searchObject W value path
  | [], _ => rfl
  | name :: names, value => by
    rw [searchObject, searchObject]
    simp only [lenient_getattr, searchObject_lenient names]

theorem cachedTarget_lenient : ∀ (qs : List QPath),
    cachedTarget (lenient W) qs = cachedTarget W qs
  | [] => rfl
  | q :: qs => by
    simp only [cachedTarget, cachedTarget_lenient qs, lenient_getattr, lenient_call, lenient_unary, lenient_constant, lenient_tuple,
      lenient_list, lenient_dict, lenient_forwardRef, lenient_newClass, lenient_define]

theorem evalAssign_lenient (m parent : Path) (targets : List Expr) (value : Option Expr) :
    evalAssign (lenient W) T depth look m parent targets value
      = evalAssign W T depth look m parent targets value := by
  simp only [evalAssign, cachedTarget_lenient, evalExpr_lenient]

theorem evalStmt_lenient (m parent : Path) (node : Stmt) :
    evalStmt (lenient W) T depth other look m parent node
      = evalStmt W T depth other look m parent node := by
  cases node <;> simp only [evalStmt, evalAssign_lenient, lenient_getattr, lenient_call, lenient_unary, lenient_constant, lenient_tuple,
      lenient_list, lenient_dict, lenient_forwardRef, lenient_newClass, lenient_define]

theorem evalNodes_lenient (m path : Path) : ∀ (nodes : List Stmt) (v : Option V),
    evalNodes (lenient W) T depth other look m path v nodes
      = evalNodes W T depth other look m path v nodes
  | [], none => by simp only [evalNodes]
  | [], some v => by simp only [evalNodes]
  | node :: nodes, v => by
    cases v <;> simp only [evalNodes, evalStmt_lenient, evalNodes_lenient m path nodes]

theorem evalDefinitions_lenient (m path : Path) : ∀ (nodes : List Stmt) (v : Option V)
    (cls mod : Dict String V),
    evalDefinitions (lenient W) T depth other look m path v nodes cls mod
      = evalDefinitions W T depth other look m path v nodes cls mod
  | [], _, _, _ => by simp only [evalDefinitions]
  | node :: nodes, v, cls, mod => by
    simp only [evalDefinitions, evalStmt_lenient, evalDefinitions_lenient m path nodes]
    rfl

theorem evalMembers_lenient (m path : Path) (nodes : Dict Path (List Stmt)) :
    ∀ (names : List String) (cls mod : Dict String V) (anns : Dict String Expr),
    evalMembers (lenient W) T depth other look m path nodes names cls mod anns
      = evalMembers W T depth other look m path nodes names cls mod anns
  | [], _, _, _ => by simp only [evalMembers]
  | name :: names, cls, mod, anns => by
    simp only [evalMembers, evalDefinitions_lenient, evalMembers_lenient m path nodes names]

theorem evalAnnotations_lenient (m path : Path) (cls : V) : ∀ (es : Dict String Expr),
    evalAnnotations (lenient W) T depth look m path cls es
      = evalAnnotations W T depth look m path cls es
  | [] => by simp only [evalAnnotations]
  | (name, e) :: es => by
    simp only [evalAnnotations, evalExpr_lenient, evalAnnotations_lenient m path cls es]

theorem evalClass_lenient (m path : Path) (nodes : Dict Path (List Stmt)) :
    evalClass (lenient W) T depth other look m path nodes
      = evalClass W T depth other look m path nodes := by
  simp only [evalClass, evalMembers_lenient, evalAnnotations_lenient, lenient_getattr, lenient_call, lenient_unary, lenient_constant, lenient_tuple,
      lenient_list, lenient_dict, lenient_forwardRef, lenient_newClass, lenient_define]

theorem evalStub_lenient (m path : Path) :
    evalStub (lenient W) T depth other look m path = evalStub W T depth other look m path := by
  simp only [evalStub, evalClass_lenient, evalNodes_lenient]

/-- The evaluator cannot tell Python from lenient Python. -/
theorem evalPath_lenient : ∀ (n : Nat) (q : QPath),
    evalPath (lenient W) T depth other n q = evalPath W T depth other n q
  | 0, q => rfl
  | n + 1, (m, path) => by
    have ih : evalPath (lenient W) T depth other n = evalPath W T depth other n :=
      funext (evalPath_lenient n)
    simp only [evalPath, ih, evalStub_lenient, searchObject_lenient,
      lenient_importModule, lenient_newModule]

end

end Paradigm
