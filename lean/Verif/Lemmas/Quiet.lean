import Verif.Spec.Overloads
import Verif.Lemmas.EvaluationRelations
import Verif.Lemmas.Pipeline

/-!
# Lemmas: computations that do not raise `_SignatureNotFound`
-/

namespace Paradigm

open Spec

/-- From every state the computation does not raise `_SignatureNotFound`, and what it returns has the
property. -/
def Yields {V α : Type} (P : α → Prop) (x : Ev V α) : Prop :=
  ∀ s, (x s).1 ≠ .error .signatureNotFound ∧ ∀ a, (x s).1 = .ok a → P a

/-- From every state the computation does not raise `_SignatureNotFound`. -/
def Quiet {V α : Type} (x : Ev V α) : Prop := Yields (fun _ => True) x

section

variable {V α β : Type}

theorem Yields.pure {P : α → Prop} {a : α} (h : P a) : Yields P (Ev.pure a : Ev V α) := fun _ =>
  ⟨(by intro g; cases g), fun _ g => by cases g; exact h⟩

theorem Yields.raise {P : α → Prop} {e : PyErr} (h : e ≠ .signatureNotFound) :
    Yields P (Ev.raise e : Ev V α) := fun _ =>
  ⟨(by intro g; injection g with g; exact h g), fun _ g => by cases g⟩

theorem Yields.lift {P : α → Prop} {x : Except PyErr α} (h : x ≠ .error .signatureNotFound)
    (h' : ∀ a, x = .ok a → P a) : Yields P (Ev.lift x : Ev V α) := fun _ => ⟨h, h'⟩

theorem Yields.bind {P : α → Prop} {Q : β → Prop} {x : Ev V α} {f : α → Ev V β} (hx : Yields P x)
    (hf : ∀ a, P a → Yields Q (f a)) : Yields Q (x >>= f) := by
  intro s
  obtain ⟨h1, h2⟩ := hx s
  cases h : x s with
  | mk r t =>
    rw [h] at h1 h2
    cases r with
    | ok a => rw [Ev.bind_ok h]; exact hf a (h2 a rfl) t
    | error e => rw [Ev.bind_error h]; exact ⟨fun g => h1 (by injection g with g; rw [g]), fun _ g => by cases g⟩

theorem Yields.imp {P Q : α → Prop} {x : Ev V α} (h : Yields P x) (g : ∀ a, P a → Q a) : Yields Q x :=
  fun s => ⟨(h s).1, fun a e => g a ((h s).2 a e)⟩

theorem Yields.each {P : α → β → Prop} {f : α → Ev V β} : ∀ {xs : List α},
    (∀ x ∈ xs, Yields (P x) (f x)) → Yields (Pointwise P xs) (Ev.each f xs)
  | [], _ => Yields.pure trivial
  | x :: xs, h => by
    rw [Ev.each]
    exact (h x (.head _)).bind fun y hy =>
      (Yields.each fun z hz => h z (.tail _ hz)).bind fun ys hys => Yields.pure ⟨hy, hys⟩

theorem Quiet.pure (a : α) : Quiet (Ev.pure a : Ev V α) := Yields.pure trivial

theorem Quiet.raise {e : PyErr} (h : e ≠ .signatureNotFound) : Quiet (Ev.raise e : Ev V α) :=
  Yields.raise h

theorem Quiet.lift {x : Except PyErr α} (h : x ≠ .error .signatureNotFound) :
    Quiet (Ev.lift x : Ev V α) := Yields.lift h fun _ _ => trivial

theorem Quiet.get : Quiet (Ev.get : Ev V (EvalState V)) := fun _ => ⟨(by intro g; cases g), fun _ _ => trivial⟩

theorem Quiet.modify (f : EvalState V → EvalState V) : Quiet (Ev.modify f) := fun _ =>
  ⟨(by intro g; cases g), fun _ _ => trivial⟩

theorem Quiet.bind {x : Ev V α} {f : α → Ev V β} (hx : Quiet x) (hf : ∀ a, Quiet (f a)) :
    Quiet (x >>= f) := Yields.bind hx fun a _ => hf a

theorem Quiet.within {x : Ev V α} (hx : Quiet x) (ns back : Dict String V) :
    Quiet (Ev.within ns back x) := by
  intro s
  have h1 := (hx { s with ns := ns, back := back }).1
  refine ⟨?_, fun _ _ => trivial⟩
  unfold Ev.within
  cases h : x { s with ns := ns, back := back } with
  | mk r t =>
    rw [h] at h1
    cases r with
    | ok a => intro g; cases g
    | error e => intro g; injection g with g; exact h1 (by rw [g])

theorem Quiet.each {f : α → Ev V β} (hf : ∀ x, Quiet (f x)) (xs : List α) : Quiet (Ev.each f xs) :=
  Yields.imp (Yields.each fun x _ => hf x) fun _ _ => trivial

theorem Quiet.putName (name : String) (w : V) : Quiet (putName name w) := Quiet.modify _

end

theorem resolve_quiet (T : Tables) (n : Nat) (m parent object : Path) (visited : List Path) :
    resolve T n m parent object visited ≠ .error .signatureNotFound := by
  intro h
  rcases resolve_errors _ _ _ _ _ _ _ h with h | h | h | h <;> cases h

theorem toPath_quiet : ∀ e : Expr, toPath e ≠ .error .signatureNotFound
  | .name .. => by simp [toPath]
  | .attribute value attr load => by
    rw [toPath]
    have := toPath_quiet value
    cases h : toPath value with
    | ok p => simp
    | error x => rw [h] at this; simp only; exact this
  | .subscript .. | .tuple .. | .list .. | .call .. | .constant .. | .binOp .. | .other .. => by
    simp [toPath]

theorem getKey_quiet {α β : Type} [BEq α] (d : Dict α β) (k : α) : getKey d k ≠ .error .signatureNotFound := by
  unfold getKey
  split <;> simp

theorem targetName_quiet (e : Expr) : targetName e ≠ .error .signatureNotFound := by
  cases e <;> simp [targetName]
  split <;> simp

theorem scopeAt_quiet : ∀ (path : Path) (scope : Scope), scopeAt scope path ≠ .error .signatureNotFound
  | [], _ => by simp [scopeAt]
  | part :: path, scope => by
    rw [scopeAt]
    split
    · simp
    · exact scopeAt_quiet path _

theorem operatorText_quiet (op : String) : operatorText op ≠ .error .signatureNotFound := by
  unfold operatorText
  split
  · simp
  · split
    · simp
    · split <;> simp

mutual

theorem toStr_quiet (other : Atom → String) : ∀ e : Expr, toStr other e ≠ .error .signatureNotFound
  | .name .. | .constant .. | .call .. => by simp [toStr]
  | .attribute value attr load => by
    have := toStr_quiet other value
    rw [toStr]
    split
    · simp
    · simp_all
  | .subscript value slice load => by
    have h1 := toStr_quiet other value
    have h2 := toStr_quiet other slice
    rw [toStr]
    split
    · split
      · simp
      · simp_all
    · simp_all
  | .tuple elts _ => by
    have := toStrs_quiet other elts
    rw [toStr]
    split
    · simp
    · simp_all
  | .list elts => by
    have := toStrs_quiet other elts
    rw [toStr]
    split
    · simp
    · simp_all
  | .binOp left op right => by
    have h1 := toStr_quiet other left
    have h2 := toStr_quiet other right
    have h3 := operatorText_quiet op
    rw [toStr]
    split
    · split
      · split
        · simp
        · simp_all
      · simp_all
    · simp_all
  | .other tag [] => by
    rw [toStr]
    · split <;> simp
    · intro _ h; cases h
  | .other tag [operand] => by
    have := toStr_quiet other operand
    rw [toStr]
    split
    · split
      · simp
      · simp_all
    · simp
  | .other tag (x :: y :: es) => by
    rw [toStr]
    · split <;> simp
    · intro _ h; cases h

theorem toStrs_quiet (other : Atom → String) : ∀ es : List Expr, toStrs other es ≠ .error .signatureNotFound
  | [] => by simp [toStrs]
  | e :: es => by
    have h1 := toStr_quiet other e
    have h2 := toStrs_quiet other es
    rw [toStrs]
    split
    · split
      · simp
      · simp_all
    · simp_all

end

theorem lazyExpr_quiet (other : Atom → String) (e : Option Expr) :
    lazyExpr other e ≠ .error .signatureNotFound := by
  cases e with
  | none => simp [lazyExpr]
  | some e =>
    have := toStr_quiet other e
    rw [lazyExpr]
    split
    · simp
    · simp_all

theorem lazyArg_quiet (other : Atom → String) (a : Arg) : lazyArg other a ≠ .error .signatureNotFound := by
  have := lazyExpr_quiet other a.annotation
  unfold lazyArg
  split
  · simp
  · simp_all

theorem lazyArgOption_quiet (other : Atom → String) (a : Option Arg) :
    lazyArgOption other a ≠ .error .signatureNotFound := by
  cases a with
  | none => simp [lazyArgOption]
  | some a =>
    have := lazyArg_quiet other a
    rw [lazyArgOption]
    split
    · simp
    · simp_all

theorem lazyFunction_quiet (other : Atom → String) (f : FunctionDef) :
    lazyFunction other f ≠ .error .signatureNotFound := by
  have hargs : ∀ l, mapExcept (lazyArg other) l ≠ .error .signatureNotFound := fun l h => by
    obtain ⟨a, _, h⟩ := mapExcept_error h
    exact lazyArg_quiet other a h
  intro h
  unfold lazyFunction at h
  rcases except_bind_error.1 h with h | ⟨_, _, h⟩
  · exact lazyExpr_quiet _ _ h
  rcases except_bind_error.1 h with h | ⟨_, _, h⟩
  · exact hargs _ h
  rcases except_bind_error.1 h with h | ⟨_, _, h⟩
  · exact hargs _ h
  rcases except_bind_error.1 h with h | ⟨_, _, h⟩
  · exact lazyArgOption_quiet _ _ h
  rcases except_bind_error.1 h with h | ⟨_, _, h⟩
  · exact hargs _ h
  rcases except_bind_error.1 h with h | ⟨_, _, h⟩
  · exact lazyArgOption_quiet _ _ h
  · cases h

theorem lazyStmt_quiet (other : Atom → String) (s : Stmt) : lazyStmt other s ≠ .error .signatureNotFound := by
  cases s <;> simp only [lazyStmt]
  case functionDef f =>
    have := lazyFunction_quiet other f
    split
    · simp
    · simp_all
  all_goals simp

section

variable {V : Type} {W : Interpreter V} (hW : Ordinary W)

include hW

theorem evalItem_quiet (v i : V) : evalItem W v i ≠ .error .signatureNotFound := by
  unfold evalItem
  have := hW.getitem v i
  cases h : W.getitem v i with
  | ok w => simp
  | error e => rw [h] at this; cases e <;> simp_all

theorem evalBinary_quiet (op : String) (l r : V) : evalBinary W op l r ≠ .error .signatureNotFound := by
  unfold evalBinary
  have hb := hW.binary op l r
  have hu := hW.union l r
  unfold binaryOperator
  by_cases g : op = "BitAnd" ∨ op = "BitOr" ∨ op = "BitXor"
  · rw [if_pos g]
    simp only
    cases h : W.binary op l r with
    | ok w => simp
    | error e =>
      rw [h] at hb
      cases e with
      | typeError tag =>
        simp only
        split
        · exact hu
        · simp
      | signatureNotFound => exact absurd rfl hb
      | _ => simp
  · rw [if_neg g]
    simp only
    split
    · exact hu
    · simp

theorem searchObject_quiet : ∀ (path : Path) (v : V), searchObject W v path ≠ .error .signatureNotFound
  | [], _ => by simp [searchObject]
  | name :: path, v => by
    have := hW.getattr v name
    rw [searchObject]
    split
    · exact searchObject_quiet path _
    · simp
    · simp_all

end

theorem evalExpr_other_eq {V : Type} (W : Interpreter V) (T : Stubs) (depth : Nat) (look : QPath → Ev V V)
    (m parent : Path) {tag : String} {children : List Expr} (hd : tag ≠ "Dict")
    (ho : ∀ operand, ¬ ((tag = "UnaryOp USub" ∨ tag = "UnaryOp UAdd") ∧ children = [operand])) :
    evalExpr W T depth look m parent (.other tag children) = Ev.raise (.typeError "node") ∨
      evalExpr W T depth look m parent (.other tag children) = Ev.raise .assertionError := by
  match children, ho with
  | [], _ =>
    rw [evalExpr]
    · split
      · exact .inl rfl
      · split
        · exact .inr rfl
        · exact .inl rfl
    · intro _ h; cases h
  | [o], ho =>
    rw [evalExpr, if_neg fun g => ho o ⟨g, rfl⟩, if_neg hd]
    split
    · exact .inr rfl
    · exact .inl rfl
  | _ :: _ :: _, _ =>
    rw [evalExpr]
    · split
      · exact .inl rfl
      · split
        · exact .inr rfl
        · exact .inl rfl
    · intro _ h; cases h

/-- Closes the goal that a part of the evaluation is quiet. -/
local macro "quiet" : tactic => `(tactic| first
  | exact resolve_quiet _ _ _ _ _ _ | exact toPath_quiet _ | exact getKey_quiet _ _
  | exact targetName_quiet _ | exact scopeAt_quiet _ _ | exact lazyFunction_quiet _ _
  | exact lazyStmt_quiet _ _
  | (apply evalItem_quiet; assumption) | (apply evalBinary_quiet; assumption)
  | (apply Ordinary.importModule; assumption) | (apply Ordinary.call; assumption)
  | (apply Ordinary.unary; assumption) | (apply Ordinary.dict; assumption)
  | (apply Ordinary.forwardRef; assumption) | (apply Ordinary.newClass; assumption)
  | (apply Ordinary.define; assumption))

section

variable {V : Type} {W : Interpreter V} {T : Stubs} {depth : Nat} {other : Atom → String}
  {look : QPath → Ev V V} (hW : Ordinary W) (hlook : ∀ r, Quiet (look r))

theorem evResolve_quiet (m parent path : Path) :
    Quiet (evResolve (V := V) T depth m parent path) := Quiet.lift (by quiet)

include hW hlook

mutual

theorem evalExpr_quiet (m parent : Path) : ∀ e : Expr,
    Quiet (evalExpr W T depth look m parent e)
  | .name id load => by
    rw [evalExpr]
    split
    · exact Quiet.raise (by simp)
    · exact (evResolve_quiet _ _ _).bind fun r => hlook r
  | .attribute value attr load => by
    rw [evalExpr]
    split
    · exact Quiet.raise (by simp)
    · refine (evalExpr_quiet m parent value).bind fun x => ?_
      have hx := hW.getattr x attr
      split
      · exact Quiet.pure _
      · exact (Quiet.lift (by quiet)).bind fun _ => (evResolve_quiet _ _ _).bind fun r => hlook r
      · exact Quiet.raise fun g => hx (by simp_all)
  | .subscript value slice load => by
    rw [evalExpr]
    split
    · exact Quiet.raise (by simp)
    · exact (evalExpr_quiet m parent value).bind fun _ => (evalExpr_quiet m parent slice).bind fun _ =>
        Quiet.lift (by quiet)
  | .tuple elts load => by
    rw [evalExpr]
    split
    · exact Quiet.raise (by simp)
    · exact (evalExprs_quiet m parent elts).bind fun _ => Quiet.pure _
  | .list elts => by
    rw [evalExpr]
    exact (evalExprs_quiet m parent elts).bind fun _ => Quiet.pure _
  | .call func args keywords => by
    rw [evalExpr]
    exact (evalExprs_quiet m parent args).bind fun _ =>
      (evalKeywords_quiet m parent keywords).bind fun _ =>
        (evalExpr_quiet m parent func).bind fun _ => Quiet.lift (by quiet)
  | .constant value => by rw [evalExpr]; exact Quiet.pure _
  | .binOp left op right => by
    rw [evalExpr]
    exact (evalExpr_quiet m parent left).bind fun _ => (evalExpr_quiet m parent right).bind fun _ =>
      Quiet.lift (by quiet)
  | .other tag [operand] => by
    rcases other_cases tag [operand] with rfl | ⟨hd, ⟨o, ho, e⟩ | ho⟩
    · rw [evalExpr_dict, evalEntries_short _ _ _ _ _ _ (by intro _ _ _ h; cases h)]
      exact (Quiet.pure _).bind fun _ => Quiet.lift (by quiet)
    · cases e
      rw [evalExpr_unary _ _ _ _ _ _ ho]
      exact (evalExpr_quiet m parent operand).bind fun _ => Quiet.lift (by quiet)
    · rcases evalExpr_other_eq W T depth look m parent hd ho with h | h <;> rw [h] <;>
        exact Quiet.raise (by simp)
  | .other tag [] => by
    rcases other_cases tag [] with rfl | ⟨hd, ⟨o, ho, e⟩ | ho⟩
    · rw [evalExpr_dict, evalEntries_short _ _ _ _ _ _ (by intro _ _ _ h; cases h)]
      exact (Quiet.pure _).bind fun _ => Quiet.lift (by quiet)
    · cases e
    · rcases evalExpr_other_eq W T depth look m parent hd ho with h | h <;> rw [h] <;>
        exact Quiet.raise (by simp)
  | .other tag (k :: x :: es) => by
    rcases other_cases tag (k :: x :: es) with rfl | ⟨hd, ⟨o, ho, e⟩ | ho⟩
    · rw [evalExpr_dict]
      exact (evalEntries_quiet m parent (k :: x :: es)).bind fun _ => Quiet.lift (by quiet)
    · cases e
    · rcases evalExpr_other_eq W T depth look m parent hd ho with h | h <;> rw [h] <;>
        exact Quiet.raise (by simp)

theorem evalExprs_quiet (m parent : Path) : ∀ es : List Expr,
    Quiet (evalExprs W T depth look m parent es)
  | [] => by rw [evalExprs]; exact Quiet.pure _
  | e :: es => by
    rw [evalExprs]
    exact (evalExpr_quiet m parent e).bind fun _ => (evalExprs_quiet m parent es).bind fun _ =>
      Quiet.pure _

theorem evalKeywords_quiet (m parent : Path) : ∀ es : List (Option String × Expr),
    Quiet (evalKeywords W T depth look m parent es)
  | [] => by rw [evalKeywords]; exact Quiet.pure _
  | (k, e) :: es => by
    rw [evalKeywords]
    exact (evalExpr_quiet m parent e).bind fun _ => (evalKeywords_quiet m parent es).bind fun _ =>
      Quiet.pure _

theorem evalEntries_quiet (m parent : Path) : ∀ es : List Expr,
    Quiet (evalEntries W T depth look m parent es)
  | [] => by rw [evalEntries_short _ _ _ _ _ _ (by intro _ _ _ h; cases h)]; exact Quiet.pure _
  | [_] => by rw [evalEntries_short _ _ _ _ _ _ (by intro _ _ _ h; cases h)]; exact Quiet.pure _
  | k :: e :: es => by
    rw [evalEntries]
    exact (evalExpr_quiet m parent k).bind fun _ => (evalExpr_quiet m parent e).bind fun _ =>
      (evalEntries_quiet m parent es).bind fun _ => Quiet.pure _

end

omit hlook in
theorem cachedTarget_quiet : ∀ qs : List QPath, Quiet (cachedTarget W qs)
  | [] => by rw [cachedTarget]; exact Quiet.pure _
  | r :: qs => by
    rw [cachedTarget]
    refine Quiet.get.bind fun s => ?_
    split
    · exact Quiet.pure _
    · exact (Quiet.lift (by quiet)).bind fun _ => Quiet.bind (Quiet.modify _) fun _ =>
        cachedTarget_quiet qs

theorem evalAssign_quiet (m parent : Path) (targets : List Expr) (value : Option Expr) :
    Quiet (evalAssign W T depth look m parent targets value) := by
  unfold evalAssign
  refine (Quiet.each (fun _ => Quiet.lift (by quiet)) _).bind fun _ =>
    (Quiet.each (fun _ => evResolve_quiet _ _ _) _).bind fun _ =>
      (cachedTarget_quiet hW _).bind fun c => ?_
  have hlast : ∀ (paths : List QPath) (result : V), Quiet (do
      Ev.modify fun s =>
        { s with assigned := paths.foldl (fun d q => dictPut q result d) s.assigned }
      Ev.pure result : Ev V V) := fun _ _ =>
    Quiet.bind (Quiet.modify _) fun _ => Quiet.pure _
  cases c with
  | some w => exact (Quiet.pure _).bind fun _ => hlast _ _
  | none =>
    cases value with
    | none => exact (Quiet.raise (by simp)).bind fun _ => hlast _ _
    | some e => exact (evalExpr_quiet hW hlook m parent e).bind fun _ => hlast _ _

theorem evalStmt_quiet (m parent : Path) (node : Stmt) :
    Quiet (evalStmt W T depth other look m parent node) := by
  cases node
  case annAssign => rw [evalStmt]; exact evalAssign_quiet hW hlook _ _ _ _
  case assign => rw [evalStmt]; exact evalAssign_quiet hW hlook _ _ _ _
  case functionDef f =>
    rw [evalStmt]
    exact (Quiet.lift (by quiet)).bind fun _ => Quiet.get.bind fun _ => (Quiet.lift (by quiet)).bind fun _ =>
      (Quiet.putName _ _).bind fun _ => Quiet.pure _
  all_goals
    rw [evalStmt]
    · exact Quiet.raise (by simp)
    all_goals simp

theorem evalNodes_quiet (m path : Path) : ∀ (nodes : List Stmt) (w : Option V),
    Quiet (evalNodes W T depth other look m path w nodes)
  | [], none => by rw [evalNodes]; exact Quiet.raise (by simp)
  | [], some _ => by rw [evalNodes]; exact Quiet.pure _
  | node :: nodes, w => by
    have : evalNodes W T depth other look m path w (node :: nodes) = (do
        let v ← evalStmt W T depth other look m path.dropLast node
        putName (path.getLast?.getD "") v
        evalNodes W T depth other look m path (some v) nodes) := by
      cases w <;> rw [evalNodes]
    rw [this]
    exact (evalStmt_quiet hW hlook _ _ _).bind fun _ => (Quiet.putName _ _).bind fun _ =>
      evalNodes_quiet m path nodes _

theorem evalDependencies_quiet (m path : Path) : ∀ names : List String,
    Quiet (evalDependencies T depth look m path names)
  | [] => by rw [evalDependencies]; exact Quiet.pure _
  | name :: names => by
    rw [evalDependencies]
    refine (evResolve_quiet _ _ _).bind fun r => ?_
    split
    · exact (hlook r).bind fun _ => (Quiet.putName _ _).bind fun _ =>
        evalDependencies_quiet m path names
    · exact evalDependencies_quiet m path names

theorem evalDefinitions_quiet (m path : Path) : ∀ (nodes : List Stmt) (w : Option V)
    (cls mod : Dict String V),
    Quiet (evalDefinitions W T depth other look m path w nodes cls mod)
  | [], w, cls, mod => by rw [evalDefinitions]; exact Quiet.pure _
  | node :: nodes, w, cls, mod => by
    rw [evalDefinitions]
    refine (Quiet.lift (by quiet)).bind fun node => ((evalDependencies_quiet hW hlook _ _ _).within _ _).bind
      fun x => ?_
    obtain ⟨⟨⟩, mod⟩ := x
    refine ((evalStmt_quiet hW hlook _ _ _).within _ _).bind fun x => ?_
    obtain ⟨w, cls⟩ := x
    exact evalDefinitions_quiet m path nodes _ _ _

theorem evalMembers_quiet (m path : Path) (nodes : Dict Path (List Stmt)) : ∀ (names : List String)
    (cls mod : Dict String V) (anns : Dict String Expr),
    Quiet (evalMembers W T depth other look m path nodes names cls mod anns)
  | [], cls, mod, anns => by rw [evalMembers]; exact Quiet.pure _
  | name :: names, cls, mod, anns => by
    rw [evalMembers]
    refine (Quiet.lift (by quiet)).bind fun stmts => (evalDefinitions_quiet hW hlook _ _ _ _ _ _).bind fun x => ?_
    obtain ⟨value, cls, mod⟩ := x
    exact evalMembers_quiet m path nodes names _ _ _

theorem evalAnnotations_quiet (m path : Path) (cls : V) : ∀ anns : Dict String Expr,
    Quiet (evalAnnotations W T depth look m path cls anns)
  | [] => by rw [evalAnnotations]; exact Quiet.pure _
  | (name, e) :: anns => by
    rw [evalAnnotations]
    exact (evalExpr_quiet hW hlook _ _ _).bind fun _ => (evalAnnotations_quiet m path cls anns).bind fun _ =>
      Quiet.pure _

theorem evalClass_quiet (m path : Path) (nodes : Dict Path (List Stmt)) :
    Quiet (evalClass W T depth other look m path nodes) := by
  unfold evalClass
  refine (Quiet.lift (by quiet)).bind fun defs => (Quiet.lift (by quiet)).bind fun scope =>
    (evalMembers_quiet hW hlook _ _ _ _ _ _ _).bind fun x => ?_
  obtain ⟨cls, mod, anns⟩ := x
  refine ((Quiet.each hlook _).within _ _).bind fun x => ?_
  obtain ⟨bases, _⟩ := x
  have hlast : ∀ cls : Dict String V, Quiet (do
      let w ← Ev.lift (W.newClass path bases cls)
      Ev.modify fun s => { s with objects := dictPut (m, path) w s.objects }
      putName (path.getLast?.getD "") w
      if anns.isEmpty then Ev.pure w
      else do
        let vs ← evalAnnotations W T depth look m path w anns
        Ev.modify fun s => { s with given := s.given ++ vs.map fun kv => (w, kv) }
        Ev.pure w : Ev V V) := by
    intro cls
    refine (Quiet.lift (by quiet)).bind fun w =>
      Quiet.bind (Quiet.modify _) fun _ =>
      (Quiet.putName _ _).bind fun _ => ?_
    split
    · exact Quiet.pure _
    · exact (evalAnnotations_quiet hW hlook _ _ _ _).bind fun _ =>
        Quiet.bind (Quiet.modify _) fun _ => Quiet.pure _
  by_cases he : anns.isEmpty = true
  · simp only [he, if_true]
    have := hlast
    simp only [he, if_true] at this
    exact (Quiet.pure _).bind fun _ => this _
  · simp only [he, Bool.false_eq_true, if_false]
    have := hlast
    simp only [he, Bool.false_eq_true, if_false] at this
    exact (Quiet.lift (by quiet)).bind fun _ => (Quiet.pure _).bind fun _ => this _

theorem evalStub_quiet (m path : Path) :
    Quiet (evalStub W T depth other look m path) := by
  unfold evalStub
  refine Quiet.get.bind fun s => ?_
  split
  · exact Quiet.pure _
  · refine (Quiet.lift (by quiet)).bind fun nodes => (Quiet.lift (by quiet)).bind fun kinds =>
      (Quiet.lift (by quiet)).bind fun kind => ?_
    split
    · split
      · exact Quiet.raise (by simp)
      · exact evalClass_quiet hW hlook _ _ _
    · split
      · exact evalNodes_quiet hW hlook _ _ _ _
      · exact evalClass_quiet hW hlook _ _ _

omit hW in
theorem evalNames_quiet (m : Path) (module : V) : ∀ names : List String,
    Quiet (evalNames look m module names)
  | [] => by rw [evalNames]; exact Quiet.pure _
  | name :: names => by
    rw [evalNames]
    exact (hlook _).bind fun _ => (Quiet.putName _ _).bind fun _ =>
      Quiet.bind (Quiet.modify _) fun _ => evalNames_quiet m module names

omit hlook in
/-- No evaluation raises `_SignatureNotFound`. -/
theorem evalPath_quiet : ∀ (n : Nat) (r : QPath), Quiet (evalPath W T depth other n r)
  | 0, _ => by rw [evalPath]; exact Quiet.raise (by simp)
  | n + 1, (m, path) => by
    have ih := evalPath_quiet n
    rw [evalPath]
    refine (Quiet.lift (by quiet)).bind fun o => ?_
    cases o with
    | none =>
      simp only
      split
      · refine Quiet.get.bind fun s => ?_
        split
        · exact Quiet.pure _
        · exact (Quiet.modify _).bind fun _ => (Quiet.lift (by quiet)).bind fun _ =>
            (evalNames_quiet ih _ _ _).bind fun _ => Quiet.pure _
      · exact evalStub_quiet hW ih _ _
    | some module =>
      have hs := searchObject_quiet hW path module
      simp only
      split
      · exact Quiet.pure _
      · exact evalStub_quiet hW ih _ _
      · exact Quiet.raise fun g => hs (by simp_all)

omit hlook in
theorem evaluateNode_quiet (n : Nat) (m parent : Path) (e : Expr) :
    Quiet (evaluateNode W T depth other n m parent e) := fun s =>
  evalExpr_quiet hW (evalPath_quiet hW n) m parent e { s with ns := [], back := [] }

end

end Paradigm
