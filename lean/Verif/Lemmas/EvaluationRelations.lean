import Verif.Lemmas.StubClasses

/-!
# Lemmas about what evaluations do to the caches
-/

namespace Paradigm

open Spec

/-- A relation between the states before and after that every evaluation respects if the single changes
do. -/
class EvRel {V : Type} (T : outParam Stubs) (R : EvalState V → EvalState V → Prop) : Prop where
  refl : ∀ s, R s s
  trans : ∀ {s t u}, R s t → R t u → R s u
  spaces : ∀ s ns back, R s { s with ns := ns, back := back }
  assigned : ∀ s d, R s { s with assigned := d }
  object : ∀ s q v, IsStubClass T q → R s { s with objects := dictPut q v s.objects }
  given : ∀ s l, R s { s with given := s.given ++ l }
  module : ∀ s m v, s.modules.lookup m = none → R s { s with modules := dictPut m v s.modules }

theorem getKey_inv {α β : Type} [BEq α] {d : Dict α β} {k : α} {v : β} (h : getKey d k = .ok v) :
    d.lookup k = some v := by
  unfold getKey at h
  cases hl : d.lookup k with
  | none => rw [hl] at h; cases h
  | some w => rw [hl] at h; cases h; rfl

section

variable {V α β : Type} {T : Stubs} {R : EvalState V → EvalState V → Prop}

/-- The computation respects the relation. -/
def Moves (R : EvalState V → EvalState V → Prop) (x : Ev V α) : Prop := ∀ s, R s (x s).2

variable [hR : EvRel T R]

include hR

theorem Moves.pure (a : α) : Moves R (Ev.pure a : Ev V α) := hR.refl

theorem Moves.raise (e : PyErr) : Moves R (Ev.raise e : Ev V α) := hR.refl

theorem Moves.lift (x : Except PyErr α) : Moves R (Ev.lift x : Ev V α) := hR.refl

theorem Moves.get : Moves R (Ev.get : Ev V (EvalState V)) := hR.refl

theorem Moves.bind {x : Ev V α} {f : α → Ev V β} (hx : Moves R x) (hf : ∀ a, Moves R (f a)) :
    Moves R (x >>= f) := by
  intro s
  have h1 := hx s
  cases h : x s with
  | mk r t =>
    rw [h] at h1
    cases r with
    | ok a => rw [Ev.bind_ok h]; exact hR.trans h1 (hf a t)
    | error e => rw [Ev.bind_error h]; exact h1

theorem Moves.bind_lift {x : Except PyErr α} {f : α → Ev V β} (hf : ∀ a, x = .ok a → Moves R (f a)) :
    Moves R (Ev.lift x >>= f) := by
  intro s
  cases h : x with
  | ok a => rw [Ev.bind_ok (Ev.lift_ok rfl s)]; exact hf a h s
  | error e => rw [Ev.bind_error (show Ev.lift (Except.error e) s = (.error e, s) from rfl)]; exact hR.refl s

theorem Moves.within {x : Ev V α} (hx : Moves R x) (ns back : Dict String V) :
    Moves R (Ev.within ns back x) := by
  intro s
  have h0 := hR.spaces s ns back
  have h1 := hx { s with ns := ns, back := back }
  unfold Ev.within
  cases h : x { s with ns := ns, back := back } with
  | mk r t =>
    rw [h] at h1
    cases r <;> exact hR.trans (hR.trans h0 h1) (hR.spaces t _ _)

theorem Moves.each {f : α → Ev V β} (hf : ∀ x, Moves R (f x)) : ∀ xs : List α, Moves R (Ev.each f xs)
  | [] => Moves.pure _
  | x :: xs => by
    rw [Ev.each]
    exact (hf x).bind fun _ => (Moves.each hf xs).bind fun _ => Moves.pure _

theorem Moves.modify {f : EvalState V → EvalState V} (h : ∀ s, R s (f s)) : Moves R (Ev.modify f) := h

theorem Moves.putName (name : String) (w : V) : Moves R (putName name w) := fun s => hR.spaces s _ s.back

end

/-- What the relation says about a computation. -/
theorem Moves.of_eq {V α : Type} {R : EvalState V → EvalState V → Prop} {x : Ev V α} (h : Moves R x)
    {s t : EvalState V} {r : Except PyErr α} (e : x s = (r, t)) : R s t := by
  have := h s
  rw [e] at this
  exact this

section

variable {V : Type} {W : Interpreter V} {T : Stubs} {depth : Nat} {other : Atom → String}
  {look : QPath → Ev V V} {R : EvalState V → EvalState V → Prop} [hR : EvRel T R] (hlook : ∀ r, Moves R (look r))

theorem evResolve_moves (m parent path : Path) :
    Moves R (evResolve (V := V) T depth m parent path) := Moves.lift _

include hlook

mutual

theorem evalExpr_moves (m parent : Path) : ∀ e : Expr,
    Moves R (evalExpr W T depth look m parent e)
  | .name id load => by
    rw [evalExpr]
    split
    · exact Moves.raise _
    · exact (evResolve_moves _ _ _).bind fun r => hlook r
  | .attribute value attr load => by
    rw [evalExpr]
    split
    · exact Moves.raise _
    · refine (evalExpr_moves m parent value).bind fun x => ?_
      split
      · exact Moves.pure _
      · exact (Moves.lift _).bind fun _ => (evResolve_moves _ _ _).bind fun r => hlook r
      · exact Moves.raise _
  | .subscript value slice load => by
    rw [evalExpr]
    split
    · exact Moves.raise _
    · exact (evalExpr_moves m parent value).bind fun _ => (evalExpr_moves m parent slice).bind fun _ =>
        Moves.lift _
  | .tuple elts load => by
    rw [evalExpr]
    split
    · exact Moves.raise _
    · exact (evalExprs_moves m parent elts).bind fun _ => Moves.pure _
  | .list elts => by
    rw [evalExpr]
    exact (evalExprs_moves m parent elts).bind fun _ => Moves.pure _
  | .call func args keywords => by
    rw [evalExpr]
    exact (evalExprs_moves m parent args).bind fun _ =>
      (evalKeywords_moves m parent keywords).bind fun _ =>
        (evalExpr_moves m parent func).bind fun _ => Moves.lift _
  | .constant value => by rw [evalExpr]; exact Moves.pure _
  | .binOp left op right => by
    rw [evalExpr]
    exact (evalExpr_moves m parent left).bind fun _ => (evalExpr_moves m parent right).bind fun _ =>
      Moves.lift _
  | .other tag [operand] => by
    rcases other_cases tag [operand] with rfl | ⟨hd, ⟨o, ho, e⟩ | ho⟩
    · rw [evalExpr_dict, evalEntries_short _ _ _ _ _ _ (by intro _ _ _ h; cases h)]
      exact (Moves.pure _).bind fun _ => Moves.lift _
    · cases e
      rw [evalExpr_unary _ _ _ _ _ _ ho]
      exact (evalExpr_moves m parent operand).bind fun _ => Moves.lift _
    · obtain ⟨x, hx⟩ := evalExpr_other W T depth look m parent hd ho
      rw [hx]
      exact Moves.raise _
  | .other tag [] => by
    rcases other_cases tag [] with rfl | ⟨hd, ⟨o, ho, e⟩ | ho⟩
    · rw [evalExpr_dict, evalEntries_short _ _ _ _ _ _ (by intro _ _ _ h; cases h)]
      exact (Moves.pure _).bind fun _ => Moves.lift _
    · cases e
    · obtain ⟨x, hx⟩ := evalExpr_other W T depth look m parent hd ho
      rw [hx]
      exact Moves.raise _
  | .other tag (k :: x :: es) => by
    rcases other_cases tag (k :: x :: es) with rfl | ⟨hd, ⟨o, ho, e⟩ | ho⟩
    · rw [evalExpr_dict]
      exact (evalEntries_moves m parent (k :: x :: es)).bind fun _ => Moves.lift _
    · cases e
    · obtain ⟨y, hy⟩ := evalExpr_other W T depth look m parent hd ho
      rw [hy]
      exact Moves.raise _

theorem evalExprs_moves (m parent : Path) : ∀ es : List Expr,
    Moves R (evalExprs W T depth look m parent es)
  | [] => by rw [evalExprs]; exact Moves.pure _
  | e :: es => by
    rw [evalExprs]
    exact (evalExpr_moves m parent e).bind fun _ => (evalExprs_moves m parent es).bind fun _ =>
      Moves.pure _

theorem evalKeywords_moves (m parent : Path) : ∀ es : List (Option String × Expr),
    Moves R (evalKeywords W T depth look m parent es)
  | [] => by rw [evalKeywords]; exact Moves.pure _
  | (k, e) :: es => by
    rw [evalKeywords]
    exact (evalExpr_moves m parent e).bind fun _ => (evalKeywords_moves m parent es).bind fun _ =>
      Moves.pure _

theorem evalEntries_moves (m parent : Path) : ∀ es : List Expr,
    Moves R (evalEntries W T depth look m parent es)
  | [] => by rw [evalEntries_short _ _ _ _ _ _ (by intro _ _ _ h; cases h)]; exact Moves.pure _
  | [_] => by rw [evalEntries_short _ _ _ _ _ _ (by intro _ _ _ h; cases h)]; exact Moves.pure _
  | k :: e :: es => by
    rw [evalEntries]
    exact (evalExpr_moves m parent k).bind fun _ => (evalExpr_moves m parent e).bind fun _ =>
      (evalEntries_moves m parent es).bind fun _ => Moves.pure _

end

include hR in
omit hlook in
theorem cachedTarget_moves : ∀ qs : List QPath, Moves R (cachedTarget W qs)
  | [] => by rw [cachedTarget]; exact Moves.pure _
  | r :: qs => by
    rw [cachedTarget]
    refine Moves.get.bind fun s => ?_
    split
    · exact Moves.pure _
    · exact (Moves.lift _).bind fun _ => Moves.bind (Moves.modify fun s => hR.assigned s _) fun _ =>
        cachedTarget_moves qs

theorem evalAssign_moves (m parent : Path) (targets : List Expr) (value : Option Expr) :
    Moves R (evalAssign W T depth look m parent targets value) := by
  unfold evalAssign
  refine (Moves.each (fun _ => Moves.lift _) _).bind fun _ =>
    (Moves.each (fun _ => evResolve_moves _ _ _) _).bind fun _ =>
      (cachedTarget_moves _).bind fun c => ?_
  have hlast : ∀ (paths : List QPath) (result : V), Moves R (do
      Ev.modify fun s =>
        { s with assigned := paths.foldl (fun d q => dictPut q result d) s.assigned }
      Ev.pure result : Ev V V) := fun _ _ =>
    Moves.bind (Moves.modify fun s => hR.assigned s _) fun _ => Moves.pure _
  cases c with
  | some w => exact (Moves.pure _).bind fun _ => hlast _ _
  | none =>
    cases value with
    | none => exact (Moves.raise _).bind fun _ => hlast _ _
    | some e => exact (evalExpr_moves hlook m parent e).bind fun _ => hlast _ _

theorem evalStmt_moves (m parent : Path) (node : Stmt) :
    Moves R (evalStmt W T depth other look m parent node) := by
  cases node
  case annAssign => rw [evalStmt]; exact evalAssign_moves hlook _ _ _ _
  case assign => rw [evalStmt]; exact evalAssign_moves hlook _ _ _ _
  case functionDef f =>
    rw [evalStmt]
    exact (Moves.lift _).bind fun _ => Moves.get.bind fun _ => (Moves.lift _).bind fun _ =>
      (Moves.putName _ _).bind fun _ => Moves.pure _
  all_goals
    rw [evalStmt]
    · exact Moves.raise _
    all_goals simp

theorem evalNodes_moves (m path : Path) : ∀ (nodes : List Stmt) (w : Option V),
    Moves R (evalNodes W T depth other look m path w nodes)
  | [], none => by rw [evalNodes]; exact Moves.raise _
  | [], some _ => by rw [evalNodes]; exact Moves.pure _
  | node :: nodes, w => by
    have : evalNodes W T depth other look m path w (node :: nodes) = (do
        let v ← evalStmt W T depth other look m path.dropLast node
        putName (path.getLast?.getD "") v
        evalNodes W T depth other look m path (some v) nodes) := by
      cases w <;> rw [evalNodes]
    rw [this]
    exact (evalStmt_moves hlook _ _ _).bind fun _ => (Moves.putName _ _).bind fun _ =>
      evalNodes_moves m path nodes _

theorem evalDependencies_moves (m path : Path) : ∀ names : List String,
    Moves R (evalDependencies T depth look m path names)
  | [] => by rw [evalDependencies]; exact Moves.pure _
  | name :: names => by
    rw [evalDependencies]
    refine (evResolve_moves _ _ _).bind fun r => ?_
    split
    · exact (hlook r).bind fun _ => (Moves.putName _ _).bind fun _ =>
        evalDependencies_moves m path names
    · exact evalDependencies_moves m path names

theorem evalDefinitions_moves (m path : Path) : ∀ (nodes : List Stmt) (w : Option V)
    (cls mod : Dict String V),
    Moves R (evalDefinitions W T depth other look m path w nodes cls mod)
  | [], w, cls, mod => by rw [evalDefinitions]; exact Moves.pure _
  | node :: nodes, w, cls, mod => by
    rw [evalDefinitions]
    refine (Moves.lift _).bind fun node => ((evalDependencies_moves hlook _ _ _).within _ _).bind
      fun x => ?_
    obtain ⟨⟨⟩, mod⟩ := x
    refine ((evalStmt_moves hlook _ _ _).within _ _).bind fun x => ?_
    obtain ⟨w, cls⟩ := x
    exact evalDefinitions_moves m path nodes _ _ _

theorem evalMembers_moves (m path : Path) (nodes : Dict Path (List Stmt)) : ∀ (names : List String)
    (cls mod : Dict String V) (anns : Dict String Expr),
    Moves R (evalMembers W T depth other look m path nodes names cls mod anns)
  | [], cls, mod, anns => by rw [evalMembers]; exact Moves.pure _
  | name :: names, cls, mod, anns => by
    rw [evalMembers]
    refine (Moves.lift _).bind fun stmts => (evalDefinitions_moves hlook _ _ _ _ _ _).bind fun x => ?_
    obtain ⟨value, cls, mod⟩ := x
    exact evalMembers_moves m path nodes names _ _ _

theorem evalAnnotations_moves (m path : Path) (cls : V) : ∀ anns : Dict String Expr,
    Moves R (evalAnnotations W T depth look m path cls anns)
  | [] => by rw [evalAnnotations]; exact Moves.pure _
  | (name, e) :: anns => by
    rw [evalAnnotations]
    exact (evalExpr_moves hlook _ _ _).bind fun _ => (evalAnnotations_moves m path cls anns).bind fun _ =>
      Moves.pure _

theorem evalClass_moves (m path : Path) (nodes : Dict Path (List Stmt)) (hc : IsStubClass T (m, path)) :
    Moves R (evalClass W T depth other look m path nodes) := by
  unfold evalClass
  refine (Moves.lift _).bind fun defs => (Moves.lift _).bind fun scope =>
    (evalMembers_moves hlook _ _ _ _ _ _ _).bind fun x => ?_
  obtain ⟨cls, mod, anns⟩ := x
  refine ((Moves.each hlook _).within _ _).bind fun x => ?_
  obtain ⟨bases, _⟩ := x
  have hlast : ∀ cls : Dict String V, Moves R (do
      let w ← Ev.lift (W.newClass path bases cls)
      Ev.modify fun s => { s with objects := dictPut (m, path) w s.objects }
      putName (path.getLast?.getD "") w
      if anns.isEmpty then Ev.pure w
      else do
        let vs ← evalAnnotations W T depth look m path w anns
        Ev.modify fun s => { s with given := s.given ++ vs.map fun kv => (w, kv) }
        Ev.pure w : Ev V V) := by
    intro cls
    refine (Moves.lift _).bind fun w =>
      Moves.bind (Moves.modify fun s => hR.object s _ _ hc) fun _ =>
      (Moves.putName _ _).bind fun _ => ?_
    split
    · exact Moves.pure _
    · exact (evalAnnotations_moves hlook _ _ _ _).bind fun _ =>
        Moves.bind (Moves.modify fun s => hR.given s _) fun _ => Moves.pure _
  by_cases he : anns.isEmpty = true
  · simp only [he, if_true]
    have := hlast
    simp only [he, if_true] at this
    exact (Moves.pure _).bind fun _ => this _
  · simp only [he, Bool.false_eq_true, if_false]
    have := hlast
    simp only [he, Bool.false_eq_true, if_false] at this
    exact (Moves.lift _).bind fun _ => (Moves.pure _).bind fun _ => this _

theorem evalStub_moves (m path : Path) :
    Moves R (evalStub W T depth other look m path) := by
  unfold evalStub
  refine Moves.get.bind fun s => ?_
  split
  · exact Moves.pure _
  · refine (Moves.lift _).bind fun nodes => Moves.bind_lift fun kinds h1 =>
      Moves.bind_lift fun kind h2 => ?_
    have hc : kind = .class_ → IsStubClass T (m, path) := by
      rintro rfl
      unfold IsStubClass
      rw [getKey_inv h1]
      exact getKey_inv h2
    split
    · split
      · exact Moves.raise _
      · exact evalClass_moves hlook _ _ _ (hc (by simp_all))
    · split
      · exact evalNodes_moves hlook _ _ _ _
      · exact evalClass_moves hlook _ _ _ (hc (by simp_all))

include hR in
theorem evalNames_moves (m : Path) (module : V) : ∀ names : List String,
    Moves R (evalNames look m module names)
  | [] => by rw [evalNames]; exact Moves.pure _
  | name :: names => by
    rw [evalNames]
    exact (hlook _).bind fun _ => (Moves.putName _ _).bind fun _ =>
      Moves.bind (Moves.modify fun s => hR.given s _) fun _ => evalNames_moves m module names

omit hlook in
/-- No evaluation takes anything from a module or removes one. -/
theorem evalPath_moves : ∀ (n : Nat) (r : QPath), Moves R (evalPath W T depth other n r)
  | 0, _ => by rw [evalPath]; exact Moves.raise _
  | n + 1, (m, path) => by
    have ih := evalPath_moves n
    rw [evalPath]
    refine (Moves.lift _).bind fun o => ?_
    cases o with
    | none =>
      simp only
      split
      · intro s
        rw [Ev.bind_ok (show Ev.get s = (.ok s, s) from rfl)]
        cases hl : s.modules.lookup m with
        | some w => exact hR.refl s
        | none =>
          dsimp only
          rw [Ev.bind_ok (show Ev.modify _ s = (.ok (), _) from rfl)]
          refine hR.trans (hR.module s m (W.newModule m) hl) ?_
          · exact ((Moves.lift _).bind fun _ => (evalNames_moves ih _ _ _).bind fun _ =>
              Moves.pure _ : Moves R _) _
      · exact evalStub_moves ih _ _
    | some module =>
      simp only
      split
      · exact Moves.pure _
      · exact evalStub_moves ih _ _
      · exact Moves.raise _

end

end Paradigm
