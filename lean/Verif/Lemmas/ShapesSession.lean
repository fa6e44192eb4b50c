import Verif.Lemmas.Shapes
import Verif.Lemmas.Session

/-!
# Lemmas: what is evaluated does not matter for the shape of a signature

`Ensues S x y`: if `x`, run from any state, returns something, `y` is something related by `S`; if it does
not find a signature, nor does `y`.
-/

namespace Paradigm

open Spec Props

def Ensues {α β : Type} (S : α → β → Prop) (x : Ev Obj α) (y : Except PyErr β) : Prop :=
  ∀ s, (∀ a, (x s).1 = .ok a → ∃ b, y = .ok b ∧ S a b) ∧
    ((x s).1 = .error .signatureNotFound → y = .error .signatureNotFound)

namespace Ensues

variable {α β γ δ : Type} {S : α → β → Prop} {T : γ → δ → Prop}

theorem pure {a : α} {b : β} (h : S a b) : Ensues S (Pure.pure a : Ev Obj α) (.ok b) := fun _ =>
  ⟨fun _ g => by cases g; exact ⟨b, rfl, h⟩, fun g => by cases g⟩

theorem raise (e : PyErr) : Ensues S (Ev.raise e : Ev Obj α) (.error e) := fun _ =>
  ⟨fun _ g => (by cases g), fun g => by injection g with g; rw [g]⟩

theorem lift {x : Except PyErr α} {y : Except PyErr β} (h : Agree S x y) : Ensues S (Ev.lift x) y := by
  intro s
  cases x <;> cases y
  · cases (show _ = _ from h)
    exact raise _ s
  · exact h.elim
  · exact h.elim
  · exact pure (S := S) h s

theorem lift_same (x : Except PyErr α) : Ensues Eq (Ev.lift x) x :=
  lift (by cases x <;> exact rfl)

theorem bind {x : Ev Obj α} {y : Except PyErr β} {f : α → Ev Obj γ} {g : β → Except PyErr δ}
    (hx : Ensues S x y) (hf : ∀ a b, y = .ok b → S a b → Ensues T (f a) (g b)) :
    Ensues T (x >>= f) (y >>= g) := by
  intro s
  obtain ⟨h1, h2⟩ := hx s
  cases h : x s with
  | mk r t =>
    rw [h] at h1 h2
    cases r with
    | ok a =>
      obtain ⟨b, rfl, hab⟩ := h1 a rfl
      rw [Ev.bind_ok h]
      exact hf a b rfl hab t
    | error e =>
      rw [Ev.bind_error h]
      refine ⟨fun _ g => (by cases g), fun g => ?_⟩
      injection g with g
      subst g
      rw [h2 rfl]
      rfl

/-- The same value on both sides. -/
theorem same {x : Except PyErr α} {f : α → Ev Obj γ} {g : α → Except PyErr δ}
    (hf : ∀ a, x = .ok a → Ensues T (f a) (g a)) : Ensues T (Ev.lift x >>= f) (x >>= g) :=
  bind (lift_same x) fun a b hb hab => by subst hab; exact hf a hb

theorem each {f : α → Ev Obj γ} {g : α → Except PyErr δ} {xs : List α}
    (h : ∀ x ∈ xs, Ensues T (f x) (g x)) : Ensues (Pointwise T) (Ev.each f xs) (mapExcept g xs) := by
  induction xs with
  | nil => exact pure trivial
  | cons x xs ih =>
    have heq : mapExcept g (x :: xs) = (do
        let y ← g x
        let ys ← mapExcept g xs
        .ok (y :: ys)) := by
      rw [mapExcept]
      cases g x with
      | error e => rfl
      | ok y =>
        generalize mapExcept g xs = r
        cases r <;> rfl
    rw [heq]
    exact bind (h x (by simp)) fun y y' _ hy =>
      bind (ih fun z hz => h z (by simp [hz])) fun ys ys' _ hys => pure (S := Pointwise T) ⟨hy, hys⟩

theorem ite {c : Prop} [Decidable c] {x x' : Ev Obj α} {y y' : Except PyErr β}
    (h : c → Ensues S x y) (h' : ¬ c → Ensues S x' y') :
    Ensues S (if c then x else x') (if c then y else y') := by
  by_cases g : c
  · rw [if_pos g, if_pos g]; exact h g
  · rw [if_neg g, if_neg g]; exact h' g

theorem orElse {x : Ev Obj Sig} {y z : Except PyErr Sig} (h : Ensues Alike x y) :
    Ensues Alike (catchNotFound x (Ev.lift z)) (orElse y z) := by
  intro s
  obtain ⟨h1, h2⟩ := h s
  have hz : Agree Alike z z := by
    cases z with
    | error e => exact rfl
    | ok a => exact Alike.rfl a
  unfold catchNotFound Paradigm.orElse
  cases hx : x s with
  | mk r t =>
    rw [hx] at h1 h2
    cases r with
    | ok a =>
      obtain ⟨b, rfl, hab⟩ := h1 a rfl
      exact ⟨fun a' g => (by cases g; exact ⟨b, rfl, hab⟩), fun g => by cases g⟩
    | error e =>
      by_cases he : e = .signatureNotFound
      · subst he
        rw [h2 rfl]
        exact lift hz t
      · refine ⟨fun a g => ?_, fun g => ?_⟩ <;> cases e <;> first | exact (he rfl).elim | cases g

/-- `try: ... except _SignatureNotFound: None`. -/
theorem orNone {x : Ev Obj α} {y : Except PyErr β} (h : Ensues S x y) :
    Ensues (fun a b => match a, b with
        | some a, some b => S a b
        | none, none => True
        | _, _ => False)
      (catchNotFound (x >>= fun a => Pure.pure (some a)) (Pure.pure none)) (foundOrNone y) := by
  intro s
  obtain ⟨h1, h2⟩ := h s
  unfold catchNotFound
  cases hx : x s with
  | mk r t =>
    rw [hx] at h1 h2
    cases r with
    | ok a =>
      obtain ⟨b, rfl, hab⟩ := h1 a rfl
      rw [Ev.bind_ok hx]
      exact ⟨fun a' g => (by cases g; exact ⟨some b, rfl, hab⟩), fun g => by cases g⟩
    | error e =>
      rw [Ev.bind_error hx]
      by_cases he : e = .signatureNotFound
      · subst he
        rw [h2 rfl]
        exact ⟨fun a' g => (by cases g; exact ⟨none, rfl, trivial⟩), fun g => by cases g⟩
      · refine ⟨fun a g => ?_, fun g => ?_⟩ <;> cases e <;> first | exact (he rfl).elim | cases g

end Ensues

theorem fromPaths_cons (R : Runtime) (value : Fn) (m object : Path) (paths : List QPath) :
    fromPaths R value ((m, object) :: paths) = (do
      let nodes ← loadAstNodes R m object
      let found ← foundOrNone
        (mapExcept (fun node => fromStatement R R.depth node value m object.dropLast) nodes)
      match found with
      | none => fromPaths R value paths
      | some signatures => fromSignatures signatures) := by
  rw [fromPaths]
  cases loadAstNodes R m object with
  | error e => rfl
  | ok nodes =>
    have hbind : ∀ k : List Stmt → Except PyErr Sig, ((.ok nodes : Except PyErr _) >>= k) = k nodes :=
      fun _ => rfl
    rw [hbind]
    simp only
    generalize mapExcept (fun node => fromStatement R R.depth node value m object.dropLast) nodes = r
    cases r with
    | ok v => rfl
    | error e => cases e <;> rfl

/-- The evaluation that gives the same for everything. -/
def constantly (R : Runtime) : Runtime := { R with ev := fun _ _ _ => .ok anyObj }

section

variable {ev : Expr → Ev Obj Obj} (hev : ∀ e, Quiet (ev e))

include hev

theorem ev_ensues (e : Expr) : Ensues (fun _ _ => True) (ev e) (.ok anyObj) := fun s =>
  ⟨fun _ _ => ⟨_, rfl, trivial⟩, fun h => ((hev e s).1 h).elim⟩

omit hev in
theorem optional_alike (a a' d d' : Obj) (k : Kind) (n : String)
    (hk : k ≠ .variadicPositional ∧ k ≠ .variadicKeyword ∨ d = d') :
    Agree AlikeParameter (OptionalParameter.new a (.kind k) n d) (OptionalParameter.new a' (.kind k) n d') := by
  rcases hk with hk | rfl
  · cases k with
    | variadicPositional => exact (hk.1 rfl).elim
    | variadicKeyword => exact (hk.2 rfl).elim
    | _ => exact ⟨rfl, rfl, rfl⟩
  · simp only [OptionalParameter.new, validateKind]
    split
    · exact rfl
    · exact ⟨rfl, rfl, rfl⟩

omit hev in
theorem required_alike (a a' : Obj) (k : Kind) (n : String) :
    Agree AlikeParameter (RequiredParameter.new a (.kind k) n) (RequiredParameter.new a' (.kind k) n) := by
  simp only [RequiredParameter.new, validateKind]
  split
  · exact ⟨rfl, rfl, rfl⟩
  · exact rfl

theorem paramFromNodeS_ensues (node : Arg) (d : Option Expr) (k : Kind)
    (hk : k ≠ .variadicPositional ∧ k ≠ .variadicKeyword ∨ d = none) :
    Ensues AlikeParameter (paramFromNodeS ev node d k) (paramFromNode (fun _ => .ok anyObj) node d k) := by
  have hann : Ensues (fun _ _ => True) (annotationFromS ev node) (annotationFrom (fun _ => .ok anyObj) node) := by
    unfold annotationFromS annotationFrom
    cases node.annotation with
    | none => exact Ensues.pure trivial
    | some e => exact ev_ensues hev e
  refine Ensues.bind hann fun a b _ _ => ?_
  cases d with
  | none =>
    exact Ensues.ite (fun _ => Ensues.lift (optional_alike _ _ _ _ _ _ (.inr rfl)))
      fun _ => Ensues.lift (required_alike _ _ _ _)
  | some e =>
    have hk := hk.resolve_right (by simp)
    refine Ensues.bind (ev_ensues hev e) fun v w hw _ => ?_
    cases hw
    have : anyObj.isEllipsis = false := rfl
    simp only [this, Bool.false_eq_true, if_false]
    split
    · exact Ensues.lift (optional_alike _ _ _ _ _ _ (.inl hk))
    · exact Ensues.lift (optional_alike _ _ _ _ _ _ (.inl hk))

theorem toVariadicParameterS_ensues (node : Option Arg) (k : Kind) :
    Ensues (Pointwise AlikeParameter) (toVariadicParameterS ev node k)
      (toVariadicParameter (fun _ => .ok anyObj) node k) := by
  unfold toVariadicParameterS toVariadicParameter
  cases node with
  | none => exact Ensues.pure (S := Pointwise AlikeParameter) trivial
  | some node =>
    exact Ensues.bind (paramFromNodeS_ensues hev node none k (.inr rfl)) fun p q _ hpq =>
      Ensues.pure (S := Pointwise AlikeParameter) ⟨hpq, trivial⟩

theorem declaredParametersS_ensues (a : Arguments) :
    Ensues (Pointwise AlikeParameter) (declaredParametersS ev a)
      (declaredParameters (fun _ => .ok anyObj) a) := by
  refine Ensues.bind (Ensues.each (T := AlikeParameter) fun pd _ => ?_) fun p1 q1 _ h1 =>
    Ensues.bind (toVariadicParameterS_ensues hev _ _) fun p2 q2 _ h2 =>
    Ensues.bind (Ensues.each (T := AlikeParameter) fun pd _ => ?_) fun p3 q3 _ h3 =>
    Ensues.bind (toVariadicParameterS_ensues hev _ _) fun p4 q4 _ h4 => ?_
  rotate_left 2
  · exact Ensues.pure (S := Pointwise AlikeParameter) (((h1.append h2).append h3).append h4)
  · obtain ⟨p, d⟩ := pd
    cases p with
    | none => exact Ensues.raise _
    | some node => exact paramFromNodeS_ensues hev node d _ (.inl (by decide))
  · exact paramFromNodeS_ensues hev _ _ _ (.inl (by decide))

theorem fromCallableItemS_ensues (item : Expr) :
    Ensues Alike (fromCallableItemS ev item) (fromCallableItem (fun _ => .ok anyObj) item) := by
  have hplain : ∀ {ps qs : List Param} {r r' : Obj}, Pointwise AlikeParameter ps qs →
      Ensues Alike (Ev.lift (PlainSig.new ps r) >>= fun s => Pure.pure (.plain s))
        (PlainSig.new qs r' >>= fun s => Pure.pure (Sig.plain s)) := fun h =>
    Ensues.bind (Ensues.lift (new_alike h)) fun s t _ hst => Ensues.pure (S := Alike) hst
  cases item with
  | tuple elts b =>
    match elts with
    | [] => exact Ensues.raise _
    | [_] => exact Ensues.raise _
    | _ :: _ :: _ :: _ => exact Ensues.raise _
    | [arguments, returns] =>
      have hany : Ensues Alike (do
            let args ← Ev.lift (OptionalParameter.new anyObj (.kind .variadicPositional) "args")
            let kwargs ← Ev.lift (OptionalParameter.new anyObj (.kind .variadicKeyword) "kwargs")
            let returns ← ev returns
            let s ← Ev.lift (PlainSig.new [args, kwargs] returns)
            Pure.pure (.plain s))
          (do
            let args ← OptionalParameter.new anyObj (.kind .variadicPositional) "args"
            let kwargs ← OptionalParameter.new anyObj (.kind .variadicKeyword) "kwargs"
            let returns ← (fun _ => .ok anyObj : Expr → Except PyErr Obj) returns
            let s ← PlainSig.new [args, kwargs] returns
            return Sig.plain s) := by
        refine Ensues.same fun args _ => Ensues.same fun kwargs _ =>
          Ensues.bind (ev_ensues hev _) fun r r' _ _ => hplain ?_
        exact ⟨⟨rfl, rfl, rfl⟩, ⟨rfl, rfl, rfl⟩, trivial⟩
      cases arguments with
      | list elts =>
        refine Ensues.bind (Ensues.each fun ei _ => ?_) fun ps qs _ h =>
          Ensues.bind (ev_ensues hev _) fun r r' _ _ => hplain h
        exact Ensues.bind (ev_ensues hev _) fun a b _ _ => Ensues.lift (required_alike _ _ _ _)
      | _ => exact hany
  | _ => exact Ensues.raise _

end

theorem replaceFirst_alike (a : Obj) {ps qs : List Param} (h : Pointwise AlikeParameter ps qs) :
    Agree (Pointwise AlikeParameter) (replaceFirst a ps) (replaceFirst a qs) := by
  cases ps with
  | nil => rw [h.nil_left]; exact rfl
  | cons p ps =>
    obtain ⟨q, qs, rfl, hpq, h⟩ := h.cons_left
    exact ⟨⟨hpq.name, rfl, rfl⟩, h⟩

section

variable {R : Runtime} {E : Evaluator} (hE : ∀ m parent e, Quiet (E m parent e))

theorem adjustedParameters_alike (f : FunctionDef) (c : Fn) (m parent : Path) {ps qs : List Param}
    (h : Pointwise AlikeParameter ps qs) :
    Agree (Pointwise AlikeParameter) (adjustedParameters R f c m parent ps)
      (adjustedParameters (constantly R) f c m parent qs) := by
  unfold adjustedParameters
  split
  · cases ps with
    | nil => rw [h.nil_left]; exact rfl
    | cons p ps =>
      obtain ⟨q, qs, rfl, hpq, h⟩ := h.cons_left
      exact h
  · have hc : anyExcept (isClassmethod (constantly R) m parent) f.decorators =
        anyExcept (isClassmethod R m parent) f.decorators := rfl
    rw [hc]
    refine Agree.bind (S := Eq) (by cases anyExcept (isClassmethod R m parent) f.decorators <;> exact rfl)
      fun a b hab => ?_
    subst hab
    split
    · exact replaceFirst_alike _ h
    · rw [show (constantly R).stubs = R.stubs from rfl]
      cases R.stubs.nodesKinds.lookup m with
      | none => exact rfl
      | some kinds =>
        dsimp only
        split
        · exact replaceFirst_alike _ h
        · exact h

include hE

theorem fromFunctionDefS_ensues (f : FunctionDef) (c : Fn) (m parent : Path) :
    Ensues Alike (fromFunctionDefS R E f c m parent) (fromFunctionDef (constantly R) f c m parent) := by
  refine Ensues.bind (S := Pointwise AlikeParameter) ?_ fun ps qs _ h =>
    Ensues.bind (S := fun _ _ => True) ?_ fun r r' _ _ =>
    Ensues.bind (Ensues.lift (new_alike h)) fun s t _ hst => Ensues.pure (S := Alike) hst
  · rw [parametersFrom_eq]
    exact Ensues.bind (declaredParametersS_ensues (hE m parent) f.args) fun ps qs _ h =>
      Ensues.lift (adjustedParameters_alike f c m parent h)
  · unfold returnsFromS returnsFrom
    refine Ensues.ite (fun _ => Ensues.pure trivial) fun _ => ?_
    cases f.returns with
    | none => exact Ensues.pure trivial
    | some e => exact ev_ensues (hE m parent) e

theorem fromStatementS_ensues (n : Nat) : (∀ (e : Expr) (c : Fn) (m parent : Path),
      Ensues Alike (fromExpressionS R E n e c m parent) (fromExpression (constantly R) n e c m parent)) ∧
    ∀ (node : Stmt) (c : Fn) (m parent : Path),
      Ensues Alike (fromStatementS R E n node c m parent) (fromStatement (constantly R) n node c m parent) := by
  induction n with
  | zero => exact ⟨fun e c m parent => Ensues.raise _, fun node c m parent => Ensues.raise _⟩
  | succ n ih =>
    constructor
    · intro e c m parent
      have hnamed : ∀ e' : Expr, Ensues Alike
          (fromNamedS R (fun node m => fromStatementS R E n node c m []) e' c m parent)
          (fromNamed (constantly R) (fun node m => fromStatement (constantly R) n node c m []) e' c m parent) := by
        intro e'
        refine Ensues.same fun path _ => Ensues.same (x := R.resolve m parent path) fun q _ =>
          Ensues.same (x := getItem R.stubs.nodesKinds q.1) fun kinds _ => Ensues.same fun kind _ => ?_
        refine Ensues.ite (fun _ => ?_) fun _ => ?_
        · refine Ensues.same (x := loadAstNodes R q.1 (q.2 ++ ["__call__"])) fun nodes _ => ?_
          refine Ensues.bind (Ensues.each fun node _ => ih.2 node c q.1 []) fun l l' _ h => ?_
          refine Ensues.bind (Ensues.lift (Agree.mapExcept h fun s t _ hst => hst.bind _ _)) fun l l' _ h => ?_
          exact Ensues.lift (fromSignatures_alike h)
        · refine Ensues.same (x := getItem R.stubs.rawAstNodes q.1) fun nodes _ => ?_
          refine Ensues.same fun stmts _ => ?_
          match stmts with
          | [] => exact Ensues.raise _
          | _ :: _ :: _ => exact Ensues.raise _
          | [node] => exact ih.2 node c q.1 []
      cases e with
      | name id b => exact hnamed _
      | «attribute» value attr b => exact hnamed _
      | call func args keywords =>
        refine Ensues.same fun path _ => Ensues.same (x := R.resolve m parent path) fun q _ => ?_
        refine Ensues.ite (fun _ => ?_) fun _ => Ensues.raise _
        cases keywords.find? (fun k => k.1 == some "bound") with
        | none =>
          exact Ensues.bind (Ensues.each fun e' _ => ih.1 e' c m parent) fun l l' _ h =>
            Ensues.lift (fromSignatures_alike h)
        | some bound => exact ih.1 bound.2 c m parent
      | subscript value slice b =>
        refine Ensues.same fun path _ => Ensues.same (x := R.resolve m parent path) fun q _ => ?_
        refine Ensues.ite (fun _ => ?_) fun _ => Ensues.raise _
        exact fromCallableItemS_ensues (hE m parent) slice
      | _ => exact Ensues.raise _
    · intro node c m parent
      cases node with
      | annAssign target annotation value => exact ih.1 _ c m parent
      | assign targets value => exact ih.1 _ c m parent
      | functionDef f => exact fromFunctionDefS_ensues hE f c m parent
      | _ => exact Ensues.raise _

theorem fromPathsS_ensues (value : Fn) (paths : List QPath) :
    Ensues Alike (fromPathsS R E value paths) (fromPaths (constantly R) value paths) := by
  induction paths with
  | nil => exact Ensues.raise _
  | cons q paths ih =>
    obtain ⟨m, object⟩ := q
    rw [fromPaths_cons]
    refine Ensues.same (x := loadAstNodes R m object) fun nodes _ => ?_
    refine Ensues.bind (Ensues.orNone (Ensues.each fun node _ =>
      (fromStatementS_ensues hE R.depth).2 node value m object.dropLast)) fun found found' _ h => ?_
    cases found <;> cases found'
    · exact ih
    · exact h.elim
    · exact h.elim
    · exact Ensues.lift (fromSignatures_alike h)

theorem fromFnS_ensues (f : Fn) : Ensues Alike (fromFnS R E f) (fromFn (constantly R) f) := by
  unfold fromFnS fromFn
  rw [show toQualifiedPaths (constantly R) f = toQualifiedPaths R f from toQualifiedPaths_ev R _ f]
  exact Ensues.same fun paths _ => fromPathsS_ensues hE f paths

theorem fromInstanceS_ensues (self : Obj) (attr : Except PyErr Fn) :
    Ensues Alike (fromInstanceS R E self attr) (fromInstance (constantly R) self attr) :=
  Ensues.same fun f _ => Ensues.bind (fromFnS_ensues hE f) fun s t _ hst => Ensues.lift (hst.bind _ _)

theorem fromClassS_ensues (f : Fn) : Ensues Alike (fromClassS R E f) (fromClass (constantly R) f) := by
  refine Ensues.same (x := resolveQualifiedPaths R f) fun paths _ => ?_
  refine Ensues.ite (fun _ => Ensues.raise _) fun _ => ?_
  rw [show resolveBuilder (constantly R) paths = resolveBuilder R paths from resolveBuilder_ev R _ paths]
  refine Ensues.same fun q _ => Ensues.same (x := loadAstNodes R q.1 q.2) fun nodes _ => ?_
  exact Ensues.bind (Ensues.each fun node _ => (fromStatementS_ensues hE R.depth).2 node f q.1 q.2.dropLast)
    fun l l' _ h => Ensues.lift (fromSignatures_alike h)

/-- Whatever is evaluated, a signature has the shape it has when nothing is evaluated. -/
theorem fromCallableS_ensues : ∀ c : Callable,
    Ensues Alike (fromCallableS R E c) (fromCallable (constantly R) c)
  | .builtin owner _ _ _ => by
    refine Ensues.orElse ?_
    cases owner with
    | «instance» self attr => exact fromInstanceS_ensues hE self attr
    | _ => exact fromFnS_ensues hE _
  | .function .. => Ensues.orElse (fromFnS_ensues hE _)
  | .method _ self _ => by
    refine Ensues.orElse ?_
    cases self with
    | none => exact fromFnS_ensues hE _
    | some self => exact fromInstanceS_ensues hE _ _
  | .methodWrapper self _ => by
    cases self with
    | none => exact Ensues.raise _
    | some self => exact Ensues.orElse (fromInstanceS_ensues hE _ _)
  | .descriptor .. => Ensues.orElse (fromFnS_ensues hE _)
  | .cls .. => Ensues.orElse (fromClassS_ensues hE _)
  | .partial_ func _ _ =>
    Ensues.bind (fromCallableS_ensues func) fun s t _ hst => Ensues.lift (hst.bind _ _)
  | .other => Ensues.raise _

end

end Paradigm
