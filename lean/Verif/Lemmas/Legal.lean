import Verif.Lemmas.Lookup
import Verif.Lemmas.Overloads

/-!
# Lemmas: what comes out of a session is legal
-/

namespace Paradigm

open PyCall Spec Props

/-- Whatever the computation returns, from whatever state, has the property. -/
def Gives {V α : Type} (P : α → Prop) (x : Ev V α) : Prop := ∀ s a, (x s).1 = .ok a → P a

section

variable {V α β : Type}

theorem Gives.any (x : Ev V α) : Gives (fun _ => True) x := fun _ _ _ => trivial

theorem Gives.pure {P : α → Prop} {a : α} (h : P a) : Gives P (Ev.pure a : Ev V α) :=
  fun _ _ g => by cases g; exact h

theorem Gives.raise {P : α → Prop} {e : PyErr} : Gives P (Ev.raise e : Ev V α) :=
  fun _ _ g => by cases g

theorem Gives.lift {P : α → Prop} {x : Except PyErr α} (h : ∀ a, x = .ok a → P a) :
    Gives P (Ev.lift x : Ev V α) := fun _ => h

theorem Gives.bind {P : α → Prop} {Q : β → Prop} {x : Ev V α} {f : α → Ev V β} (hx : Gives P x)
    (hf : ∀ a, P a → Gives Q (f a)) : Gives Q (x >>= f) := by
  intro s b hb
  cases h : x s with
  | mk r t =>
    cases r with
    | ok a => rw [Ev.bind_ok h] at hb; exact hf a (hx s a (by rw [h])) t b hb
    | error e => rw [Ev.bind_error h] at hb; cases hb

/-- Whatever the first part returns. -/
theorem Gives.then {Q : β → Prop} {x : Ev V α} {f : α → Ev V β} (hf : ∀ a, Gives Q (f a)) :
    Gives Q (x >>= f) := (Gives.any x).bind fun a _ => hf a

theorem Gives.each {P : β → Prop} {f : α → Ev V β} : ∀ {xs : List α},
    (∀ x ∈ xs, Gives P (f x)) → Gives (fun ys => ∀ y ∈ ys, P y) (Ev.each f xs)
  | [], _ => Gives.pure (by simp)
  | x :: xs, h => by
    rw [Ev.each]
    exact (h x (.head _)).bind fun y hy =>
      (Gives.each fun z hz => h z (.tail _ hz)).bind fun ys hys => Gives.pure fun z hz => by
        rcases List.mem_cons.1 hz with rfl | hz
        · exact hy
        · exact hys z hz

theorem Gives.catchNotFound {P : α → Prop} {x handler : Ev Obj α} (hx : Gives P x)
    (hh : Gives P handler) : Gives P (catchNotFound x handler) := by
  intro s a h
  unfold Paradigm.catchNotFound at h
  split at h
  · exact hh _ _ h
  · exact hx _ _ h

end

theorem paramFromNodeS_legal (ev : Expr → Ev Obj Obj) (node : Arg) (d : Option Expr) (k : Kind) :
    Gives ConstructibleParam (paramFromNodeS ev node d k) := by
  unfold paramFromNodeS
  refine Gives.then fun a => ?_
  cases d with
  | none =>
    dsimp only
    split
    · exact Gives.lift fun _ h => optional_constructible h
    · exact Gives.lift fun _ h => required_constructible h
  | some e =>
    dsimp only
    refine Gives.then fun v => ?_
    split
    · exact Gives.lift fun _ h => optional_constructible h
    · exact Gives.lift fun _ h => optional_constructible h

theorem toVariadicParameterS_legal (ev : Expr → Ev Obj Obj) (node : Option Arg) (k : Kind) :
    Gives (fun ps => ∀ p ∈ ps, ConstructibleParam p) (toVariadicParameterS ev node k) := by
  cases node with
  | none => exact Gives.pure (by simp)
  | some node =>
    exact (paramFromNodeS_legal ev node none k).bind fun p hp => Gives.pure fun q hq => by
      cases List.mem_singleton.1 hq
      exact hp

theorem declaredParametersS_legal (ev : Expr → Ev Obj Obj) (a : Arguments) :
    Gives (fun ps => ∀ p ∈ ps, ConstructibleParam p) (declaredParametersS ev a) := by
  unfold declaredParametersS
  have h1 : Gives (fun ps => ∀ p ∈ ps, ConstructibleParam p) (toPositionalParametersS ev a) := by
    refine Gives.each fun pd _ => ?_
    cases pd.1 with
    | none => exact Gives.raise
    | some node => exact paramFromNodeS_legal ev node _ _
  have h3 : Gives (fun ps => ∀ p ∈ ps, ConstructibleParam p) (toKeywordParametersS ev a) :=
    Gives.each fun pd _ => paramFromNodeS_legal ev pd.1 pd.2 _
  refine h1.bind fun p1 h1 => (toVariadicParameterS_legal ev _ _).bind fun p2 h2 =>
    h3.bind fun p3 h3 => (toVariadicParameterS_legal ev _ _).bind fun p4 h4 => Gives.pure fun p hp => ?_
  simp only [List.mem_append] at hp
  rcases hp with ((hp | hp) | hp) | hp
  · exact h1 p hp
  · exact h2 p hp
  · exact h3 p hp
  · exact h4 p hp

theorem replaceFirst_legal {a : Obj} {full ps : List Param} (h : replaceFirst a full = .ok ps)
    (hf : ∀ p ∈ full, ConstructibleParam p) : ∀ p ∈ ps, ConstructibleParam p := by
  obtain ⟨first, rest, rfl, rfl⟩ := replaceFirst_ok.1 h
  intro p hp
  rcases List.mem_cons.1 hp with rfl | hp
  · exact .inl ⟨_, .kind .positionalOnly, _, rfl⟩
  · exact hf p (List.mem_cons_of_mem _ hp)

theorem adjustedParameters_legal {R : Runtime} {f : FunctionDef} {c : Fn} {m parent : Path}
    {full ps : List Param} (h : adjustedParameters R f c m parent full = .ok ps)
    (hf : ∀ p ∈ full, ConstructibleParam p) : ∀ p ∈ ps, ConstructibleParam p := by
  unfold adjustedParameters at h
  split at h
  · split at h
    · cases h
    · cases h
      exact fun p hp => hf p (List.mem_cons_of_mem _ hp)
  · obtain ⟨b, _, h⟩ := except_bind_ok.1 h
    split at h
    · exact replaceFirst_legal h hf
    · split at h
      · cases h
      · split at h
        · exact replaceFirst_legal h hf
        · cases h; exact hf

theorem fromFunctionDefS_legal (R : Runtime) (E : Evaluator) (f : FunctionDef) (c : Fn) (m parent : Path) :
    Gives Constructible (fromFunctionDefS R E f c m parent) := by
  unfold fromFunctionDefS parametersFromS
  refine Gives.bind (P := fun ps => ∀ p ∈ ps, ConstructibleParam p)
    ((declaredParametersS_legal _ _).bind fun full hf =>
      Gives.lift fun ps h => adjustedParameters_legal h hf) fun ps hps => ?_
  exact Gives.then fun r => (Gives.lift (P := ConstructiblePlain)
    fun s h => plainNew_constructible hps h).bind fun s hs => Gives.pure hs

theorem fromCallableItemS_legal (ev : Expr → Ev Obj Obj) (item : Expr) :
    Gives Constructible (fromCallableItemS ev item) := by
  unfold fromCallableItemS
  split
  · split
    · refine Gives.bind (P := fun ps => ∀ p ∈ ps, ConstructibleParam p)
        (Gives.each fun ei _ => Gives.then fun a => Gives.lift fun _ h => required_constructible h)
        fun ps hps => Gives.then fun r => (Gives.lift (P := ConstructiblePlain)
          fun s h => plainNew_constructible hps h).bind fun s hs => Gives.pure hs
    · refine (Gives.lift (P := ConstructibleParam) fun _ h => optional_constructible h).bind fun p1 h1 =>
        (Gives.lift (P := ConstructibleParam) fun _ h => optional_constructible h).bind fun p2 h2 =>
        Gives.then fun r => (Gives.lift (P := ConstructiblePlain)
          fun s h => plainNew_constructible (fun p hp => ?_) h).bind fun s hs => Gives.pure hs
      simp only [List.mem_cons, List.not_mem_nil, or_false] at hp
      rcases hp with rfl | rfl
      · exact h1
      · exact h2
  · exact Gives.raise
  · exact Gives.raise

theorem fromNamedS_legal (R : Runtime) {st : Stmt → Path → Ev Obj Sig} (e : Expr) (c : Fn) (m parent : Path)
    (hst : ∀ node m, Gives Constructible (st node m)) :
    Gives Constructible (fromNamedS R st e c m parent) := by
  unfold fromNamedS
  refine Gives.then fun path => Gives.then fun q => Gives.then fun kinds => Gives.then fun kind => ?_
  split
  · refine Gives.then fun nodes => (Gives.each fun node _ => hst node _).bind fun sigs hs =>
      (Gives.lift (P := fun l => ∀ s ∈ l, Constructible s) fun l hl =>
        mapExcept_all (fun s hm t ht => bind_constructible (hs s hm) ht) hl).bind fun l hl =>
      Gives.lift fun _ h => fromSignatures_constructible hl h
  · refine Gives.then fun nodes => Gives.then fun stmts => ?_
    split
    · exact hst _ _
    · exact Gives.raise

theorem fromExpressionS_statementS_legal (R : Runtime) (E : Evaluator) : ∀ n : Nat,
    (∀ e c m parent, Gives Constructible (fromExpressionS R E n e c m parent)) ∧
    (∀ node c m parent, Gives Constructible (fromStatementS R E n node c m parent))
  | 0 => ⟨fun _ _ _ _ => by rw [fromExpressionS]; exact Gives.raise,
      fun _ _ _ _ => by rw [fromStatementS]; exact Gives.raise⟩
  | n + 1 => by
    obtain ⟨ih1, ih2⟩ := fromExpressionS_statementS_legal R E n
    constructor
    · intro e c m parent
      rw [fromExpressionS.eq_def]
      dsimp only
      split
      · exact fromNamedS_legal R _ _ _ _ fun node m => ih2 node c m []
      · exact fromNamedS_legal R _ _ _ _ fun node m => ih2 node c m []
      · refine Gives.then fun path => Gives.then fun q => ?_
        split
        · split
          · exact (Gives.each fun e _ => ih1 e c m parent).bind fun l hl =>
              Gives.lift fun _ h => fromSignatures_constructible hl h
          · exact ih1 _ _ _ _
        · exact Gives.raise
      · refine Gives.then fun path => Gives.then fun q => ?_
        split
        · exact fromCallableItemS_legal _ _
        · exact Gives.raise
      · exact Gives.raise
    · intro node c m parent
      rw [fromStatementS.eq_def]
      dsimp only
      split
      · exact ih1 _ _ _ _
      · exact ih1 _ _ _ _
      · exact fromFunctionDefS_legal R E _ _ _ _
      · exact Gives.raise

theorem fromPathsS_legal (R : Runtime) (E : Evaluator) (value : Fn) : ∀ paths : List QPath,
    Gives Constructible (fromPathsS R E value paths)
  | [] => by rw [fromPathsS]; exact Gives.raise
  | (m, object) :: paths => by
    rw [fromPathsS]
    refine Gives.then fun nodes => Gives.bind
      (P := fun o : Option (List Sig) => ∀ l, o = some l → ∀ s ∈ l, Constructible s)
      (Gives.catchNotFound ?_ (Gives.pure fun _ h => by cases h)) fun o ho => ?_
    · exact (Gives.each fun node _ => (fromExpressionS_statementS_legal R E R.depth).2 _ _ _ _).bind
        fun l hl => Gives.pure fun l' h => by cases h; exact hl
    · cases o with
      | none => exact fromPathsS_legal R E value paths
      | some l => exact Gives.lift fun _ h => fromSignatures_constructible (ho l rfl) h

theorem fromFnS_legal (R : Runtime) (E : Evaluator) (value : Fn) : Gives Constructible (fromFnS R E value) := by
  unfold fromFnS
  exact Gives.then fun paths => fromPathsS_legal R E value paths

theorem fromInstanceS_legal (R : Runtime) (E : Evaluator) (self : Obj) (attr : Except PyErr Fn) :
    Gives Constructible (fromInstanceS R E self attr) := by
  unfold fromInstanceS
  exact Gives.then fun f => (fromFnS_legal R E f).bind fun s hs =>
    Gives.lift fun _ h => bind_constructible hs h

theorem fromClassS_legal (R : Runtime) (E : Evaluator) (f : Fn) : Gives Constructible (fromClassS R E f) := by
  unfold fromClassS
  refine Gives.then fun paths => ?_
  split
  · exact Gives.raise
  · exact Gives.then fun q => Gives.then fun nodes =>
      (Gives.each fun node _ => (fromExpressionS_statementS_legal R E R.depth).2 _ _ _ _).bind
        fun l hl => Gives.lift fun _ h => fromSignatures_constructible hl h

theorem fromCallableS_legal (R : Runtime) (E : Evaluator) : ∀ c : Callable,
    Gives Constructible (fromCallableS R E c)
  | .builtin owner _ _ _ => by
    simp only [fromCallableS]
    refine Gives.catchNotFound ?_ (Gives.lift fun _ h => fromInspect_constructible h)
    cases owner with
    | «instance» self attr => exact fromInstanceS_legal R E self attr
    | _ => exact fromFnS_legal R E _
  | .function .. => by
    rw [fromCallableS]
    exact Gives.catchNotFound (fromFnS_legal R E _) (Gives.lift fun _ h => fromInspect_constructible h)
  | .method _ self _ => by
    simp only [fromCallableS]
    refine Gives.catchNotFound ?_ (Gives.lift fun _ h => fromInspect_constructible h)
    cases self with
    | none => exact fromFnS_legal R E _
    | some p => exact fromInstanceS_legal R E _ _
  | .methodWrapper self _ => by
    cases self with
    | none => rw [fromCallableS]; exact Gives.raise
    | some p =>
      rw [fromCallableS]
      exact Gives.catchNotFound (fromInstanceS_legal R E _ _)
        (Gives.lift fun _ h => fromInspect_constructible h)
  | .descriptor .. => by
    rw [fromCallableS]
    exact Gives.catchNotFound (fromFnS_legal R E _) (Gives.lift fun _ h => fromInspect_constructible h)
  | .cls .. => by
    rw [fromCallableS]
    refine Gives.catchNotFound (fromClassS_legal R E _) (Gives.lift fun _ h => ?_)
    obtain ⟨r, _, h⟩ := except_bind_ok.1 h
    exact fromRawSignature_constructible h
  | .partial_ func _ _ => by
    rw [fromCallableS]
    exact (fromCallableS_legal R E func).bind fun s hs => Gives.lift fun _ h => bind_constructible hs h
  | .other => by rw [fromCallableS]; exact Gives.raise

end Paradigm
