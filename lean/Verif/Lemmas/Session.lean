import Verif.Spec.Session
import Verif.Lemmas.Evaluation
import Verif.Lemmas.Traversal

/-!
# Lemmas: computations that do not depend on the state

`Steady I x y`: whatever the state, provided `I` holds of it, `x` has the outcome `y`, and `I` holds
afterwards.
-/

namespace Paradigm

open Spec

variable {V : Type}

def Steady {α : Type} (I : EvalState V → Prop) (x : Ev V α) (y : Except PyErr α) : Prop :=
  ∀ s, I s → ∃ t, x s = (y, t) ∧ I t

namespace Steady

variable {α β : Type} {I : EvalState V → Prop}

theorem lift (x : Except PyErr α) : Steady I (Ev.lift x) x := fun s hs => ⟨s, rfl, hs⟩

theorem pure (a : α) : Steady I (Pure.pure a : Ev V α) (.ok a) := fun s hs => ⟨s, rfl, hs⟩

theorem raise (e : PyErr) : Steady I (Ev.raise e : Ev V α) (.error e) := fun s hs => ⟨s, rfl, hs⟩

theorem bind {x : Ev V α} {y : Except PyErr α} {f : α → Ev V β} {g : α → Except PyErr β}
    (hx : Steady I x y) (hf : ∀ a, y = .ok a → Steady I (f a) (g a)) :
    Steady I (x >>= f) (y >>= g) := by
  intro s hs
  obtain ⟨t, ht, hI⟩ := hx s hs
  cases y with
  | error e => exact ⟨t, by show Ev.bind x f s = _; rw [Ev.bind, ht]; rfl, hI⟩
  | ok a =>
    obtain ⟨u, hu, hI'⟩ := hf a rfl t hI
    exact ⟨u, by show Ev.bind x f s = _; rw [Ev.bind, ht]; exact hu, hI'⟩

theorem each {f : α → Ev V β} {g : α → Except PyErr β} {xs : List α}
    (h : ∀ x ∈ xs, Steady I (f x) (g x)) : Steady I (Ev.each f xs) (mapExcept g xs) := by
  induction xs with
  | nil => exact pure _
  | cons x xs ih =>
    have heq : mapExcept g (x :: xs) = (do
        let y ← g x
        let ys ← mapExcept g xs
        .ok (y :: ys)) := by
      rw [mapExcept]
      cases g x with
      | error e => rfl
      | ok y =>
        generalize mapExcept g xs = r
        cases r <;> rfl
    rw [heq]
    exact bind (h x (by simp)) fun y _ =>
      bind (ih fun z hz => h z (by simp [hz])) fun ys _ => pure _

theorem ite {c : Prop} [Decidable c] {x x' : Ev V α} {y y' : Except PyErr α}
    (h : c → Steady I x y) (h' : ¬ c → Steady I x' y') :
    Steady I (if c then x else x') (if c then y else y') := by
  by_cases g : c
  · rw [if_pos g, if_pos g]; exact h g
  · rw [if_neg g, if_neg g]; exact h' g

end Steady

variable {I : EvalState Obj → Prop}

section

variable {ev : Expr → Ev Obj Obj} {ev' : Expr → Except PyErr Obj}

theorem annotationFromS_steady {node : Arg} (h : ∀ e, node.annotation = some e → Steady I (ev e) (ev' e)) :
    Steady I (annotationFromS ev node) (annotationFrom ev' node) := by
  unfold annotationFromS annotationFrom
  cases g : node.annotation with
  | none => exact Steady.pure _
  | some e => exact h e g

theorem paramFromNodeS_steady {node : Arg} {default : Option Expr} {kind : Kind}
    (h : ∀ e, node.annotation = some e → Steady I (ev e) (ev' e))
    (hd : ∀ e, default = some e → Steady I (ev e) (ev' e)) :
    Steady I (paramFromNodeS ev node default kind) (paramFromNode ev' node default kind) := by
  refine Steady.bind (annotationFromS_steady h) fun a _ => ?_
  cases default with
  | none => exact Steady.ite (fun _ => Steady.lift _) fun _ => Steady.lift _
  | some e =>
    refine Steady.bind (hd e rfl) fun d _ => ?_
    exact Steady.ite (fun _ => Steady.lift _) fun _ => Steady.lift _

theorem zipLongest_mem {α β : Type} {as : List α} {bs : List β} {x : Option α × Option β}
    (h : x ∈ zipLongest as bs) : (∀ a, x.1 = some a → a ∈ as) ∧ ∀ b, x.2 = some b → b ∈ bs := by
  induction as generalizing bs with
  | nil =>
    simp only [zipLongest, List.mem_map] at h
    obtain ⟨b, hb, rfl⟩ := h
    exact ⟨fun a h => (by cases h), fun b' h => by cases h; exact hb⟩
  | cons a as ih =>
    cases bs with
    | nil =>
      simp only [zipLongest, List.mem_cons] at h
      rcases h with rfl | h
      · exact ⟨fun a' h => (by cases h; simp), fun b h => by cases h⟩
      · exact ⟨fun a' h' => by simp [(ih h).1 a' h'], (ih h).2⟩
    | cons b bs =>
      simp only [zipLongest, List.mem_cons] at h
      rcases h with rfl | h
      · exact ⟨fun a' h => (by cases h; simp), fun b h => by cases h; simp⟩
      · exact ⟨fun a' h' => by simp [(ih h).1 a' h'], fun b' h' => by simp [(ih h).2 b' h']⟩

theorem declaredParametersS_steady {a : Arguments} (h : ∀ e ∈ argumentsParts a, Steady I (ev e) (ev' e)) :
    Steady I (declaredParametersS ev a) (declaredParameters ev' a) := by
  have hann : ∀ node ∈ a.args ++ a.vararg.toList ++ a.kwonlyargs ++ a.kwarg.toList,
      ∀ e, node.annotation = some e → Steady I (ev e) (ev' e) := fun node hn e he =>
    h e (by
      unfold argumentsParts
      exact List.mem_append_left _ (List.mem_append_left _ (List.mem_filterMap.mpr ⟨node, hn, he⟩)))
  have hdef : ∀ e ∈ a.defaults, Steady I (ev e) (ev' e) := fun e he =>
    h e (by unfold argumentsParts; simp [he])
  have hkw : ∀ e, some e ∈ a.kwDefaults → Steady I (ev e) (ev' e) := fun e he =>
    h e (by unfold argumentsParts; simp [he])
  refine Steady.bind (Steady.each ?_) fun positionals _ => ?_
  · intro pd hpd
    obtain ⟨p, d⟩ := pd
    have hz := zipLongest_mem (List.mem_reverse.mp hpd)
    cases p with
    | none => exact Steady.raise _
    | some node =>
      refine paramFromNodeS_steady (hann node ?_) fun e he => hdef e ?_
      · have := hz.1 node rfl
        simp only [List.mem_reverse] at this
        simp [this]
      · have := hz.2 e he
        simpa using this
  refine Steady.bind ?_ fun varPositional _ => ?_
  · unfold toVariadicParameterS toVariadicParameter
    cases g : a.vararg with
    | none => exact Steady.pure _
    | some node =>
      exact Steady.bind (paramFromNodeS_steady (hann node (by simp [g])) fun e he => by cases he)
        fun p _ => Steady.pure _
  refine Steady.bind (Steady.each ?_) fun keywords _ => ?_
  · intro pd hpd
    obtain ⟨p, d⟩ := pd
    have h1 := List.of_mem_zip hpd
    exact paramFromNodeS_steady (hann p (by simp [h1.1])) fun e he => hkw e (by
      have h2 := h1.2
      simp only at he
      rw [he] at h2
      exact h2)
  refine Steady.bind ?_ fun varKeyword _ => Steady.pure _
  · unfold toVariadicParameterS toVariadicParameter
    cases g : a.kwarg with
    | none => exact Steady.pure _
    | some node =>
      exact Steady.bind (paramFromNodeS_steady (hann node (by simp [g])) fun e he => by cases he)
        fun p _ => Steady.pure _

theorem fromCallableItemS_steady {item : Expr} (h : ∀ e ∈ itemParts item, Steady I (ev e) (ev' e)) :
    Steady I (fromCallableItemS ev item) (fromCallableItem ev' item) := by
  cases item with
  | tuple elts b =>
    match elts, h with
    | [], _ => exact Steady.raise _
    | [_], _ => exact Steady.raise _
    | _ :: _ :: _ :: _, _ => exact Steady.raise _
    | [arguments, returns], h =>
      have hr : returns ∈ itemParts (.tuple [arguments, returns] b) := by
        unfold itemParts
        split
        · rename_i heq
          cases heq
          simp
        · rename_i heq
          cases heq
          simp
        · rename_i h2
          exact absurd rfl (h2 _ _ _)
      have hany : Steady I (do
            let args ← Ev.lift (OptionalParameter.new anyObj (.kind .variadicPositional) "args")
            let kwargs ← Ev.lift (OptionalParameter.new anyObj (.kind .variadicKeyword) "kwargs")
            let returns ← ev returns
            let s ← Ev.lift (PlainSig.new [args, kwargs] returns)
            pure (.plain s))
          (do
            let args ← OptionalParameter.new anyObj (.kind .variadicPositional) "args"
            let kwargs ← OptionalParameter.new anyObj (.kind .variadicKeyword) "kwargs"
            let returns ← ev' returns
            let s ← PlainSig.new [args, kwargs] returns
            return Sig.plain s) := by
        refine Steady.bind (Steady.lift _) fun args _ => ?_
        refine Steady.bind (Steady.lift _) fun kwargs _ => ?_
        exact Steady.bind (h _ hr) fun r _ => Steady.bind (Steady.lift _) fun s _ => Steady.pure _
      cases arguments with
      | list elts =>
        refine Steady.bind (Steady.each ?_) fun ps _ => Steady.bind (h _ hr)
          fun r _ => Steady.bind (Steady.lift _) fun s _ => Steady.pure _
        intro ei hei
        refine Steady.bind (h _ ?_) fun a _ => Steady.lift _
        have := List.fst_mem_of_mem_zipIdx hei
        simp [itemParts, this]
      | _ => exact hany
  | _ => exact Steady.raise _

end

section

variable {R : Runtime} {E : Evaluator}

theorem parametersFrom_eq (R : Runtime) (f : FunctionDef) (c : Fn) (m parent : Path) :
    parametersFrom R f c m parent =
      (declaredParameters (R.ev m parent) f.args >>= adjustedParameters R f c m parent) := rfl

theorem fromFunctionDefS_steady {f : FunctionDef} {c : Fn} {m parent : Path}
    (h : ∀ e, ReadsPart R.stubs R.depth m parent (.functionDef f) m parent e →
      Steady I (E m parent e) (R.ev m parent e)) :
    Steady I (fromFunctionDefS R E f c m parent) (fromFunctionDef R f c m parent) := by
  refine Steady.bind ?_ fun ps _ => Steady.bind ?_ fun r _ =>
    Steady.bind (Steady.lift _) fun s _ => Steady.pure _
  · rw [parametersFrom_eq]
    exact Steady.bind (declaredParametersS_steady fun e he => h e (.parameter he))
      fun r _ => Steady.lift _
  · unfold returnsFromS returnsFrom
    refine Steady.ite (fun _ => Steady.pure _) fun _ => ?_
    cases g : f.returns with
    | none => exact Steady.pure _
    | some e => exact h e (.returns g)

theorem loadAstNodes_stored {m object : Path} {nodes : List Stmt} {node : Stmt}
    (h : loadAstNodes R m object = .ok nodes) (hn : node ∈ nodes) : StoredAt R.stubs (m, object) node := by
  unfold loadAstNodes at h
  cases g : R.stubs.rawAstNodes.lookup m with
  | none => rw [g] at h; cases h
  | some d =>
    rw [g] at h
    simp only at h
    cases g' : d.lookup object with
    | none => rw [g'] at h; cases h
    | some l =>
      rw [g'] at h
      cases l with
      | nil => cases h
      | cons x xs => cases h; exact ⟨d, _, g, g', hn⟩

theorem getItem_ok {α β : Type} [BEq α] {d : Dict α β} {k : α} {v : β} (h : getItem d k = .ok v) :
    d.lookup k = some v := by
  unfold getItem at h
  cases g : d.lookup k with
  | none => rw [g] at h; cases h
  | some w => rw [g] at h; cases h; rfl

theorem _root_.Paradigm.Spec.Within.head {e : Expr} {args : List Expr} {func : Expr}
    {keywords : List (Option String × Expr)}
    (h : e ∈ args ∨ ∃ k, (k, e) ∈ keywords) {x : Expr} (hx : Within e x) :
    Within (.call func args keywords) x := by
  rcases h with h | ⟨k, h⟩
  · exact .argument h hx
  · exact .keyword h hx

/-- What a type reads, any type that contains it reads as well. -/
theorem _root_.Paradigm.Spec.ReadsPart.type {T : Stubs} {depth : Nat} {m parent m' parent' : Path}
    {node node' : Stmt} {e e' x : Expr} (ht : typeOf node = some e) (ht' : typeOf node' = some e')
    (hw : ∀ x, Within e' x → Within e x) (h : ReadsPart T depth m parent node' m' parent' x) :
    ReadsPart T depth m parent node m' parent' x := by
  cases h with
  | parameter h => cases ht'
  | returns h => cases ht'
  | item ht'' hw' he =>
    rw [ht''] at ht'
    cases ht'
    exact .item ht (hw _ hw') he
  | named ht'' hw' hp hr ho hst hrest =>
    rw [ht''] at ht'
    cases ht'
    exact .named ht (hw _ hw') hp hr ho hst hrest

theorem fromStatementS_steady (n : Nat) : (∀ (e : Expr) (c : Fn) (m parent : Path),
      (∀ m' parent' e', ReadsPart R.stubs R.depth m parent (.assign [] e) m' parent' e' →
        Steady I (E m' parent' e') (R.ev m' parent' e')) →
      Steady I (fromExpressionS R E n e c m parent) (fromExpression R n e c m parent)) ∧
    ∀ (node : Stmt) (c : Fn) (m parent : Path),
      (∀ m' parent' e', ReadsPart R.stubs R.depth m parent node m' parent' e' →
        Steady I (E m' parent' e') (R.ev m' parent' e')) →
      Steady I (fromStatementS R E n node c m parent) (fromStatement R n node c m parent) := by
  induction n with
  | zero => exact ⟨fun e c m parent _ => Steady.raise _, fun node c m parent _ => Steady.raise _⟩
  | succ n ih =>
    constructor
    · intro e c m parent h
      have hnamed : ∀ e' : Expr, Within e e' → Steady I
          (fromNamedS R (fun node m => fromStatementS R E n node c m []) e' c m parent)
          (fromNamed R (fun node m => fromStatement R n node c m []) e' c m parent) := by
        intro e' hw
        refine Steady.bind (Steady.lift _) fun path hpath => ?_
        refine Steady.bind (Steady.lift _) fun q hq => ?_
        refine Steady.bind (Steady.lift _) fun kinds hkinds => ?_
        refine Steady.bind (Steady.lift _) fun kind hkind => ?_
        refine Steady.ite (fun _ => ?_) fun _ => ?_
        · refine Steady.bind (Steady.lift _) fun nodes hnodes => ?_
          refine Steady.bind (Steady.each ?_) fun sigs _ => ?_
          · intro node hnode
            exact ih.2 node c q.1 [] fun m' parent' e'' hr =>
              h _ _ _ (.named rfl hw hpath hq (.inr rfl) (loadAstNodes_stored hnodes hnode) hr)
          · exact Steady.bind (Steady.lift _) fun bound _ => Steady.lift _
        · refine Steady.bind (Steady.lift _) fun nodes hnodes => ?_
          refine Steady.bind (Steady.lift _) fun stmts hstmts => ?_
          match stmts, hstmts with
          | [], _ => exact Steady.raise _
          | _ :: _ :: _, _ => exact Steady.raise _
          | [node], hstmts =>
            exact ih.2 node c q.1 [] fun m' parent' e'' hr =>
              h _ _ _ (.named rfl hw hpath hq (.inl rfl)
                ⟨nodes, [node], getItem_ok hnodes, getItem_ok hstmts, by simp⟩ hr)
      cases e with
      | name id b => exact hnamed _ (.refl _)
      | «attribute» value attr b => exact hnamed _ (.refl _)
      | call func args keywords =>
        refine Steady.bind (Steady.lift _) fun path _ => ?_
        refine Steady.bind (Steady.lift _) fun q _ => ?_
        refine Steady.ite (fun _ => ?_) fun _ => Steady.raise _
        cases hfind : keywords.find? (fun k => k.1 == some "bound") with
        | none =>
          refine Steady.bind (Steady.each ?_) fun sigs _ => Steady.lift _
          intro e' he'
          exact ih.1 e' c m parent fun m' parent' e'' hr => h _ _ _
            (hr.type rfl rfl fun x hx => .argument (List.mem_of_mem_drop he') hx)
        | some bound =>
          obtain ⟨k, b⟩ := bound
          exact ih.1 b c m parent fun m' parent' e'' hr => h _ _ _
            (hr.type rfl rfl fun x hx => .keyword (List.mem_of_find?_eq_some hfind) hx)
      | subscript value slice b =>
        refine Steady.bind (Steady.lift _) fun path _ => ?_
        refine Steady.bind (Steady.lift _) fun q _ => ?_
        refine Steady.ite (fun _ => ?_) fun _ => Steady.raise _
        exact fromCallableItemS_steady fun e he => h _ _ _ (.item rfl (.refl _) he)
      | _ => exact Steady.raise _
    · intro node c m parent h
      cases node with
      | annAssign target annotation value =>
        exact ih.1 _ c m parent fun m' parent' e' hr => h _ _ _
          (hr.type (node := .annAssign target annotation value) rfl rfl fun _ hx => hx)
      | assign targets value =>
        exact ih.1 _ c m parent fun m' parent' e' hr => h _ _ _
          (hr.type (node := .assign targets value) rfl rfl fun _ hx => hx)
      | functionDef f => exact fromFunctionDefS_steady fun e he => h _ _ _ he
      | _ => exact Steady.raise _

theorem catchNotFound_steady {x : Ev Obj Sig} {y fallback : Except PyErr Sig} (h : Steady I x y) :
    Steady I (catchNotFound x (Ev.lift fallback)) (orElse y fallback) := by
  intro s hs
  obtain ⟨t, ht, hI⟩ := h s hs
  refine ⟨t, ?_, hI⟩
  unfold catchNotFound orElse
  rw [ht]
  cases y with
  | ok v => rfl
  | error e => cases e <;> rfl

/-- The outcome, `none` if there is no signature. -/
def foundOrNone {α : Type} : Except PyErr α → Except PyErr (Option α)
  | .error .signatureNotFound => .ok none
  | .error e => .error e
  | .ok a => .ok (some a)

theorem catchNone_steady {α : Type} {x : Ev Obj α} {y : Except PyErr α} (h : Steady I x y) :
    Steady I (catchNotFound (x >>= fun a => pure (some a)) (pure none)) (foundOrNone y) := by
  intro s hs
  obtain ⟨t, ht, hI⟩ := h s hs
  refine ⟨t, ?_, hI⟩
  have hb : (x >>= fun a => (pure (some a) : Ev Obj (Option α))) s =
      Ev.bind x (fun a => Ev.pure (some a)) s := rfl
  unfold catchNotFound
  rw [hb, Ev.bind, ht]
  cases y with
  | ok v => rfl
  | error e => cases e <;> rfl

theorem fromPathsS_steady {value : Fn} {paths : List QPath}
    (h : ∀ q ∈ paths, ∀ node, StoredAt R.stubs q node → ∀ m' parent' e',
      ReadsPart R.stubs R.depth q.1 q.2.dropLast node m' parent' e' →
        Steady I (E m' parent' e') (R.ev m' parent' e')) :
    Steady I (fromPathsS R E value paths) (fromPaths R value paths) := by
  induction paths with
  | nil => exact Steady.raise _
  | cons q paths ih =>
    obtain ⟨m, object⟩ := q
    have heq : fromPaths R value ((m, object) :: paths) = (do
        let nodes ← loadAstNodes R m object
        let found ← foundOrNone
          (mapExcept (fun node => fromStatement R R.depth node value m object.dropLast) nodes)
        match found with
        | none => fromPaths R value paths
        | some signatures => fromSignatures signatures) := by
      rw [fromPaths]
      cases loadAstNodes R m object with
      | error e => rfl
      | ok nodes =>
        have hbind : ∀ k : List Stmt → Except PyErr Sig, ((.ok nodes : Except PyErr _) >>= k) = k nodes :=
          fun _ => rfl
        rw [hbind]
        simp only
        generalize mapExcept (fun node => fromStatement R R.depth node value m object.dropLast) nodes = r
        cases r with
        | ok v => rfl
        | error e => cases e <;> rfl
    rw [heq]
    refine Steady.bind (Steady.lift _) fun nodes hnodes => ?_
    refine Steady.bind (catchNone_steady (Steady.each ?_)) fun found _ => ?_
    · intro node hnode
      exact (fromStatementS_steady R.depth).2 node value m object.dropLast
        (h (m, object) (by simp) node (loadAstNodes_stored hnodes hnode))
    · cases found with
      | none => exact ih fun q hq => h q (by simp [hq])
      | some sigs => exact Steady.lift _

/-- The functions and classes looked for are answered the same in any state. -/
def SteadyFn (I : EvalState Obj → Prop) (R : Runtime) (E : Evaluator) (f : Bool × Fn) : Prop :=
  ∀ q node, LookedUp R f.1 f.2 q → StoredAt R.stubs q node → ∀ m' parent' e',
    ReadsPart R.stubs R.depth q.1 q.2.dropLast node m' parent' e' →
      Steady I (E m' parent' e') (R.ev m' parent' e')

theorem fromFnS_steady {f : Fn} (h : SteadyFn I R E (false, f)) : Steady I (fromFnS R E f) (fromFn R f) :=
  Steady.bind (Steady.lift _) fun paths hpaths =>
    fromPathsS_steady fun q hq node hn => h q node ⟨paths, hpaths, hq⟩ hn

theorem fromClassS_steady {f : Fn} (h : SteadyFn I R E (true, f)) : Steady I (fromClassS R E f) (fromClass R f) := by
  refine Steady.bind (Steady.lift _) fun paths hpaths => ?_
  refine Steady.ite (fun _ => Steady.raise _) fun _ => ?_
  refine Steady.bind (Steady.lift _) fun q hq => ?_
  refine Steady.bind (Steady.lift _) fun nodes hnodes => ?_
  refine Steady.bind (Steady.each ?_) fun sigs _ => Steady.lift _
  intro node hnode
  exact (fromStatementS_steady R.depth).2 node f q.1 q.2.dropLast
    (h q node ⟨paths, hpaths, hq⟩ (loadAstNodes_stored hnodes hnode))

theorem fromInstanceS_steady {self : Obj} {attr : Except PyErr Fn}
    (h : ∀ f ∈ attr.toOption.toList.map (false, ·), SteadyFn I R E f) :
    Steady I (fromInstanceS R E self attr) (fromInstance R self attr) :=
  Steady.bind (Steady.lift _) fun f hf =>
    Steady.bind (fromFnS_steady (h (false, f) (by rw [hf]; simp [Except.toOption]))) fun s _ => Steady.lift _

theorem fromCallableS_steady {c : Callable} (h : ∀ f ∈ lookedFor c, SteadyFn I R E f) :
    Steady I (fromCallableS R E c) (fromCallable R c) := by
  induction c with
  | builtin owner qualname obj raw =>
    refine catchNotFound_steady ?_
    cases owner with
    | none => exact fromFnS_steady (h _ (by simp [lookedFor]))
    | module _ _ => exact fromFnS_steady (h _ (by simp [lookedFor]))
    | type _ => exact fromFnS_steady (h _ (by simp [lookedFor]))
    | «instance» self attr => exact fromInstanceS_steady h
  | function l raw => exact catchNotFound_steady (fromFnS_steady (h _ (by simp [lookedFor])))
  | method obj self raw =>
    refine catchNotFound_steady ?_
    cases self with
    | none => exact fromFnS_steady (h _ (by simp [lookedFor]))
    | some self => exact fromInstanceS_steady h
  | methodWrapper self raw =>
    cases self with
    | none => exact Steady.raise _
    | some self => exact catchNotFound_steady (fromInstanceS_steady h)
  | descriptor l raw => exact catchNotFound_steady (fromFnS_steady (h _ (by simp [lookedFor])))
  | cls l raw => exact catchNotFound_steady (fromClassS_steady (h _ (by simp [lookedFor])))
  | partial_ func args keywords ih => exact Steady.bind (ih h) fun s _ => Steady.lift _
  | other => exact Steady.raise _

/-- A session over steady answers. -/
theorem session_steady {cs : List Callable} {s : EvalState Obj} (hs : I s)
    (h : ∀ c ∈ cs, Steady I (fromCallableS R E c) (fromCallable R c)) :
    session R E cs s = cs.map (fromCallable R) := by
  induction cs generalizing s with
  | nil => rfl
  | cons c cs ih =>
    obtain ⟨t, ht, hI⟩ := h c (by simp) s hs
    simp only [session, ht, List.map_cons]
    rw [ih hI fun c hc => h c (by simp [hc])]

end

/-! The field `ev` of the runtime is not used. -/

section
variable (R : Runtime) (ev : Path → Path → Expr → Except PyErr Obj) (E : Evaluator)

theorem builderSearch_ev (object : Path) (n : Nat) (q : QPath) :
    builderSearch { R with ev := ev } object n q = builderSearch R object n q := by
  induction n generalizing q with
  | zero => rfl
  | succ n ih =>
    obtain ⟨bm, bo⟩ := q
    simp only [builderSearch]
    rw [show builderSearch { R with ev := ev } object n = builderSearch R object n from funext ih]

theorem classBuilder_ev (q : QPath) : classBuilder { R with ev := ev } q = classBuilder R q := by
  unfold classBuilder
  rw [builderSearch_ev]

theorem resolveBuilder_ev (paths : List QPath) :
    resolveBuilder { R with ev := ev } paths = resolveBuilder R paths := by
  unfold resolveBuilder
  rw [show classBuilder { R with ev := ev } = classBuilder R from funext (classBuilder_ev R ev)]

theorem toQualifiedPaths_ev (f : Fn) : toQualifiedPaths { R with ev := ev } f = toQualifiedPaths R f := by
  unfold toQualifiedPaths
  rw [show resolveBuilder { R with ev := ev } = resolveBuilder R from funext (resolveBuilder_ev R ev)]
  rfl

theorem fromStatementS_ev (n : Nat) :
    fromExpressionS { R with ev := ev } E n = fromExpressionS R E n ∧
      fromStatementS { R with ev := ev } E n = fromStatementS R E n := by
  induction n with
  | zero => exact ⟨rfl, rfl⟩
  | succ n ih =>
    constructor
    · funext e c m parent
      cases e <;> simp only [fromExpressionS, ih.1, ih.2] <;> rfl
    · funext node c m parent
      cases node <;> simp only [fromStatementS, ih.1] <;> rfl

theorem fromPathsS_ev (f : Fn) (paths : List QPath) :
    fromPathsS { R with ev := ev } E f paths = fromPathsS R E f paths := by
  induction paths with
  | nil => rfl
  | cons q paths ih =>
    obtain ⟨m, object⟩ := q
    simp only [fromPathsS, ih, (fromStatementS_ev R ev E _).2]
    rfl

theorem fromFnS_ev (f : Fn) : fromFnS { R with ev := ev } E f = fromFnS R E f := by
  unfold fromFnS
  rw [toQualifiedPaths_ev, show fromPathsS { R with ev := ev } E f = fromPathsS R E f from
    funext (fromPathsS_ev R ev E f)]

theorem fromInstanceS_ev (self : Obj) (attr : Except PyErr Fn) :
    fromInstanceS { R with ev := ev } E self attr = fromInstanceS R E self attr := by
  unfold fromInstanceS
  rw [show fromFnS { R with ev := ev } E = fromFnS R E from funext (fromFnS_ev R ev E)]

theorem fromClassS_ev (f : Fn) : fromClassS { R with ev := ev } E f = fromClassS R E f := by
  unfold fromClassS
  rw [show resolveBuilder { R with ev := ev } = resolveBuilder R from funext (resolveBuilder_ev R ev)]
  simp only [(fromStatementS_ev R ev E _).2]
  rfl

theorem fromCallableS_ev (c : Callable) : fromCallableS { R with ev := ev } E c = fromCallableS R E c := by
  induction c with
  | builtin owner qualname obj raw => cases owner <;> simp only [fromCallableS, fromFnS_ev, fromInstanceS_ev]
  | method obj self raw => cases self <;> simp only [fromCallableS, fromFnS_ev, fromInstanceS_ev]
  | methodWrapper self raw => cases self <;> simp only [fromCallableS, fromInstanceS_ev]
  | partial_ func args keywords ih => simp only [fromCallableS, ih]
  | _ => simp only [fromCallableS, fromFnS_ev, fromClassS_ev]

theorem session_ev (cs : List Callable) (s : EvalState Obj) :
    session { R with ev := ev } E cs s = session R E cs s := by
  induction cs generalizing s with
  | nil => rfl
  | cons c cs ih => simp only [session, fromCallableS_ev, ih]

theorem lookedUp_ev (asClass : Bool) (f : Fn) (q : QPath) :
    Spec.LookedUp { R with ev := ev } asClass f q ↔ Spec.LookedUp R asClass f q := by
  unfold Spec.LookedUp
  simp only [toQualifiedPaths_ev, resolveBuilder_ev]
  rfl

end

/-! Questions keep what evaluations keep. -/

section

variable {R : Runtime} {E : Evaluator} {ev : Expr → Ev Obj Obj}

/-- `x` keeps `I`, unless the recursion limit is hit. -/
abbrev Keeps {α : Type} (I : EvalState Obj → Prop) (x : Ev Obj α) : Prop := Sim I x x

theorem paramFromNodeS_keeps (h : ∀ e, Keeps I (ev e)) (node : Arg) (default : Option Expr) (kind : Kind) :
    Keeps I (paramFromNodeS ev node default kind) := by
  unfold paramFromNodeS annotationFromS
  refine Sim.bind ?_ fun a => ?_
  · cases node.annotation with
    | none => exact Sim.pure _
    | some e => exact h e
  · cases default with
    | none => exact Sim.ite (fun _ => Sim.lift _) fun _ => Sim.lift _
    | some e => exact Sim.bind (h e) fun d => Sim.ite (fun _ => Sim.lift _) fun _ => Sim.lift _

theorem toVariadicParameterS_keeps (h : ∀ e, Keeps I (ev e)) (node : Option Arg) (kind : Kind) :
    Keeps I (toVariadicParameterS ev node kind) := by
  unfold toVariadicParameterS
  cases node with
  | none => exact Sim.pure _
  | some node => exact Sim.bind (paramFromNodeS_keeps h _ _ _) fun p => Sim.pure _

theorem declaredParametersS_keeps (h : ∀ e, Keeps I (ev e)) (a : Arguments) :
    Keeps I (declaredParametersS ev a) := by
  refine Sim.bind (Sim.each fun pd _ => ?_) fun _ => Sim.bind (toVariadicParameterS_keeps h _ _) fun _ =>
    Sim.bind (Sim.each fun pd _ => paramFromNodeS_keeps h _ _ _) fun _ =>
      Sim.bind (toVariadicParameterS_keeps h _ _) fun _ => Sim.pure _
  cases pd.1 with
  | none => exact Sim.raise _
  | some node => exact paramFromNodeS_keeps h _ _ _

theorem fromCallableItemS_keeps (h : ∀ e, Keeps I (ev e)) (item : Expr) :
    Keeps I (fromCallableItemS ev item) := by
  unfold fromCallableItemS
  split
  · split
    · exact Sim.bind (Sim.each fun ei _ => Sim.bind (h _) fun a => Sim.lift _) fun ps =>
        Sim.bind (h _) fun r => Sim.bind (Sim.lift _) fun s => Sim.pure _
    · exact Sim.bind (Sim.lift _) fun args => Sim.bind (Sim.lift _) fun kwargs =>
        Sim.bind (h _) fun r => Sim.bind (Sim.lift _) fun s => Sim.pure _
  · exact Sim.raise _
  · exact Sim.raise _

theorem fromFunctionDefS_keeps (h : ∀ m parent e, Keeps I (E m parent e)) (f : FunctionDef) (c : Fn)
    (m parent : Path) : Keeps I (fromFunctionDefS R E f c m parent) := by
  refine Sim.bind (Sim.bind (declaredParametersS_keeps (h m parent) _) fun ps => Sim.lift _) fun ps =>
    Sim.bind ?_ fun r => Sim.bind (Sim.lift _) fun s => Sim.pure _
  unfold returnsFromS
  refine Sim.ite (fun _ => Sim.pure _) fun _ => ?_
  cases f.returns with
  | none => exact Sim.pure _
  | some e => exact h m parent e

theorem fromStatementS_keeps (h : ∀ m parent e, Keeps I (E m parent e)) (n : Nat) :
    (∀ (e : Expr) (c : Fn) (m parent : Path), Keeps I (fromExpressionS R E n e c m parent)) ∧
    ∀ (node : Stmt) (c : Fn) (m parent : Path), Keeps I (fromStatementS R E n node c m parent) := by
  induction n with
  | zero => exact ⟨fun e c m parent => Sim.raise _, fun node c m parent => Sim.raise _⟩
  | succ n ih =>
    constructor
    · intro e c m parent
      have hnamed : Keeps I (fromNamedS R (fun node m => fromStatementS R E n node c m []) e c m parent) := by
        refine Sim.bind (Sim.lift _) fun path => Sim.bind (Sim.lift _) fun q =>
          Sim.bind (Sim.lift _) fun kinds => Sim.bind (Sim.lift _) fun kind => Sim.ite (fun _ => ?_) fun _ => ?_
        · exact Sim.bind (Sim.lift _) fun nodes => Sim.bind (Sim.each fun node _ => ih.2 node c q.1 [])
            fun sigs => Sim.bind (Sim.lift _) fun bound => Sim.lift _
        · refine Sim.bind (Sim.lift _) fun nodes => Sim.bind (Sim.lift _) fun stmts => ?_
          match stmts with
          | [] => exact Sim.raise _
          | _ :: _ :: _ => exact Sim.raise _
          | [node] => exact ih.2 node c q.1 []
      cases e with
      | name id b => exact hnamed
      | «attribute» value attr b => exact hnamed
      | call func args keywords =>
        refine Sim.bind (Sim.lift _) fun path => Sim.bind (Sim.lift _) fun q =>
          Sim.ite (fun _ => ?_) fun _ => Sim.raise _
        cases keywords.find? (fun k => k.1 == some "bound") with
        | none => exact Sim.bind (Sim.each fun e' _ => ih.1 e' c m parent) fun sigs => Sim.lift _
        | some bound => exact ih.1 bound.2 c m parent
      | subscript value slice b =>
        exact Sim.bind (Sim.lift _) fun path => Sim.bind (Sim.lift _) fun q =>
          Sim.ite (fun _ => fromCallableItemS_keeps (h m parent) _) fun _ => Sim.raise _
      | _ => exact Sim.raise _
    · intro node c m parent
      cases node with
      | annAssign target annotation value => exact ih.1 _ c m parent
      | assign targets value => exact ih.1 _ c m parent
      | functionDef f => exact fromFunctionDefS_keeps h f c m parent
      | _ => exact Sim.raise _

theorem catchNotFound_keeps {α : Type} {x handler : Ev Obj α} (hx : Keeps I x) (hh : Keeps I handler) :
    Keeps I (catchNotFound x handler) := by
  intro s hs
  unfold catchNotFound
  cases g : x s with
  | mk o t =>
    have hx := hx s hs
    rw [g] at hx
    rcases hx with h | ⟨-, h⟩
    · cases h; exact .inl rfl
    · cases o with
      | ok v => exact .inr ⟨rfl, h⟩
      | error e =>
        cases e with
        | signatureNotFound => exact hh t h
        | _ => exact .inr ⟨rfl, h⟩

theorem fromPathsS_keeps (h : ∀ m parent e, Keeps I (E m parent e)) (f : Fn) : ∀ paths : List QPath,
    Keeps I (fromPathsS R E f paths)
  | [] => Sim.raise _
  | (m, object) :: paths => by
    refine Sim.bind (Sim.lift _) fun nodes => Sim.bind (catchNotFound_keeps (Sim.bind (Sim.each fun node _ =>
      (fromStatementS_keeps h R.depth).2 node f m _) fun sigs => Sim.pure _) (Sim.pure _)) fun found => ?_
    cases found with
    | none => exact fromPathsS_keeps h f paths
    | some sigs => exact Sim.lift _

theorem fromFnS_keeps (h : ∀ m parent e, Keeps I (E m parent e)) (f : Fn) : Keeps I (fromFnS R E f) :=
  Sim.bind (Sim.lift _) fun paths => fromPathsS_keeps h f paths

theorem fromInstanceS_keeps (h : ∀ m parent e, Keeps I (E m parent e)) (self : Obj) (attr : Except PyErr Fn) :
    Keeps I (fromInstanceS R E self attr) :=
  Sim.bind (Sim.lift _) fun f => Sim.bind (fromFnS_keeps h f) fun s => Sim.lift _

theorem fromClassS_keeps (h : ∀ m parent e, Keeps I (E m parent e)) (f : Fn) : Keeps I (fromClassS R E f) :=
  Sim.bind (Sim.lift _) fun paths => Sim.ite (fun _ => Sim.raise _) fun _ =>
    Sim.bind (Sim.lift _) fun q => Sim.bind (Sim.lift _) fun nodes =>
      Sim.bind (Sim.each fun node _ => (fromStatementS_keeps h R.depth).2 node f q.1 _) fun sigs => Sim.lift _

theorem fromCallableS_keeps (h : ∀ m parent e, Keeps I (E m parent e)) : ∀ c : Callable,
    Keeps I (fromCallableS R E c)
  | .builtin owner qualname obj raw => by
    refine catchNotFound_keeps ?_ (Sim.lift _)
    cases owner with
    | «instance» self attr => exact fromInstanceS_keeps h _ _
    | _ => exact fromFnS_keeps h _
  | .function l raw => catchNotFound_keeps (fromFnS_keeps h _) (Sim.lift _)
  | .method obj self raw => by
    refine catchNotFound_keeps ?_ (Sim.lift _)
    cases self with
    | none => exact fromFnS_keeps h _
    | some self => exact fromInstanceS_keeps h _ _
  | .methodWrapper none raw => Sim.raise _
  | .methodWrapper (some self) raw => catchNotFound_keeps (fromInstanceS_keeps h _ _) (Sim.lift _)
  | .descriptor l raw => catchNotFound_keeps (fromFnS_keeps h _) (Sim.lift _)
  | .cls l raw => catchNotFound_keeps (fromClassS_keeps h _) (Sim.lift _)
  | .partial_ func args keywords => Sim.bind (fromCallableS_keeps h func) fun s => Sim.lift _
  | .other => Sim.raise _

/-- A steady answer in a session that never hits the recursion limit. -/
theorem session_nth (h : ∀ m parent e, Keeps I (E m parent e)) {c : Callable} {y : Except PyErr Sig}
    (hc : Steady I (fromCallableS R E c) y) : ∀ {cs : List Callable} {s : EvalState Obj} {i : Nat}, I s →
    .error .recursionError ∉ session R E cs s → cs[i]? = some c → (session R E cs s)[i]? = some y
  | [], _, i, _, _, hi => by simp at hi
  | c' :: cs, s, i, hs, hr, hi => by
    simp only [session, List.mem_cons, not_or] at hr
    cases i with
    | zero =>
      simp only [List.getElem?_cons_zero, Option.some.injEq] at hi
      subst hi
      obtain ⟨t, ht, -⟩ := hc s hs
      simp only [session, List.getElem?_cons_zero, ht]
    | succ i =>
      simp only [List.getElem?_cons_succ] at hi
      simp only [session, List.getElem?_cons_succ]
      rcases fromCallableS_keeps (R := R) h c' s hs with hrec | ⟨-, hI⟩
      · exact absurd hrec.symm hr.1
      · exact session_nth h hc hI hr.2 hi

end

end Paradigm
