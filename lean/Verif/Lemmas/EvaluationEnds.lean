import Verif.Lemmas.Lenient

/-!
# Evaluations that end

A computation is safe if it does not run out of nested calls, whatever happens, and only adds to the
caches.
-/

namespace Paradigm

open Spec

/-- The caches of `t` have the keys of those of `s`. -/
structure EvalGrows {V : Type} (s t : EvalState V) : Prop where
  assigned : ∀ q, (s.assigned.lookup q).isSome = true → (t.assigned.lookup q).isSome = true
  modules : ∀ m, (s.modules.lookup m).isSome = true → (t.modules.lookup m).isSome = true

theorem EvalGrows.refl {V : Type} (s : EvalState V) : EvalGrows s s := ⟨fun _ h => h, fun _ h => h⟩

theorem EvalGrows.trans {V : Type} {s t u : EvalState V} (h : EvalGrows s t) (h' : EvalGrows t u) : EvalGrows s u :=
  ⟨fun q g => h'.assigned q (h.assigned q g), fun q g => h'.modules q (h.modules q g)⟩

/-- What is not cached yet, of the given objects and modules. -/
def uncached {V : Type} (U : List QPath) (M : List Path) (s : EvalState V) : Nat :=
  (U.filter fun q => !(s.assigned.lookup q).isSome).length
    + (M.filter fun m => !(s.modules.lookup m).isSome).length

theorem filter_missing_le {α : Type} {p p' : α → Bool} : ∀ (xs : List α),
    (∀ x ∈ xs, p x = true → p' x = true) → (xs.filter p).length ≤ (xs.filter p').length
  | [], _ => Nat.le_refl _
  | x :: xs, h => by
    have ih := filter_missing_le xs fun y hy => h y (.tail _ hy)
    have hx := h x (.head _)
    rw [List.filter_cons, List.filter_cons]
    by_cases g : p x = true
    · rw [if_pos g, if_pos (hx g)]; exact Nat.succ_le_succ ih
    · rw [if_neg g]
      by_cases g' : p' x = true
      · rw [if_pos g']; exact Nat.le_succ_of_le ih
      · rw [if_neg g']; exact ih

theorem filter_missing_lt {α : Type} {p p' : α → Bool} : ∀ (xs : List α),
    (∀ x ∈ xs, p x = true → p' x = true) → (∃ x ∈ xs, p x = false ∧ p' x = true) →
    (xs.filter p).length < (xs.filter p').length
  | [], _, h => by obtain ⟨x, hx, _⟩ := h; cases hx
  | x :: xs, h, ⟨y, hy, g1, g2⟩ => by
    have hxs : ∀ y ∈ xs, p y = true → p' y = true := fun y hy => h y (.tail _ hy)
    rw [List.filter_cons, List.filter_cons]
    rcases List.mem_cons.1 hy with rfl | hy
    · rw [if_neg (by simp [g1]), if_pos g2]
      exact Nat.lt_succ_of_le (filter_missing_le xs hxs)
    · have ih := filter_missing_lt xs hxs ⟨y, hy, g1, g2⟩
      have hx := h x (.head _)
      by_cases g : p x = true
      · rw [if_pos g, if_pos (hx g)]; exact Nat.succ_lt_succ ih
      · rw [if_neg g]
        by_cases g' : p' x = true
        · rw [if_pos g']; exact Nat.lt_succ_of_lt ih
        · rw [if_neg g']; exact ih

theorem EvalGrows.uncached_le {V : Type} {s t : EvalState V} (h : EvalGrows s t) (U : List QPath) (M : List Path) :
    uncached U M t ≤ uncached U M s := by
  unfold uncached
  refine Nat.add_le_add (filter_missing_le _ fun q _ g => ?_) (filter_missing_le _ fun q _ g => ?_)
  · have := h.assigned q
    cases h1 : (s.assigned.lookup q).isSome <;> simp_all
  · have := h.modules q
    cases h1 : (s.modules.lookup q).isSome <;> simp_all

theorem EvalGrows.uncached_lt {V : Type} {s t : EvalState V} (h : EvalGrows s t) {U : List QPath} (M : List Path)
    {q : QPath} (hq : q ∈ U) (h1 : s.assigned.lookup q = none)
    (h2 : (t.assigned.lookup q).isSome = true) : uncached U M t < uncached U M s := by
  unfold uncached
  refine Nat.add_lt_add_of_lt_of_le (filter_missing_lt _ (fun q _ g => ?_) ⟨q, hq, by simp [h2], by simp [h1]⟩)
    (filter_missing_le _ fun q _ g => ?_)
  · have := h.assigned q
    cases h1 : (s.assigned.lookup q).isSome <;> simp_all
  · have := h.modules q
    cases h1 : (s.modules.lookup q).isSome <;> simp_all

theorem EvalGrows.uncached_lt_modules {V : Type} {s t : EvalState V} (h : EvalGrows s t) (U : List QPath)
    {M : List Path} {m : Path} (hm : m ∈ M) (h1 : s.modules.lookup m = none)
    (h2 : (t.modules.lookup m).isSome = true) : uncached U M t < uncached U M s := by
  unfold uncached
  refine Nat.add_lt_add_of_le_of_lt (filter_missing_le _ fun q _ g => ?_)
    (filter_missing_lt _ (fun q _ g => ?_) ⟨m, hm, by simp [h2], by simp [h1]⟩)
  · have := h.assigned q
    cases h1 : (s.assigned.lookup q).isSome <;> simp_all
  · have := h.modules q
    cases h1 : (s.modules.lookup q).isSome <;> simp_all

/-- Starting where `I` holds, the computation does not run out of nested calls and only adds to the
caches. -/
def Ends {V α : Type} (I : EvalState V → Prop) (x : Ev V α) : Prop :=
  ∀ s, I s → (x s).1 ≠ .error .recursionError ∧ EvalGrows s (x s).2

section

variable {V α β : Type} {I : EvalState V → Prop} (keep : ∀ s t, I s → EvalGrows s t → I t)

theorem Ends.pure (a : α) : Ends I (Ev.pure a : Ev V α) := fun s _ => ⟨(by intro h; cases h), EvalGrows.refl s⟩

theorem Ends.raise {e : PyErr} (h : e ≠ .recursionError) : Ends I (Ev.raise e : Ev V α) := fun s _ =>
  ⟨fun g => by injection g with g; exact h g, EvalGrows.refl s⟩

theorem Ends.lift {x : Except PyErr α} (h : x ≠ .error .recursionError) : Ends I (Ev.lift x : Ev V α) :=
  fun s _ => ⟨h, EvalGrows.refl s⟩

theorem Ends.get : Ends I (Ev.get : Ev V (EvalState V)) := fun s _ => ⟨(by intro h; cases h), EvalGrows.refl s⟩

theorem Ends.modify {f : EvalState V → EvalState V} (h : ∀ s, EvalGrows s (f s)) :
    Ends I (Ev.modify f) := fun s _ => ⟨(by intro h; cases h), h s⟩

include keep in
theorem Ends.bind {x : Ev V α} {f : α → Ev V β} (hx : Ends I x) (hf : ∀ a, Ends I (f a)) :
    Ends I (x >>= f) := by
  intro s hs
  obtain ⟨h1, h2⟩ := hx s hs
  cases h : x s with
  | mk o t =>
    rw [h] at h1 h2
    cases o with
    | ok a =>
      rw [Ev.bind_ok h]
      obtain ⟨h3, h4⟩ := hf a t (keep s t hs h2)
      exact ⟨h3, h2.trans h4⟩
    | error e => rw [Ev.bind_error h]; exact ⟨fun g => h1 (by injection g with g; rw [g]), h2⟩

include keep in
theorem Ends.each {f : α → Ev V β} : ∀ {xs : List α}, (∀ x ∈ xs, Ends I (f x)) → Ends I (Ev.each f xs)
  | [], _ => Ends.pure _
  | x :: xs, h => Ends.bind keep (h x (by simp)) fun y =>
    Ends.bind keep (Ends.each fun x hx => h x (by simp [hx])) fun ys => Ends.pure _

theorem Ends.putName (name : String) (v : V) : Ends I (putName name v) :=
  Ends.modify fun _ => ⟨fun _ h => h, fun _ h => h⟩

end

section

variable {V : Type} {W : Interpreter V} {T : Stubs} {depth : Nat} {other : Atom → String}
  {look : QPath → Ev V V} {I : EvalState V → Prop} (hW : NoRecursion W)
  (keep : ∀ s t, I s → EvalGrows s t → I t)
  (hres : ∀ m parent path, resolve T.toTables depth m parent path [] ≠ .error .recursionError)

include hW in
theorem evalItem_terminates (v i : V) : evalItem W v i ≠ .error .recursionError := by
  unfold evalItem
  have := hW.getitem v i
  cases h : W.getitem v i with
  | ok w => simp
  | error e => rw [h] at this; cases e <;> simp_all

include hW in
theorem evalBinary_terminates (op : String) (l r : V) : evalBinary W op l r ≠ .error .recursionError := by
  unfold evalBinary
  have hb := hW.binary op l r
  have hu := hW.union l r
  unfold binaryOperator
  by_cases g : op = "BitAnd" ∨ op = "BitOr" ∨ op = "BitXor"
  · rw [if_pos g]
    simp only
    cases h : W.binary op l r with
    | ok w => simp
    | error e =>
      rw [h] at hb
      cases e with
      | typeError tag =>
        simp only
        split
        · exact hu
        · simp
      | recursionError => exact absurd rfl hb
      | _ => simp
  · rw [if_neg g]
    simp only
    split
    · exact hu
    · simp

theorem toPath_terminates : ∀ e : Expr, toPath e ≠ .error .recursionError
  | .name .. => by simp [toPath]
  | .attribute value attr load => by
    rw [toPath]
    have := toPath_terminates value
    cases h : toPath value with
    | ok p => simp
    | error x => rw [h] at this; simp only; exact this
  | .subscript .. | .tuple .. | .list .. | .call .. | .constant .. | .binOp .. | .other .. => by
    simp [toPath]

include hW keep hres

variable (hlook : ∀ q, Ends I (look q))

include hlook

mutual

theorem evalExpr_terminates (m parent : Path) : ∀ e : Expr, Ends I (evalExpr W T depth look m parent e)
  | .name id load => by
    rw [evalExpr]
    split
    · exact Ends.raise (by simp)
    · exact Ends.bind keep (Ends.lift (hres _ _ _)) hlook
  | .attribute value attr load => by
    rw [evalExpr]
    split
    · exact Ends.raise (by simp)
    · refine Ends.bind keep (evalExpr_terminates m parent value) fun v => ?_
      have := hW.getattr v attr
      cases h : W.getattr v attr with
      | ok w => exact Ends.pure _
      | error e =>
        rw [h] at this
        cases e with
        | attributeError =>
          exact Ends.bind keep (Ends.lift (toPath_terminates _)) fun path =>
            Ends.bind keep (Ends.lift (hres _ _ _)) hlook
        | recursionError => exact absurd rfl this
        | _ => exact Ends.raise (by simp)
  | .subscript value slice load => by
    rw [evalExpr]
    split
    · exact Ends.raise (by simp)
    · exact Ends.bind keep (evalExpr_terminates m parent value) fun v =>
        Ends.bind keep (evalExpr_terminates m parent slice) fun i => Ends.lift (evalItem_terminates hW v i)
  | .tuple elts load => by
    rw [evalExpr]
    split
    · exact Ends.raise (by simp)
    · exact Ends.bind keep (evalExprs_terminates m parent elts) fun v => Ends.pure _
  | .list elts => by
    rw [evalExpr]
    exact Ends.bind keep (evalExprs_terminates m parent elts) fun v => Ends.pure _
  | .call func args keywords => by
    rw [evalExpr]
    exact Ends.bind keep (evalExprs_terminates m parent args) fun vs =>
      Ends.bind keep (evalKeywords_terminates m parent keywords) fun kvs =>
        Ends.bind keep (evalExpr_terminates m parent func) fun f => Ends.lift (hW.call _ _ _)
  | .constant value => by rw [evalExpr]; exact Ends.pure _
  | .binOp left op right => by
    rw [evalExpr]
    exact Ends.bind keep (evalExpr_terminates m parent left) fun l =>
      Ends.bind keep (evalExpr_terminates m parent right) fun r => Ends.lift (evalBinary_terminates hW op l r)
  | .other tag [] => by
    rcases other_cases tag [] with rfl | ⟨hd, ⟨o, ho, e⟩ | ho⟩
    · rw [evalExpr_dict, evalEntries_short _ _ _ _ _ _ (by intro _ _ _ h; cases h)]
      exact Ends.bind keep (Ends.pure _) fun kvs => Ends.lift (hW.dict _)
    · cases e
    · rw [evalExpr]
      · split
        · exact Ends.raise (by simp)
        · split <;> exact Ends.raise (by simp)
      · intro _ h; cases h
  | .other tag [operand] => by
    rcases other_cases tag [operand] with rfl | ⟨hd, ⟨o, ho, e⟩ | ho⟩
    · rw [evalExpr_dict, evalEntries_short _ _ _ _ _ _ (by intro _ _ _ h; cases h)]
      exact Ends.bind keep (Ends.pure _) fun kvs => Ends.lift (hW.dict _)
    · cases e
      rw [evalExpr_unary _ _ _ _ _ _ ho]
      exact Ends.bind keep (evalExpr_terminates m parent operand) fun v => Ends.lift (hW.unary _ _)
    · rw [evalExpr, if_neg fun g => ho operand ⟨g, rfl⟩, if_neg hd]
      split <;> exact Ends.raise (by simp)
  | .other tag (k :: x :: es) => by
    rcases other_cases tag (k :: x :: es) with rfl | ⟨hd, ⟨o, ho, e⟩ | ho⟩
    · rw [evalExpr_dict]
      exact Ends.bind keep (evalEntries_terminates m parent (k :: x :: es)) fun kvs => Ends.lift (hW.dict _)
    · cases e
    · rw [evalExpr]
      · split
        · exact Ends.raise (by simp)
        · split <;> exact Ends.raise (by simp)
      · intro _ h; cases h

theorem evalExprs_terminates (m parent : Path) : ∀ es : List Expr,
    Ends I (evalExprs W T depth look m parent es)
  | [] => by rw [evalExprs]; exact Ends.pure _
  | e :: es => by
    rw [evalExprs]
    exact Ends.bind keep (evalExpr_terminates m parent e) fun v =>
      Ends.bind keep (evalExprs_terminates m parent es) fun vs => Ends.pure _

theorem evalKeywords_terminates (m parent : Path) : ∀ es : List (Option String × Expr),
    Ends I (evalKeywords W T depth look m parent es)
  | [] => by rw [evalKeywords]; exact Ends.pure _
  | (k, e) :: es => by
    rw [evalKeywords]
    exact Ends.bind keep (evalExpr_terminates m parent e) fun v =>
      Ends.bind keep (evalKeywords_terminates m parent es) fun vs => Ends.pure _

theorem evalEntries_terminates (m parent : Path) : ∀ es : List Expr,
    Ends I (evalEntries W T depth look m parent es)
  | [] => by rw [evalEntries_short _ _ _ _ _ _ (by intro _ _ _ h; cases h)]; exact Ends.pure _
  | [_] => by rw [evalEntries_short _ _ _ _ _ _ (by intro _ _ _ h; cases h)]; exact Ends.pure _
  | k :: x :: es => by
    rw [evalEntries]
    exact Ends.bind keep (evalExpr_terminates m parent k) fun v =>
      Ends.bind keep (evalExpr_terminates m parent x) fun v =>
        Ends.bind keep (evalEntries_terminates m parent es) fun vs => Ends.pure _

end

end

theorem each_lift {V α β : Type} (f : α → Except PyErr β) (s : EvalState V) : ∀ xs : List α,
    Ev.each (fun x => (Ev.lift (f x) : Ev V β)) xs s = (mapExcept f xs, s)
  | [] => rfl
  | x :: xs => by
    rw [Ev.each, mapExcept]
    cases h : f x with
    | error e => exact Ev.bind_error (show (Ev.lift (Except.error e) : Ev V β) s = _ from rfl)
    | ok y =>
      rw [Ev.bind_ok (show (Ev.lift (Except.ok y) : Ev V β) s = (.ok y, s) from rfl)]
      cases h' : mapExcept f xs with
      | error e => exact Ev.bind_error (by rw [each_lift f s xs, h'])
      | ok ys => rw [Ev.bind_ok (by rw [each_lift f s xs, h'])]; rfl

theorem dictPut_some {α β : Type} [BEq α] [LawfulBEq α] [DecidableEq α] (k : α) (v : β) (d : Dict α β)
    (q : α) (h : (d.lookup q).isSome = true) : ((dictPut k v d).lookup q).isSome = true := by
  rw [lookup_dictPut]
  split
  · rfl
  · exact h

theorem foldl_dictPut_some {α β : Type} [BEq α] [LawfulBEq α] [DecidableEq α] (v : β) (q : α) :
    ∀ (ks : List α) (d : Dict α β), (d.lookup q).isSome = true →
    ((ks.foldl (fun d k => dictPut k v d) d).lookup q).isSome = true
  | [], _, h => h
  | k :: ks, d, h => foldl_dictPut_some v q ks (dictPut k v d) (dictPut_some k v d q h)

section

variable {V : Type} {W : Interpreter V} {T : Stubs} {depth : Nat} {other : Atom → String}
  {look : QPath → Ev V V} (hW : NoRecursion W)

include hW in
/-- If no target is cached, all of them are afterwards. -/
theorem cachedTarget_terminates : ∀ (qs : List QPath) (s : EvalState V),
    (cachedTarget W qs s).1 ≠ .error .recursionError ∧ EvalGrows s (cachedTarget W qs s).2 ∧
      ((cachedTarget W qs s).1 = .ok none → ∀ q, qs.head? = some q → s.assigned.lookup q = none ∧
        ((cachedTarget W qs s).2.assigned.lookup q).isSome = true)
  | [], s => ⟨(by intro h; cases h), EvalGrows.refl s, fun _ q h => by cases h⟩
  | q :: qs, s => by
    have hf := hW.forwardRef (".".intercalate q.2)
    rw [cachedTarget, Ev.bind_ok (show Ev.get s = (.ok s, s) from rfl)]
    cases h : s.assigned.lookup q with
    | some v => exact ⟨(by intro h; cases h), EvalGrows.refl s, fun h => by cases h⟩
    | none =>
      simp only
      cases hr : W.forwardRef (".".intercalate q.2) with
      | error e =>
        rw [hr] at hf
        rw [Ev.bind_error (show (Ev.lift (Except.error e) : Ev V V) s = (.error e, s) from rfl)]
        exact ⟨fun g => hf (by injection g with g; rw [g]), EvalGrows.refl s, fun h => by cases h⟩
      | ok f =>
        rw [Ev.bind_ok (show (Ev.lift (Except.ok f) : Ev V V) s = (.ok f, s) from rfl),
          Ev.bind_ok (show (Ev.modify (fun s => { s with assigned := dictPut q f s.assigned })) s =
            (.ok (), { s with assigned := dictPut q f s.assigned }) from rfl)]
        have h0 : EvalGrows s { s with assigned := dictPut q f s.assigned } :=
          ⟨fun r h => dictPut_some q f s.assigned r h, fun _ h => h⟩
        obtain ⟨h1, h2, h3⟩ := cachedTarget_terminates qs { s with assigned := dictPut q f s.assigned }
        refine ⟨h1, h0.trans h2, fun _ r hr => ?_⟩
        cases hr
        exact ⟨h, h2.assigned q (by simp [lookup_dictPut])⟩

theorem targetName_terminates (e : Expr) : targetName e ≠ .error .recursionError := by
  cases e <;> simp [targetName]
  split <;> simp

theorem mapExcept_ends {α β : Type} {f : α → Except PyErr β} : ∀ (xs : List α),
    (∀ x ∈ xs, f x ≠ .error .recursionError) → mapExcept f xs ≠ .error .recursionError
  | [], _ => by simp [mapExcept]
  | x :: xs, h => by
    have h1 := h x (by simp)
    have h2 := mapExcept_ends xs fun y hy => h y (by simp [hy])
    rw [mapExcept]
    cases hx : f x with
    | error e => rw [hx] at h1; simp only; intro g; exact h1 (by injection g with g; rw [g])
    | ok y =>
      simp only
      cases hxs : mapExcept f xs with
      | error e => rw [hxs] at h2; simp only; intro g; exact h2 (by injection g with g; rw [g])
      | ok ys => simp

theorem mapExcept_head {α β : Type} {f : α → Except PyErr β} {xs : List α} {ys : List β}
    (h : mapExcept f xs = .ok ys) (hne : xs ≠ []) :
    ∃ x xs' y ys', xs = x :: xs' ∧ ys = y :: ys' ∧ f x = .ok y := by
  cases xs with
  | nil => exact absurd rfl hne
  | cons x xs =>
    rw [mapExcept] at h
    cases hx : f x with
    | error e => rw [hx] at h; cases h
    | ok y =>
      rw [hx] at h
      simp only at h
      cases hxs : mapExcept f xs with
      | error e => rw [hxs] at h; cases h
      | ok ys' => rw [hxs] at h; cases h; exact ⟨x, xs, y, ys', rfl, rfl, hx⟩

variable (hres : ∀ m parent path, resolve T.toTables depth m parent path [] ≠ .error .recursionError)
  {U : List QPath} {M : List Path} {k : Nat}
  (hlook : ∀ q, Ends (fun s => uncached U M s < k) (look q))

theorem uncached_keep (s t : EvalState V) (h : uncached U M s < k) (g : EvalGrows s t) : uncached U M t < k :=
  Nat.lt_of_le_of_lt (g.uncached_le U M) h

theorem uncached_keep' (s t : EvalState V) (h : uncached U M s ≤ k) (g : EvalGrows s t) : uncached U M t ≤ k :=
  Nat.le_trans (g.uncached_le U M) h

include hW hres hlook

/-- Assignments: the value is only evaluated if the target was not cached, so that less is uncached. -/
theorem evalAssign_terminates (m parent : Path) (targets : List Expr) (value : Option Expr)
    (hne : targets ≠ [])
    (hU : ∀ t ∈ targets, ∀ name, targetName t = .ok name → ∀ q,
      resolve T.toTables depth m parent [name] [] = .ok q → q ∈ U) :
    Ends (fun s => uncached U M s ≤ k) (evalAssign W T depth look m parent targets value) := by
  intro s hs
  unfold evalAssign
  have hn := mapExcept_ends (f := targetName) targets fun t _ => targetName_terminates t
  cases h1 : mapExcept targetName targets with
  | error e =>
    rw [h1] at hn
    rw [Ev.bind_error (by rw [each_lift, h1])]
    exact ⟨fun g => hn (by injection g with g; rw [g]), EvalGrows.refl s⟩
  | ok names =>
    rw [Ev.bind_ok (by rw [each_lift, h1])]
    have hp := mapExcept_ends (f := fun name => resolve T.toTables depth m parent [name] []) names
      fun t _ => hres m parent [t]
    cases h2 : mapExcept (fun name => resolve T.toTables depth m parent [name] []) names with
    | error e =>
      rw [h2] at hp
      rw [Ev.bind_error (by unfold evResolve; rw [each_lift, h2])]
      exact ⟨fun g => hp (by injection g with g; rw [g]), EvalGrows.refl s⟩
    | ok paths =>
      rw [Ev.bind_ok (by unfold evResolve; rw [each_lift, h2])]
      obtain ⟨t, ts, name, names', ht, hnames, hname⟩ := mapExcept_head h1 hne
      obtain ⟨_, _, q, qs, e1, hpaths, hq⟩ := mapExcept_head h2 (by rw [hnames]; simp)
      rw [hnames] at e1
      cases e1
      have hqU : q ∈ U := hU t (by rw [ht]; simp) name hname q hq
      obtain ⟨g1, g2, g3⟩ := cachedTarget_terminates hW paths s
      cases hc : cachedTarget W paths s with
      | mk r u =>
        rw [hc] at g1 g2 g3
        cases r with
        | error e =>
          rw [Ev.bind_error hc]
          exact ⟨fun g => g1 (by injection g with g; rw [g]), g2⟩
        | ok cached =>
          rw [Ev.bind_ok hc]
          have last : ∀ result : V, Ends (fun s => uncached U M s ≤ k) (do
              Ev.modify fun s => { s with assigned := paths.foldl (fun d q => dictPut q result d) s.assigned }
              Ev.pure result) := fun result =>
            Ends.bind uncached_keep' (Ends.modify fun s =>
              ⟨fun r h => foldl_dictPut_some result r paths s.assigned h, fun _ h => h⟩)
              fun _ => Ends.pure _
          cases cached with
          | some v =>
            have := last v u (uncached_keep' s u hs g2)
            exact ⟨this.1, g2.trans this.2⟩
          | none =>
            obtain ⟨h3, h4⟩ := g3 rfl q (by rw [hpaths]; rfl)
            have hlt : uncached U M u < k := Nat.lt_of_lt_of_le (g2.uncached_lt M hqU h3 h4) hs
            cases value with
            | none =>
              simp only
              rw [Ev.bind_error (show (Ev.raise (.typeError "node") : Ev V V) u = _ from rfl)]
              exact ⟨(by intro h; cases h), g2⟩
            | some e =>
              simp only
              obtain ⟨g5, g6⟩ := evalExpr_terminates (I := fun s => uncached U M s < k) hW uncached_keep hres hlook
                m parent e u hlt
              cases he : evalExpr W T depth look m parent e u with
              | mk r w =>
                rw [he] at g5 g6
                cases r with
                | error x =>
                  rw [Ev.bind_error he]
                  exact ⟨fun g => g5 (by injection g with g; rw [g]), g2.trans g6⟩
                | ok v =>
                  rw [Ev.bind_ok he]
                  have := last v w (Nat.le_of_lt (uncached_keep u w hlt g6))
                  exact ⟨this.1, g2.trans (g6.trans this.2)⟩

end

mutual

theorem toStr_ends (other : Atom → String) : ∀ e : Expr, toStr other e ≠ .error .recursionError
  | .name .. => by simp [toStr]
  | .attribute value attr load => by
    have h := toStr_ends other value
    rw [toStr]
    cases g : toStr other value with
    | ok t => simp
    | error e => rw [g] at h; simp only; intro h'; exact h (by injection h' with h'; rw [h'])
  | .subscript value slice load => by
    have h := toStr_ends other value
    have h2 := toStr_ends other slice
    rw [toStr]
    cases g : toStr other value with
    | ok t =>
      simp only
      cases g2 : toStr other slice with
      | ok u => simp
      | error e => rw [g2] at h2; simp only; intro h'; exact h2 (by injection h' with h'; rw [h'])
    | error e => rw [g] at h; simp only; intro h'; exact h (by injection h' with h'; rw [h'])
  | .tuple elts load => by
    have h := toStrs_ends other elts
    rw [toStr]
    cases g : toStrs other elts with
    | ok t => simp
    | error e => rw [g] at h; simp only; intro h'; exact h (by injection h' with h'; rw [h'])
  | .list elts => by
    have h := toStrs_ends other elts
    rw [toStr]
    cases g : toStrs other elts with
    | ok t => simp
    | error e => rw [g] at h; simp only; intro h'; exact h (by injection h' with h'; rw [h'])
  | .call .. => by simp [toStr]
  | .constant .. => by simp [toStr]
  | .binOp left op right => by
    have h := toStr_ends other left
    have h2 := toStr_ends other right
    have h3 : operatorText op ≠ .error .recursionError := by
      unfold operatorText; split; · simp
      split; · simp
      split <;> simp
    rw [toStr]
    cases g : toStr other left with
    | ok t =>
      simp only
      cases g2 : toStr other right with
      | ok u =>
        simp only
        cases g3 : operatorText op with
        | ok o => simp
        | error e => rw [g3] at h3; simp only; intro h'; exact h3 (by injection h' with h'; rw [h'])
      | error e => rw [g2] at h2; simp only; intro h'; exact h2 (by injection h' with h'; rw [h'])
    | error e => rw [g] at h; simp only; intro h'; exact h (by injection h' with h'; rw [h'])
  | .other tag [] => by simp [toStr]
  | .other tag [operand] => by
    have h := toStr_ends other operand
    rw [toStr]
    split
    · cases g : toStr other operand with
      | ok t => simp
      | error e => rw [g] at h; simp only; intro h'; exact h (by injection h' with h'; rw [h'])
    · simp
  | .other tag (_ :: _ :: _) => by simp [toStr]

theorem toStrs_ends (other : Atom → String) : ∀ es : List Expr, toStrs other es ≠ .error .recursionError
  | [] => by simp [toStrs]
  | e :: es => by
    have h := toStr_ends other e
    have h2 := toStrs_ends other es
    rw [toStrs]
    cases g : toStr other e with
    | ok t =>
      simp only
      cases g2 : toStrs other es with
      | ok u => simp
      | error e => rw [g2] at h2; simp only; intro h'; exact h2 (by injection h' with h'; rw [h'])
    | error e => rw [g] at h; simp only; intro h'; exact h (by injection h' with h'; rw [h'])

end

theorem lazyExpr_ends (other : Atom → String) : ∀ e : Option Expr,
    lazyExpr other e ≠ .error .recursionError
  | none => by simp [lazyExpr]
  | some e => by
    have h := toStr_ends other e
    rw [lazyExpr]
    cases g : toStr other e with
    | ok t => simp
    | error e => rw [g] at h; simp only; intro h'; exact h (by injection h' with h'; rw [h'])

theorem lazyArg_ends (other : Atom → String) (a : Arg) : lazyArg other a ≠ .error .recursionError := by
  have h := lazyExpr_ends other a.annotation
  unfold lazyArg
  cases g : lazyExpr other a.annotation with
  | ok t => simp
  | error e => rw [g] at h; simp only; intro h'; exact h (by injection h' with h'; rw [h'])

theorem lazyArgOption_ends (other : Atom → String) : ∀ a : Option Arg,
    lazyArgOption other a ≠ .error .recursionError
  | none => by simp [lazyArgOption]
  | some a => by
    have h := lazyArg_ends other a
    rw [lazyArgOption]
    cases g : lazyArg other a with
    | ok t => simp
    | error e => rw [g] at h; simp only; intro h'; exact h (by injection h' with h'; rw [h'])

theorem except_bind_ends {α β : Type} {x : Except PyErr α} {f : α → Except PyErr β}
    (hx : x ≠ .error .recursionError) (hf : ∀ a, f a ≠ .error .recursionError) :
    (x >>= f) ≠ .error .recursionError := by
  cases x with
  | ok a => exact hf a
  | error e => intro h; exact hx (by injection h with h; rw [h])

theorem lazyFunction_ends (other : Atom → String) (f : FunctionDef) :
    lazyFunction other f ≠ .error .recursionError := by
  unfold lazyFunction
  refine except_bind_ends (lazyExpr_ends _ _) fun _ => except_bind_ends
    (mapExcept_ends _ fun _ _ => lazyArg_ends _ _) fun _ => except_bind_ends
    (mapExcept_ends _ fun _ _ => lazyArg_ends _ _) fun _ => except_bind_ends
    (lazyArgOption_ends _ _) fun _ => except_bind_ends
    (mapExcept_ends _ fun _ _ => lazyArg_ends _ _) fun _ => except_bind_ends
    (lazyArgOption_ends _ _) fun _ => ?_
  intro h; cases h

section

variable {V : Type} {W : Interpreter V} {T : Stubs} {depth : Nat} {other : Atom → String}
  {look : QPath → Ev V V} (hW : NoRecursion W)
  (hres : ∀ m parent path, resolve T.toTables depth m parent path [] ≠ .error .recursionError)
  {U : List QPath} {M : List Path} {k : Nat}
  (hlook : ∀ q, Ends (fun s => uncached U M s < k) (look q))

include hW hres hlook

theorem evalStmt_terminates (m parent : Path) (node : Stmt) (hne : ∀ e, node ≠ .assign [] e)
    (hU : ∀ id ∈ assignedNames node, ∀ q, resolve T.toTables depth m parent [id] [] = .ok q → q ∈ U) :
    Ends (fun s => uncached U M s ≤ k) (evalStmt W T depth other look m parent node) := by
  cases node with
  | annAssign target annotation value =>
    rw [evalStmt]
    refine evalAssign_terminates hW hres hlook m parent [target] value (by simp) fun t ht name hname => ?_
    rw [List.mem_singleton] at ht
    subst ht
    cases t with
    | name id load =>
      rw [targetName] at hname
      split at hname
      · cases hname
      · injection hname with hname; subst hname; exact hU _ (by simp [assignedNames])
    | _ => cases hname
  | assign targets value =>
    rw [evalStmt]
    refine evalAssign_terminates hW hres hlook m parent targets _ (fun e => hne value (by rw [e]))
      fun t ht name hname => ?_
    cases t with
    | name id load =>
      rw [targetName] at hname
      split at hname
      · cases hname
      · injection hname with hname; subst hname
        exact hU _ (by simp only [assignedNames, List.mem_filterMap]; exact ⟨_, ht, rfl⟩)
    | _ => cases hname
  | functionDef f =>
    rw [evalStmt]
    exact Ends.bind uncached_keep' (Ends.lift (lazyFunction_ends other f)) fun f =>
      Ends.bind uncached_keep' Ends.get fun s =>
        Ends.bind uncached_keep' (Ends.lift (hW.define _ _)) fun v =>
          Ends.bind uncached_keep' (Ends.putName _ _) fun _ => Ends.pure _
  | _ => rw [evalStmt] <;> first | exact Ends.raise (by simp) | (intros; rename_i h; cases h) | (intros; intro h; cases h)

theorem evalNodes_terminates (m path : Path) : ∀ (nodes : List Stmt) (v : Option V),
    (∀ node ∈ nodes, ∀ e, node ≠ .assign [] e) →
    (∀ node ∈ nodes, ∀ id ∈ assignedNames node, ∀ q,
      resolve T.toTables depth m path.dropLast [id] [] = .ok q → q ∈ U) →
    Ends (fun s => uncached U M s ≤ k) (evalNodes W T depth other look m path v nodes)
  | [], none, _, _ => by rw [evalNodes]; exact Ends.raise (by simp)
  | [], some v, _, _ => by rw [evalNodes]; exact Ends.pure _
  | node :: nodes, v, hne, hU => by
    have : evalNodes W T depth other look m path v (node :: nodes) = (do
        let v ← evalStmt W T depth other look m path.dropLast node
        putName (path.getLast?.getD "") v
        evalNodes W T depth other look m path (some v) nodes) := by
      cases v <;> rw [evalNodes]
    rw [this]
    exact Ends.bind uncached_keep' (evalStmt_terminates hW hres hlook m _ node (hne node (by simp))
      (hU node (by simp))) fun v => Ends.bind uncached_keep' (Ends.putName _ _) fun _ =>
        evalNodes_terminates m path nodes (some v) (fun n hn => hne n (by simp [hn]))
          (fun n hn => hU n (by simp [hn]))

end

theorem getKey_ends {α β : Type} [BEq α] (d : Dict α β) (k : α) : getKey d k ≠ .error .recursionError := by
  unfold getKey
  cases d.lookup k <;> simp

theorem mem_of_lookup {α β : Type} [BEq α] [LawfulBEq α] {k : α} {v : β} : ∀ {d : Dict α β},
    d.lookup k = some v → (k, v) ∈ d
  | [], h => by cases h
  | (a, b) :: d, h => by
    rw [List.lookup_cons] at h
    split at h
    · rename_i g
      cases h
      rw [beq_iff_eq] at g
      subst g
      exact .head _
    · exact .tail _ (mem_of_lookup h)

section

variable {V : Type} {W : Interpreter V} {T : Stubs} {depth : Nat} {other : Atom → String}
  (hW : NoRecursion W)
  (hres : ∀ m parent path, resolve T.toTables depth m parent path [] ≠ .error .recursionError)
  (hcls : ∀ q, runtimeObject W q = .ok none → ∀ kinds, T.nodesKinds.lookup q.1 = some kinds →
    kinds.lookup q.2 ≠ some .class_)
  (hne : ∀ nodes ∈ T.rawAstNodes, ∀ entry ∈ nodes.2, ∀ node ∈ entry.2, ∀ e, node ≠ .assign [] e)

include hW in
theorem searchObject_ends : ∀ (path : Path) (v : V), searchObject W v path ≠ .error .recursionError
  | [], v => by simp [searchObject]
  | name :: names, v => by
    rw [searchObject]
    have h := hW.getattr v name
    cases g : W.getattr v name with
    | ok w => exact searchObject_ends names w
    | error e => rw [g] at h; cases e <;> simp_all

include hW in
theorem follow_ends : ∀ (path : Path) (v : V), follow W v path ≠ .error .objectNotFound
  | [], v => by simp [follow]
  | name :: names, v => by
    rw [follow]
    have h := hW.hidden v name
    cases g : W.getattr v name with
    | ok w => exact follow_ends names w
    | error e => rw [g] at h; simp only; intro h'; exact h (by injection h' with h'; rw [h'])

include hW hres hcls hne

/-- A stub object that is no class. -/
theorem evalStub_terminates {look : QPath → Ev V V} {M : List Path} {k : Nat}
    (hlook : ∀ q, Ends (fun s => uncached (assignedObjects T depth) M s < k) (look q))
    {m path : Path} (hq : runtimeObject W (m, path) = .ok none) :
    Ends (fun s => uncached (assignedObjects T depth) M s ≤ k)
      (evalStub W T depth other look m path) := by
  unfold evalStub
  refine Ends.bind uncached_keep' Ends.get fun s => ?_
  split
  · exact Ends.pure _
  · cases hn : T.rawAstNodes.lookup m with
    | none =>
      have : getKey T.rawAstNodes m = .error .keyError := by unfold getKey; rw [hn]
      rw [this]
      exact fun s _ => by
        rw [Ev.bind_error (show (Ev.lift (Except.error .keyError) : Ev V _) s = _ from rfl)]
        exact ⟨(by intro h; cases h), EvalGrows.refl s⟩
    | some nodes =>
      have : getKey T.rawAstNodes m = .ok nodes := by unfold getKey; rw [hn]
      rw [this]
      intro s hs
      rw [Ev.bind_ok (show (Ev.lift (Except.ok nodes) : Ev V _) s = _ from rfl)]
      cases hk : T.nodesKinds.lookup m with
      | none =>
        have : getKey T.nodesKinds m = .error .keyError := by unfold getKey; rw [hk]
        rw [this, Ev.bind_error (show (Ev.lift (Except.error .keyError) : Ev V _) s = _ from rfl)]
        exact ⟨(by intro h; cases h), EvalGrows.refl s⟩
      | some kinds =>
        have : getKey T.nodesKinds m = .ok kinds := by unfold getKey; rw [hk]
        rw [this, Ev.bind_ok (show (Ev.lift (Except.ok kinds) : Ev V _) s = _ from rfl)]
        have hc := hcls (m, path) hq kinds hk
        cases hkd : kinds.lookup path with
        | none =>
          have : getKey kinds path = .error .keyError := by unfold getKey; rw [hkd]
          rw [this, Ev.bind_error (show (Ev.lift (Except.error .keyError) : Ev V _) s = _ from rfl)]
          exact ⟨(by intro h; cases h), EvalGrows.refl s⟩
        | some kind =>
          have : getKey kinds path = .ok kind := by unfold getKey; rw [hkd]
          rw [this, Ev.bind_ok (show (Ev.lift (Except.ok kind) : Ev V _) s = _ from rfl)]
          have hkc : kind ≠ .class_ := fun e => hc (by simp only; rw [hkd, e])
          cases hp : nodes.lookup path with
          | none =>
            simp only
            rw [if_pos hkc]
            exact ⟨(by intro h; cases h), EvalGrows.refl s⟩
          | some stmts =>
            simp only
            rw [if_pos hkc]
            have h1 := mem_of_lookup hn
            have h2 := mem_of_lookup hp
            refine evalNodes_terminates hW hres hlook m path stmts none (hne _ h1 _ h2)
              (fun node hnode id hid q hres => ?_) s hs
            unfold assignedObjects
            rw [List.mem_flatMap]
            refine ⟨_, h1, ?_⟩
            rw [List.mem_flatMap]
            refine ⟨_, h2, ?_⟩
            rw [List.mem_flatMap]
            refine ⟨node, hnode, ?_⟩
            rw [List.mem_filterMap]
            exact ⟨id, hid, by rw [hres]; rfl⟩

theorem evalNames_terminates {look : QPath → Ev V V} {I : EvalState V → Prop}
    (keep : ∀ s t, I s → EvalGrows s t → I t) (hlook : ∀ q, Ends I (look q)) (m : Path) (module : V) :
    ∀ names : List String, Ends I (evalNames look m module names)
  | [] => Ends.pure _
  | name :: names => by
    rw [evalNames]
    exact Ends.bind keep (hlook _) fun v => Ends.bind keep (Ends.putName _ _) fun _ =>
      Ends.bind keep (Ends.modify fun s => ⟨fun _ h => h, fun _ h => h⟩) fun _ =>
        evalNames_terminates keep hlook m module names

/-- As many nested calls are enough as there are objects assigned to and modules, plus one. -/
theorem evalPath_terminates : ∀ (n : Nat) (q : QPath),
    Ends (fun s => uncached (assignedObjects T depth) (T.definitions.map Prod.fst) s < n)
      (evalPath W T depth other n q)
  | 0, _ => fun s h => absurd h (Nat.not_lt_zero _)
  | n + 1, (m, path) => by
    have ih := evalPath_terminates n
    rw [evalPath]
    intro s hs
    have hs' : uncached (assignedObjects T depth) (T.definitions.map Prod.fst) s ≤ n :=
      Nat.lt_succ_iff.1 hs
    have hi := hW.importModule m
    cases h : W.importModule m with
    | error e =>
      rw [h] at hi
      rw [Ev.bind_error (show (Ev.lift (Except.error e) : Ev V _) s = _ from rfl)]
      exact ⟨fun g => hi (by injection g with g; rw [g]), EvalGrows.refl s⟩
    | ok o =>
      rw [Ev.bind_ok (show (Ev.lift (Except.ok o) : Ev V _) s = _ from rfl)]
      cases o with
      | none =>
        simp only
        by_cases hp : path.isEmpty = true
        · rw [if_pos hp, Ev.bind_ok (show Ev.get s = (.ok s, s) from rfl)]
          cases hm : s.modules.lookup m with
          | some v => exact ⟨(by intro h; cases h), EvalGrows.refl s⟩
          | none =>
            simp only
            rw [Ev.bind_ok (show (Ev.modify fun s : EvalState V =>
              { s with modules := dictPut m (W.newModule m) s.modules }) s = _ from rfl)]
            have hg : EvalGrows s { s with modules := dictPut m (W.newModule m) s.modules } :=
              ⟨fun _ h => h, fun r h => dictPut_some m _ s.modules r h⟩
            cases hd : T.definitions.lookup m with
            | none =>
              have : getKey T.definitions m = .error .keyError := by unfold getKey; rw [hd]
              rw [this, Ev.bind_error (show (Ev.lift (Except.error .keyError) : Ev V _) _ = _ from rfl)]
              exact ⟨(by intro h; cases h), hg⟩
            | some scope =>
              have : getKey T.definitions m = .ok scope := by unfold getKey; rw [hd]
              rw [this, Ev.bind_ok (show (Ev.lift (Except.ok scope) : Ev V _) _ = _ from rfl)]
              have hlt := hg.uncached_lt_modules (assignedObjects T depth)
                (M := T.definitions.map Prod.fst) (List.mem_map.2 ⟨_, mem_of_lookup hd, rfl⟩) hm
                (by simp [lookup_dictPut])
              have := Ends.bind (uncached_keep (k := n)) (evalNames_terminates hW hres hcls hne uncached_keep ih m
                (W.newModule m) scope.names) (fun _ => Ends.pure (W.newModule m)) _
                (Nat.lt_of_lt_of_le hlt hs')
              exact ⟨this.1, hg.trans this.2⟩
        · rw [if_neg hp]
          refine evalStub_terminates hW hres hcls hne ih ?_ s hs'
          unfold runtimeObject
          rw [h]
      | some module =>
        simp only
        have hf := searchObject_of_follow (W := W) (path := path) (v := module) rfl
        have he := searchObject_ends hW path module
        cases hso : searchObject W module path with
        | ok v => exact ⟨(by intro h; cases h), EvalGrows.refl s⟩
        | error e =>
          rw [hso] at hf he
          cases e with
          | objectNotFound =>
            refine evalStub_terminates hW hres hcls hne ih ?_ s hs'
            unfold runtimeObject
            rw [h]
            simp only
            cases hfo : follow W module path with
            | ok v => rw [hfo] at hf; cases hf
            | error x =>
              rw [hfo] at hf
              cases x <;> first
                | rfl
                | exact absurd hfo (follow_ends hW path module)
                | cases hf
          | recursionError => exact absurd rfl he
          | _ => exact ⟨(by intro h; cases h), EvalGrows.refl s⟩

end

end Paradigm
