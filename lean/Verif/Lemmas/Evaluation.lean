import Verif.Spec.Evaluation

/-!
# Lemmas about evaluating expressions
-/

namespace Paradigm

open Spec

namespace Ev

variable {V α β : Type}

theorem bind_ok {x : Ev V α} {f : α → Ev V β} {s t : EvalState V} {a : α} (h : x s = (.ok a, t)) :
    (x >>= f) s = f a t := by
  show Ev.bind x f s = _
  unfold Ev.bind
  rw [h]

theorem bind_error {x : Ev V α} {f : α → Ev V β} {s t : EvalState V} {e : PyErr}
    (h : x s = (.error e, t)) : (x >>= f) s = (.error e, t) := by
  show Ev.bind x f s = _
  unfold Ev.bind
  rw [h]

theorem bind_cases {x : Ev V α} {f : α → Ev V β} {s t : EvalState V} {r : Except PyErr β}
    (h : (x >>= f) s = (r, t)) :
    (∃ a u, x s = (.ok a, u) ∧ f a u = (r, t)) ∨ ∃ e, x s = (.error e, t) ∧ r = .error e := by
  cases hx : x s with
  | mk o u =>
    cases o with
    | ok a => exact .inl ⟨a, u, rfl, by rw [bind_ok hx] at h; exact h⟩
    | error e =>
      rw [bind_error hx] at h
      cases h
      exact .inr ⟨e, rfl, rfl⟩

theorem bind_ok_inv {x : Ev V α} {f : α → Ev V β} {s t : EvalState V} {b : β}
    (h : (x >>= f) s = (.ok b, t)) : ∃ a u, x s = (.ok a, u) ∧ f a u = (.ok b, t) := by
  rcases bind_cases h with h | ⟨e, _, h⟩
  · exact h
  · cases h

theorem lift_ok {x : Except PyErr α} {a : α} (h : x = .ok a) (s : EvalState V) :
    Ev.lift x s = (.ok a, s) := by
  rw [h]
  rfl

end Ev

theorem lookup_dictPut {α β : Type} [BEq α] [LawfulBEq α] [DecidableEq α] (k k' : α) (v : β) :
    ∀ d : Dict α β, (dictPut k v d).lookup k' = if k' = k then some v else d.lookup k'
  | [] => by
    unfold dictPut
    by_cases h : k' = k
    · subst h; simp
    · have : (k' == k) = false := by simpa using h
      simp [List.lookup, this, h]
  | (a, b) :: d => by
    unfold dictPut
    by_cases h : a = k
    · subst h
      simp only [beq_self_eq_true, if_true]
      by_cases g : k' = a
      · subst g; simp
      · have : (k' == a) = false := by simpa using g
        simp [List.lookup, this, g]
    · have hk : (a == k) = false := by simpa using h
      simp only [hk, Bool.false_eq_true, if_false]
      by_cases g : k' = a
      · subst g
        rw [if_neg h]
        simp
      · have hb : (k' == a) = false := by simpa using g
        simp only [List.lookup, hb]
        exact lookup_dictPut k k' v d

theorem dictPut_new {α β : Type} [BEq α] [LawfulBEq α] (k : α) (v : β) :
    ∀ d : Dict α β, k ∉ d.map Prod.fst → dictPut k v d = d ++ [(k, v)]
  | [], _ => rfl
  | (a, b) :: d, h => by
    unfold dictPut
    have h1 : ¬ k = a := fun e => h (by simp [e])
    have h2 : k ∉ d.map Prod.fst := fun e => h (by simp only [List.map_cons]; exact .tail _ e)
    have hk : (a == k) = false := by simpa using fun e => h1 e.symm
    simp only [hk, Bool.false_eq_true, if_false, List.cons_append]
    rw [dictPut_new k v d h2]

theorem foldl_dictPut {α β : Type} [BEq α] [LawfulBEq α] : ∀ (kvs d : Dict α β),
    ((d ++ kvs).map Prod.fst).Nodup → kvs.foldl (fun d kv => dictPut kv.1 kv.2 d) d = d ++ kvs
  | [], d, _ => by simp
  | (k, v) :: kvs, d, h => by
    have hk : k ∉ d.map Prod.fst := by
      intro hm
      rw [List.map_append, List.nodup_append] at h
      exact h.2.2 k hm k (by simp) rfl
    rw [List.foldl_cons, dictPut_new k v d hk,
      foldl_dictPut kvs (d ++ [(k, v)]) (by simpa [List.append_assoc] using h)]
    simp

theorem kwargsOf_nodup {V : Type} {kvs : List (Option String × V)}
    (h : (kvs.map Prod.fst).Nodup) : kwargsOf kvs = kvs := by
  unfold kwargsOf
  rw [foldl_dictPut kvs [] (by simpa using h)]
  rfl

theorem pyKeywords_keys {V : Type} {W : Interpreter V} {env : String → Option V} :
    ∀ {kws : List (Option String × Expr)} {kvs : List (Option String × V)},
    pyKeywords W env kws = .ok kvs → kvs.map Prod.fst = kws.map Prod.fst
  | [], kvs, h => by
    rw [pyKeywords] at h
    cases h
    rfl
  | (k, e) :: kws, kvs, h => by
    rw [pyKeywords] at h
    cases h1 : pyEval W env e with
    | error x => rw [h1] at h; cases h
    | ok v =>
      cases h2 : pyKeywords W env kws with
      | error x => rw [h1, h2] at h; cases h
      | ok vs =>
        rw [h1, h2] at h
        cases h
        simp [pyKeywords_keys h2]

theorem evalBinary_of_ok {V : Type} {W : Interpreter V} {op : String} {l r v : V}
    (hop : op = "BitOr" ∨ op = "BitAnd" ∨ op = "BitXor") (h : W.binary op l r = .ok v) :
    evalBinary W op l r = .ok v := by
  have : binaryOperator op = .ok () := by
    unfold binaryOperator
    rw [if_pos (by rcases hop with h | h | h <;> simp [h])]
  unfold evalBinary
  rw [this]
  simp only [h]

theorem evalItem_of_ok {V : Type} {W : Interpreter V} {x i v : V} (h : W.getitem x i = .ok v) :
    evalItem W x i = .ok v := by
  unfold evalItem
  rw [h]

section

variable {V : Type} (W : Interpreter V) (T : Stubs) (depth : Nat) (look : QPath → Ev V V) (m parent : Path)
  (env : String → Option V)

theorem evalExpr_dict (children : List Expr) :
    evalExpr W T depth look m parent (.other "Dict" children) =
      (evalEntries W T depth look m parent children >>= fun entries => Ev.lift (W.dict entries)) := by
  match children with
  | [] => rw [evalExpr]; · rfl
          · intro _ h; cases h
  | [_] => rw [evalExpr]; rfl
  | _ :: _ :: _ => rw [evalExpr]; · rfl
                   · intro _ h; cases h

theorem evalExpr_unary {tag : String} (h : tag = "UnaryOp USub" ∨ tag = "UnaryOp UAdd")
    (operand : Expr) :
    evalExpr W T depth look m parent (.other tag [operand]) =
      (evalExpr W T depth look m parent operand >>= fun v => Ev.lift (W.unary tag v)) := by
  rw [evalExpr, if_pos h]

theorem evalExpr_other {tag : String} (h : tag ≠ "Dict") {children : List Expr}
    (h' : ∀ operand, ¬ ((tag = "UnaryOp USub" ∨ tag = "UnaryOp UAdd") ∧ children = [operand])) :
    ∃ e, evalExpr W T depth look m parent (.other tag children) = Ev.raise e := by
  match children, h' with
  | [], _ =>
    rw [evalExpr]
    · split
      · exact ⟨_, rfl⟩
      · split <;> exact ⟨_, rfl⟩
    · intro _ h; cases h
  | [o], h' =>
    rw [evalExpr, if_neg fun g => h' o ⟨g, rfl⟩, if_neg h]
    split <;> exact ⟨_, rfl⟩
  | _ :: _ :: _, _ =>
    rw [evalExpr]
    · split
      · exact ⟨_, rfl⟩
      · split <;> exact ⟨_, rfl⟩
    · intro _ h; cases h

theorem pyEval_dict (children : List Expr) :
    pyEval W env (.other "Dict" children) =
      match pyEntries W env children with
      | .ok kvs => W.dict kvs
      | .error e => .error e := by
  match children with
  | [] =>
    rw [pyEval]
    · rw [if_pos rfl]
      all_goals (cases pyEntries W env _ <;> rfl)
    · intro _ h; cases h
  | [_] =>
    rw [pyEval, if_pos rfl]
    all_goals (cases pyEntries W env _ <;> rfl)
  | _ :: _ :: _ =>
    rw [pyEval]
    · rw [if_pos rfl]
      all_goals (cases pyEntries W env _ <;> rfl)
    · intro _ h; cases h

theorem pyEval_unary {tag : String} (h : tag = "UnaryOp USub" ∨ tag = "UnaryOp UAdd")
    (operand : Expr) :
    pyEval W env (.other tag [operand]) =
      match pyEval W env operand with
      | .ok v => W.unary tag v
      | .error e => .error e := by
  rw [pyEval, if_neg (by rcases h with h | h <;> rw [h] <;> decide), if_pos h]
  all_goals (cases pyEval W env operand <;> rfl)

theorem pyEval_other {tag : String} (h : tag ≠ "Dict") {children : List Expr}
    (h' : ∀ operand, ¬ ((tag = "UnaryOp USub" ∨ tag = "UnaryOp UAdd") ∧ children = [operand])) :
    pyEval W env (.other tag children) = .error (.typeError "not specified") := by
  match children, h' with
  | [], _ =>
    rw [pyEval]
    · rw [if_neg h]; split <;> rfl
    · intro _ h; cases h
  | [o], h' => rw [pyEval, if_neg h, if_neg fun g => h' o ⟨g, rfl⟩]
  | _ :: _ :: _, _ =>
    rw [pyEval]
    · rw [if_neg h]; split <;> rfl
    · intro _ h; cases h

theorem evalEntries_short {es : List Expr} (h : ∀ a b cs, es ≠ a :: b :: cs) :
    evalEntries W T depth look m parent es = Ev.pure [] := by
  match es, h with
  | [], _ => rw [evalEntries]; intro _ _ _ h; cases h
  | [_], _ => rw [evalEntries]; intro _ _ _ h; cases h
  | a :: b :: cs, h => exact absurd rfl (h a b cs)

theorem pyEntries_short {es : List Expr} (h : ∀ a b cs, es ≠ a :: b :: cs) :
    pyEntries W env es = .ok [] := by
  match es, h with
  | [], _ => rw [pyEntries]; intro _ _ _ h; cases h
  | [_], _ => rw [pyEntries]; intro _ _ _ h; cases h
  | a :: b :: cs, h => exact absurd rfl (h a b cs)

/-- The kinds of `.other` nodes. -/
theorem other_cases (tag : String) (children : List Expr) :
    tag = "Dict" ∨ (tag ≠ "Dict" ∧
      ((∃ operand, (tag = "UnaryOp USub" ∨ tag = "UnaryOp UAdd") ∧ children = [operand]) ∨
      ∀ operand, ¬ ((tag = "UnaryOp USub" ∨ tag = "UnaryOp UAdd") ∧ children = [operand]))) := by
  by_cases g : tag = "Dict"
  · exact .inl g
  · by_cases h : ∃ operand, (tag = "UnaryOp USub" ∨ tag = "UnaryOp UAdd") ∧ children = [operand]
    · exact .inr ⟨g, .inl h⟩
    · exact .inr ⟨g, .inr fun o ho => h ⟨o, ho⟩⟩

end

section

variable {V : Type} {W : Interpreter V} {T : Stubs} {depth : Nat} {look : QPath → Ev V V} {m parent : Path}
  {env : String → Option V} {I : EvalState V → Prop} {R : EvalState V → EvalState V → Prop}
  (refl : ∀ s, R s s) (trans : ∀ s t u, R s t → R t u → R s u) (keep : ∀ s t, I s → R s t → I t)
  (hlook : ∀ id v, env id = some v → ∀ s, I s →
    ∃ t, (evResolve T depth m parent [id] >>= look) s = (.ok v, t) ∧ R s t)

include refl trans keep hlook

mutual

/-- Where Python's evaluation gives a value, the evaluator gives it too. -/
theorem evalExpr_of_pyEval : ∀ (e : Expr) (v : V), BitOps e → pyEval W env e = .ok v →
    ∀ s, I s → ∃ t, evalExpr W T depth look m parent e s = (.ok v, t) ∧ R s t
  | .name id load, v, _, h, s, hs => by
    cases load with
    | false => rw [pyEval] at h; cases h
    | true =>
      rw [pyEval] at h
      cases hid : env id with
      | none => rw [hid] at h; cases h
      | some w =>
        rw [hid] at h
        cases h
        rw [evalExpr]
        exact hlook id v hid s hs
  | .attribute value attr load, v, b, h, s, hs => by
    cases load with
    | false => rw [pyEval] at h; cases h
    | true =>
      rw [pyEval] at h
      rw [BitOps] at b
      cases h1 : pyEval W env value with
      | error e => rw [h1] at h; cases h
      | ok w =>
        rw [h1] at h
        obtain ⟨t, ht, hr⟩ := evalExpr_of_pyEval value w b h1 s hs
        refine ⟨t, ?_, hr⟩
        rw [evalExpr]
        rw [Bool.not_true, if_neg (by simp), Ev.bind_ok ht]
        simp only at h
        rw [h]
        rfl
  | .subscript value slice load, v, b, h, s, hs => by
    cases load with
    | false => rw [pyEval] at h; cases h
    | true =>
      rw [pyEval] at h
      rw [BitOps] at b
      cases h1 : pyEval W env value with
      | error e => rw [h1] at h; cases h
      | ok w =>
        cases h2 : pyEval W env slice with
        | error e => rw [h1, h2] at h; cases h
        | ok i =>
          rw [h1, h2] at h
          obtain ⟨t, ht, hr⟩ := evalExpr_of_pyEval value w b.1 h1 s hs
          obtain ⟨u, hu, hr'⟩ := evalExpr_of_pyEval slice i b.2 h2 t (keep s t hs hr)
          refine ⟨u, ?_, trans _ _ _ hr hr'⟩
          rw [evalExpr]
          rw [Bool.not_true, if_neg (by simp), Ev.bind_ok ht, Ev.bind_ok hu]
          exact Ev.lift_ok (evalItem_of_ok h) u
  | .tuple elts load, v, b, h, s, hs => by
    cases load with
    | false => rw [pyEval] at h; cases h
    | true =>
      rw [pyEval] at h
      rw [BitOps] at b
      cases h1 : pyEvals W env elts with
      | error e => rw [h1] at h; cases h
      | ok vs =>
        rw [h1] at h
        cases h
        obtain ⟨t, ht, hr⟩ := evalExprs_of_pyEval elts vs b h1 s hs
        refine ⟨t, ?_, hr⟩
        rw [evalExpr]
        rw [Bool.not_true, if_neg (by simp), Ev.bind_ok ht]
        rfl
  | .list elts, v, b, h, s, hs => by
    rw [pyEval] at h
    rw [BitOps] at b
    cases h1 : pyEvals W env elts with
    | error e => rw [h1] at h; cases h
    | ok vs =>
      rw [h1] at h
      cases h
      obtain ⟨t, ht, hr⟩ := evalExprs_of_pyEval elts vs b h1 s hs
      refine ⟨t, ?_, hr⟩
      rw [evalExpr, Ev.bind_ok ht]
      rfl
  | .call func args keywords, v, b, h, s, hs => by
    rw [pyEval] at h
    rw [BitOps] at b
    by_cases g : (keywords.map Prod.fst).Nodup ∧ none ∉ keywords.map Prod.fst
    · rw [if_pos g] at h
      cases h1 : pyEval W env func with
      | error e => rw [h1] at h; cases h
      | ok f =>
        cases h2 : pyEvals W env args with
        | error e => rw [h1, h2] at h; cases h
        | ok vs =>
          cases h3 : pyKeywords W env keywords with
          | error e => rw [h1, h2, h3] at h; cases h
          | ok kvs =>
            rw [h1, h2, h3] at h
            obtain ⟨t1, e1, r1⟩ := evalExprs_of_pyEval args vs b.2.1 h2 s hs
            obtain ⟨t2, e2, r2⟩ := evalKeywords_of_pyEval keywords kvs b.2.2 h3 t1 (keep _ _ hs r1)
            obtain ⟨t3, e3, r3⟩ :=
              evalExpr_of_pyEval func f b.1 h1 t2 (keep _ _ (keep _ _ hs r1) r2)
            refine ⟨t3, ?_, trans _ _ _ r1 (trans _ _ _ r2 r3)⟩
            rw [evalExpr, Ev.bind_ok e1, Ev.bind_ok e2, Ev.bind_ok e3]
            rw [kwargsOf_nodup (by rw [pyKeywords_keys h3]; exact g.1)]
            exact Ev.lift_ok h t3
    · rw [if_neg g] at h
      cases h
  | .constant a, v, _, h, s, hs => by
    rw [pyEval] at h
    cases h
    exact ⟨s, by rw [evalExpr]; rfl, refl s⟩
  | .binOp left op right, v, b, h, s, hs => by
    rw [pyEval] at h
    rw [BitOps] at b
    cases h1 : pyEval W env left with
    | error e => rw [h1] at h; cases h
    | ok w =>
      cases h2 : pyEval W env right with
      | error e => rw [h1, h2] at h; cases h
      | ok i =>
        rw [h1, h2] at h
        obtain ⟨t, ht, hr⟩ := evalExpr_of_pyEval left w b.2.1 h1 s hs
        obtain ⟨u, hu, hr'⟩ := evalExpr_of_pyEval right i b.2.2 h2 t (keep s t hs hr)
        refine ⟨u, ?_, trans _ _ _ hr hr'⟩
        rw [evalExpr, Ev.bind_ok ht, Ev.bind_ok hu]
        exact Ev.lift_ok (evalBinary_of_ok b.1 h) u
  | .other tag children, v, b, h, s, hs => by
    rw [BitOps] at b
    rcases other_cases tag children with g | ⟨g, ⟨operand, g', rfl⟩ | g'⟩
    · subst g
      rw [pyEval_dict] at h
      cases h1 : pyEntries W env children with
      | error e => rw [h1] at h; cases h
      | ok kvs =>
        rw [h1] at h
        obtain ⟨t, ht, hr⟩ := evalEntries_of_pyEval children kvs b h1 s hs
        refine ⟨t, ?_, hr⟩
        rw [evalExpr_dict, Ev.bind_ok ht]
        exact Ev.lift_ok h t
    · rw [pyEval_unary W env g'] at h
      rw [BitOpsAll] at b
      cases h1 : pyEval W env operand with
      | error e => rw [h1] at h; cases h
      | ok w =>
        rw [h1] at h
        obtain ⟨t, ht, hr⟩ := evalExpr_of_pyEval operand w b.1 h1 s hs
        refine ⟨t, ?_, hr⟩
        rw [evalExpr_unary W T depth look m parent g', Ev.bind_ok ht]
        exact Ev.lift_ok h t
    · rw [pyEval_other W env g g'] at h
      cases h

theorem evalExprs_of_pyEval : ∀ (es : List Expr) (vs : List V), BitOpsAll es →
    pyEvals W env es = .ok vs →
    ∀ s, I s → ∃ t, evalExprs W T depth look m parent es s = (.ok vs, t) ∧ R s t
  | [], vs, _, h, s, hs => by
    rw [pyEvals] at h
    cases h
    exact ⟨s, by rw [evalExprs]; rfl, refl s⟩
  | e :: es, vs, b, h, s, hs => by
    rw [pyEvals] at h
    rw [BitOpsAll] at b
    cases h1 : pyEval W env e with
    | error e => rw [h1] at h; cases h
    | ok w =>
      cases h2 : pyEvals W env es with
      | error e => rw [h1, h2] at h; cases h
      | ok ws =>
        rw [h1, h2] at h
        cases h
        obtain ⟨t, ht, hr⟩ := evalExpr_of_pyEval e w b.1 h1 s hs
        obtain ⟨u, hu, hr'⟩ := evalExprs_of_pyEval es ws b.2 h2 t (keep s t hs hr)
        refine ⟨u, ?_, trans _ _ _ hr hr'⟩
        rw [evalExprs, Ev.bind_ok ht, Ev.bind_ok hu]
        rfl

theorem evalKeywords_of_pyEval : ∀ (es : List (Option String × Expr)) (vs : List (Option String × V)),
    BitOpsKw es → pyKeywords W env es = .ok vs →
    ∀ s, I s → ∃ t, evalKeywords W T depth look m parent es s = (.ok vs, t) ∧ R s t
  | [], vs, _, h, s, hs => by
    rw [pyKeywords] at h
    cases h
    exact ⟨s, by rw [evalKeywords]; rfl, refl s⟩
  | (k, e) :: es, vs, b, h, s, hs => by
    rw [pyKeywords] at h
    rw [BitOpsKw] at b
    cases h1 : pyEval W env e with
    | error e => rw [h1] at h; cases h
    | ok w =>
      cases h2 : pyKeywords W env es with
      | error e => rw [h1, h2] at h; cases h
      | ok ws =>
        rw [h1, h2] at h
        cases h
        obtain ⟨t, ht, hr⟩ := evalExpr_of_pyEval e w b.1 h1 s hs
        obtain ⟨u, hu, hr'⟩ := evalKeywords_of_pyEval es ws b.2 h2 t (keep s t hs hr)
        refine ⟨u, ?_, trans _ _ _ hr hr'⟩
        rw [evalKeywords, Ev.bind_ok ht, Ev.bind_ok hu]
        rfl

theorem evalEntries_of_pyEval : ∀ (es : List Expr) (vs : List (V × V)),
    BitOpsAll es → pyEntries W env es = .ok vs →
    ∀ s, I s → ∃ t, evalEntries W T depth look m parent es s = (.ok vs, t) ∧ R s t
  | [], vs, _, h, s, hs => by
    rw [pyEntries_short W env (by intro _ _ _ h; cases h)] at h
    cases h
    refine ⟨s, ?_, refl s⟩
    rw [evalEntries_short W T depth look m parent (by intro _ _ _ h; cases h)]
    rfl
  | [e], vs, _, h, s, hs => by
    rw [pyEntries_short W env (by intro _ _ _ h; cases h)] at h
    cases h
    refine ⟨s, ?_, refl s⟩
    rw [evalEntries_short W T depth look m parent (by intro _ _ _ h; cases h)]
    rfl
  | k :: e :: es, vs, b, h, s, hs => by
    rw [pyEntries] at h
    rw [BitOpsAll, BitOpsAll] at b
    cases h0 : pyEval W env k with
    | error e => rw [h0] at h; cases h
    | ok x =>
      cases h1 : pyEval W env e with
      | error e => rw [h0, h1] at h; cases h
      | ok w =>
        cases h2 : pyEntries W env es with
        | error e => rw [h0, h1, h2] at h; cases h
        | ok ws =>
          rw [h0, h1, h2] at h
          cases h
          obtain ⟨t0, e0, r0⟩ := evalExpr_of_pyEval k x b.1 h0 s hs
          obtain ⟨t, ht, hr⟩ := evalExpr_of_pyEval e w b.2.1 h1 t0 (keep _ _ hs r0)
          obtain ⟨u, hu, hr'⟩ := evalEntries_of_pyEval es ws b.2.2 h2 t (keep _ _ (keep _ _ hs r0) hr)
          refine ⟨u, ?_, trans _ _ _ r0 (trans _ _ _ hr hr')⟩
          rw [evalEntries, Ev.bind_ok e0, Ev.bind_ok ht, Ev.bind_ok hu]
          rfl

end

end

end Paradigm
