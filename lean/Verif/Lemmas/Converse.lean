import Verif.Lemmas.Lenient

/-!
# Values of the evaluator are values of Python, and where the state stays the same
-/

namespace Paradigm

open Spec

section

variable {V : Type} {W : Interpreter V}

theorem evalItem_ok_inv {x i v : V} (h : evalItem W x i = .ok v) :
    (lenient W).getitem x i = .ok v := by
  unfold evalItem at h
  show (match W.getitem x i with | .error (.typeError _) => Except.ok x | r => r) = .ok v
  cases hg : W.getitem x i with
  | ok w => rw [hg] at h; exact h
  | error e => rw [hg] at h; cases e <;> first | exact h | cases h

theorem evalBinary_ok_inv {op : String} {l r v : V} (h : evalBinary W op l r = .ok v) :
    (lenient W).binary op l r = .ok v := by
  unfold evalBinary at h
  show (match W.binary op l r with
    | .error (.typeError tag) => if op = "BitOr" then W.union l r else .error (.typeError tag)
    | r => r) = .ok v
  cases hop : binaryOperator op with
  | error e =>
    rw [hop] at h
    unfold binaryOperator at hop
    by_cases g : op = "BitAnd" ∨ op = "BitOr" ∨ op = "BitXor"
    · rw [if_pos g] at hop; cases hop
    · rw [if_neg g] at hop
      cases hop
      have hne : op ≠ "BitOr" := fun e => g (.inr (.inl e))
      simp only [if_neg hne] at h
      cases h
  | ok u =>
    rw [hop] at h
    simp only at h
    cases hb : W.binary op l r with
    | ok w => rw [hb] at h; exact h
    | error e =>
      rw [hb] at h
      cases e with
      | typeError tag =>
        simp only at h ⊢
        by_cases g : op = "BitOr"
        · rw [if_pos g] at h ⊢; exact h
        · rw [if_neg g] at h; cases h
      | _ => cases h

end

section

variable {V : Type} {W : Interpreter V} {T : Stubs} {depth : Nat} {look : QPath → Ev V V} {m parent : Path}
  {env : String → Option V}
  (hlook : ∀ id v, env id = some v → ∀ s,
    (evResolve T depth m parent [id] >>= look) s = (.ok v, s))

include hlook

mutual

/-- Where the evaluator gives a value, lenient Python gives it too, or misses an attribute. -/
theorem pyEval_of_evalExpr : ∀ (e : Expr) (v : V) (s t : EvalState V),
    OnNames (fun id => ∃ v, env id = some v) e → PlainCalls e →
    evalExpr W T depth look m parent e s = (.ok v, t) →
    pyEval (lenient W) env e = .ok v ∨
      pyEval (lenient W) env e = .error .attributeError ∧ ¬ NoAttributes e
  | .name id load, v, s, t, hn, hp, h => by
    cases load with
    | false => rw [evalExpr] at h; cases h
    | true =>
      rw [evalExpr] at h
      rw [OnNames] at hn
      obtain ⟨w, hw⟩ := hn
      rw [Bool.not_true, if_neg (by simp), hlook id w hw s] at h
      cases h
      rw [pyEval, hw]
      exact .inl rfl
  | .attribute value attr load, v, s, t, hn, hp, h => by
    cases load with
    | false => rw [evalExpr] at h; cases h
    | true =>
      rw [evalExpr, Bool.not_true, if_neg (by simp)] at h
      rw [OnNames] at hn
      rw [PlainCalls] at hp
      obtain ⟨w, u, h1, h2⟩ := Ev.bind_ok_inv h
      rw [pyEval]
      rcases pyEval_of_evalExpr value w s u hn hp h1 with g | g
      · rw [g]
        simp only [lenient_getattr]
        cases ha : W.getattr w attr with
        | ok x => rw [ha] at h2; cases h2; exact .inl rfl
        | error e =>
          rw [ha] at h2
          cases e <;> first | exact .inr ⟨rfl, by rw [NoAttributes]; exact id⟩ | cases h2
      · rw [g.1]; exact .inr ⟨rfl, fun ha => g.2 (by
          rw [NoAttributes] at ha
          exact ha.elim)⟩
  | .subscript value slice load, v, s, t, hn, hp, h => by
    cases load with
    | false => rw [evalExpr] at h; cases h
    | true =>
      rw [evalExpr, Bool.not_true, if_neg (by simp)] at h
      rw [OnNames] at hn
      rw [PlainCalls] at hp
      obtain ⟨w, u, h1, h2⟩ := Ev.bind_ok_inv h
      obtain ⟨i, u', h3, h4⟩ := Ev.bind_ok_inv h2
      rw [pyEval]
      rcases pyEval_of_evalExpr value w s u hn.1 hp.1 h1 with g | g
      · rw [g]
        simp only
        rcases pyEval_of_evalExpr slice i u u' hn.2 hp.2 h3 with g' | g'
        · rw [g']
          simp only
          have : evalItem W w i = .ok v := by
            cases hi : evalItem W w i with
            | ok x => rw [hi] at h4; cases h4; rfl
            | error e => rw [hi] at h4; cases h4
          exact .inl (evalItem_ok_inv this)
        · rw [g'.1]; exact .inr ⟨rfl, fun ha => g'.2 (by
          simp only [NoAttributes, NoAttributesAll, NoAttributesKw] at ha
          first | exact ha | exact ha.1 | exact ha.2 | exact ha.2.1 | exact ha.2.2)⟩
      · rw [g.1]; exact .inr ⟨rfl, fun ha => g.2 (by
          simp only [NoAttributes, NoAttributesAll, NoAttributesKw] at ha
          first | exact ha | exact ha.1 | exact ha.2 | exact ha.2.1 | exact ha.2.2)⟩
  | .tuple elts load, v, s, t, hn, hp, h => by
    cases load with
    | false => rw [evalExpr] at h; cases h
    | true =>
      rw [evalExpr, Bool.not_true, if_neg (by simp)] at h
      rw [OnNames] at hn
      rw [PlainCalls] at hp
      obtain ⟨vs, u, h1, h2⟩ := Ev.bind_ok_inv h
      cases h2
      rw [pyEval]
      rcases pyEvals_of_evalExprs elts vs s _ hn hp h1 with g | g
      · rw [g]; exact .inl rfl
      · rw [g.1]; exact .inr ⟨rfl, fun ha => g.2 (by
          simp only [NoAttributes, NoAttributesAll, NoAttributesKw] at ha
          first | exact ha | exact ha.1 | exact ha.2 | exact ha.2.1 | exact ha.2.2)⟩
  | .list elts, v, s, t, hn, hp, h => by
    rw [evalExpr] at h
    rw [OnNames] at hn
    rw [PlainCalls] at hp
    obtain ⟨vs, u, h1, h2⟩ := Ev.bind_ok_inv h
    cases h2
    rw [pyEval]
    rcases pyEvals_of_evalExprs elts vs s _ hn hp h1 with g | g
    · rw [g]; exact .inl rfl
    · rw [g.1]; exact .inr ⟨rfl, fun ha => g.2 (by
          simp only [NoAttributes, NoAttributesAll, NoAttributesKw] at ha
          first | exact ha | exact ha.1 | exact ha.2 | exact ha.2.1 | exact ha.2.2)⟩
  | .call func args keywords, v, s, t, hn, hp, h => by
    rw [evalExpr] at h
    rw [OnNames] at hn
    rw [PlainCalls] at hp
    obtain ⟨vs, u, h1, h2⟩ := Ev.bind_ok_inv h
    obtain ⟨kvs, u', h3, h4⟩ := Ev.bind_ok_inv h2
    obtain ⟨f, u'', h5, h6⟩ := Ev.bind_ok_inv h4
    rw [pyEval, if_pos hp.1]
    rcases pyEval_of_evalExpr func f _ _ hn.1 hp.2.1 h5 with g | g
    · rw [g]
      simp only
      rcases pyEvals_of_evalExprs args vs _ _ hn.2.1 hp.2.2.1 h1 with g' | g'
      · rw [g']
        simp only
        rcases pyKeywords_of_evalKeywords keywords kvs _ _ hn.2.2 hp.2.2.2 h3 with g'' | g''
        · rw [g'']
          simp only [lenient_call]
          have hk : kwargsOf kvs = kvs := kwargsOf_nodup (by rw [pyKeywords_keys g'']; exact hp.1.1)
          rw [hk] at h6
          cases hc : W.call f vs kvs with
          | ok x => rw [hc] at h6; cases h6; exact .inl rfl
          | error e => rw [hc] at h6; cases h6
        · rw [g''.1]; exact .inr ⟨rfl, fun ha => g''.2 (by
          simp only [NoAttributes, NoAttributesAll, NoAttributesKw] at ha
          first | exact ha | exact ha.1 | exact ha.2 | exact ha.2.1 | exact ha.2.2)⟩
      · rw [g'.1]; exact .inr ⟨rfl, fun ha => g'.2 (by
          simp only [NoAttributes, NoAttributesAll, NoAttributesKw] at ha
          first | exact ha | exact ha.1 | exact ha.2 | exact ha.2.1 | exact ha.2.2)⟩
    · rw [g.1]; exact .inr ⟨rfl, fun ha => g.2 (by
          simp only [NoAttributes, NoAttributesAll, NoAttributesKw] at ha
          first | exact ha | exact ha.1 | exact ha.2 | exact ha.2.1 | exact ha.2.2)⟩
  | .constant value, v, s, t, hn, hp, h => by
    rw [evalExpr] at h
    cases h
    rw [pyEval]
    exact .inl rfl
  | .binOp left op right, v, s, t, hn, hp, h => by
    rw [evalExpr] at h
    rw [OnNames] at hn
    rw [PlainCalls] at hp
    obtain ⟨w, u, h1, h2⟩ := Ev.bind_ok_inv h
    obtain ⟨i, u', h3, h4⟩ := Ev.bind_ok_inv h2
    rw [pyEval]
    rcases pyEval_of_evalExpr left w s u hn.1 hp.1 h1 with g | g
    · rw [g]
      simp only
      rcases pyEval_of_evalExpr right i u u' hn.2 hp.2 h3 with g' | g'
      · rw [g']
        simp only
        have : evalBinary W op w i = .ok v := by
          cases hi : evalBinary W op w i with
          | ok x => rw [hi] at h4; cases h4; rfl
          | error e => rw [hi] at h4; cases h4
        exact .inl (evalBinary_ok_inv this)
      · rw [g'.1]; exact .inr ⟨rfl, fun ha => g'.2 (by
          simp only [NoAttributes, NoAttributesAll, NoAttributesKw] at ha
          first | exact ha | exact ha.1 | exact ha.2 | exact ha.2.1 | exact ha.2.2)⟩
    · rw [g.1]; exact .inr ⟨rfl, fun ha => g.2 (by
          simp only [NoAttributes, NoAttributesAll, NoAttributesKw] at ha
          first | exact ha | exact ha.1 | exact ha.2 | exact ha.2.1 | exact ha.2.2)⟩
  | .other tag [], v, s, t, hn, hp, h => by
    rcases other_cases tag [] with rfl | ⟨hd, ⟨o, ho, e⟩ | ho⟩
    · rw [evalExpr_dict] at h
      rw [pyEval_dict]
      obtain ⟨kvs, u, h1, h2⟩ := Ev.bind_ok_inv h
      rw [evalEntries_short _ _ _ _ _ _ (by intro _ _ _ h; cases h)] at h1
      rw [pyEntries_short _ _ (by intro _ _ _ h; cases h)]
      cases h1
      simp only [lenient_dict]
      cases hc : W.dict [] with
      | ok x => rw [hc] at h2; cases h2; exact .inl rfl
      | error e => rw [hc] at h2; cases h2
    · cases e
    · obtain ⟨e, he⟩ := evalExpr_other W T depth look m parent hd ho
      rw [he] at h; cases h
  | .other tag [operand], v, s, t, hn, hp, h => by
    rcases other_cases tag [operand] with rfl | ⟨hd, ⟨o, ho, e⟩ | ho⟩
    · rw [evalExpr_dict] at h
      rw [pyEval_dict]
      obtain ⟨kvs, u, h1, h2⟩ := Ev.bind_ok_inv h
      rw [evalEntries_short _ _ _ _ _ _ (by intro _ _ _ h; cases h)] at h1
      rw [pyEntries_short _ _ (by intro _ _ _ h; cases h)]
      cases h1
      simp only [lenient_dict]
      cases hc : W.dict [] with
      | ok x => rw [hc] at h2; cases h2; exact .inl rfl
      | error e => rw [hc] at h2; cases h2
    · cases e
      rw [evalExpr_unary _ _ _ _ _ _ ho] at h
      rw [pyEval_unary _ _ ho]
      rw [OnNames, OnNamesAll] at hn
      rw [PlainCalls, PlainCallsAll] at hp
      obtain ⟨w, u, h1, h2⟩ := Ev.bind_ok_inv h
      rcases pyEval_of_evalExpr operand w _ _ hn.1 hp.1 h1 with g | g
      · rw [g]
        simp only [lenient_unary]
        cases hc : W.unary tag w with
        | ok x => rw [hc] at h2; cases h2; exact .inl rfl
        | error e => rw [hc] at h2; cases h2
      · rw [g.1]; exact .inr ⟨rfl, fun ha => g.2 (by
          simp only [NoAttributes, NoAttributesAll, NoAttributesKw] at ha
          first | exact ha | exact ha.1 | exact ha.2 | exact ha.2.1 | exact ha.2.2)⟩
    · obtain ⟨e, he⟩ := evalExpr_other W T depth look m parent hd ho
      rw [he] at h; cases h
  | .other tag (k :: x :: es), v, s, t, hn, hp, h => by
    rcases other_cases tag (k :: x :: es) with rfl | ⟨hd, ⟨o, ho, e⟩ | ho⟩
    · rw [evalExpr_dict] at h
      rw [pyEval_dict]
      rw [OnNames] at hn
      rw [PlainCalls] at hp
      obtain ⟨kvs, u, h1, h2⟩ := Ev.bind_ok_inv h
      rcases pyEntries_of_evalEntries (k :: x :: es) kvs _ _ hn hp h1 with g | g
      · rw [g]
        simp only [lenient_dict]
        cases hc : W.dict kvs with
        | ok x => rw [hc] at h2; cases h2; exact .inl rfl
        | error e => rw [hc] at h2; cases h2
      · rw [g.1]; exact .inr ⟨rfl, fun ha => g.2 (by
          simp only [NoAttributes, NoAttributesAll, NoAttributesKw] at ha
          first | exact ha | exact ha.1 | exact ha.2 | exact ha.2.1 | exact ha.2.2)⟩
    · cases e
    · obtain ⟨e, he⟩ := evalExpr_other W T depth look m parent hd ho
      rw [he] at h; cases h

theorem pyEvals_of_evalExprs : ∀ (es : List Expr) (vs : List V) (s t : EvalState V),
    OnNamesAll (fun id => ∃ v, env id = some v) es → PlainCallsAll es →
    evalExprs W T depth look m parent es s = (.ok vs, t) →
    pyEvals (lenient W) env es = .ok vs ∨
      pyEvals (lenient W) env es = .error .attributeError ∧ ¬ NoAttributesAll es
  | [], vs, s, t, hn, hp, h => by
    rw [evalExprs] at h
    cases h
    rw [pyEvals]
    exact .inl rfl
  | e :: es, vs, s, t, hn, hp, h => by
    rw [evalExprs] at h
    rw [OnNamesAll] at hn
    rw [PlainCallsAll] at hp
    obtain ⟨w, u, h1, h2⟩ := Ev.bind_ok_inv h
    obtain ⟨ws, u', h3, h4⟩ := Ev.bind_ok_inv h2
    cases h4
    rw [pyEvals]
    rcases pyEval_of_evalExpr e w s u hn.1 hp.1 h1 with g | g
    · rw [g]
      rcases pyEvals_of_evalExprs es ws u _ hn.2 hp.2 h3 with g' | g'
      · rw [g']; exact .inl rfl
      · rw [g'.1]; exact .inr ⟨rfl, fun ha => g'.2 (by
          simp only [NoAttributes, NoAttributesAll, NoAttributesKw] at ha
          first | exact ha | exact ha.1 | exact ha.2 | exact ha.2.1 | exact ha.2.2)⟩
    · rw [g.1]; exact .inr ⟨rfl, fun ha => g.2 (by
          simp only [NoAttributes, NoAttributesAll, NoAttributesKw] at ha
          first | exact ha | exact ha.1 | exact ha.2 | exact ha.2.1 | exact ha.2.2)⟩

theorem pyKeywords_of_evalKeywords : ∀ (es : List (Option String × Expr))
    (vs : List (Option String × V)) (s t : EvalState V),
    OnNamesKw (fun id => ∃ v, env id = some v) es → PlainCallsKw es →
    evalKeywords W T depth look m parent es s = (.ok vs, t) →
    pyKeywords (lenient W) env es = .ok vs ∨
      pyKeywords (lenient W) env es = .error .attributeError ∧ ¬ NoAttributesKw es
  | [], vs, s, t, hn, hp, h => by
    rw [evalKeywords] at h
    cases h
    rw [pyKeywords]
    exact .inl rfl
  | (k, e) :: es, vs, s, t, hn, hp, h => by
    rw [evalKeywords] at h
    rw [OnNamesKw] at hn
    rw [PlainCallsKw] at hp
    obtain ⟨w, u, h1, h2⟩ := Ev.bind_ok_inv h
    obtain ⟨ws, u', h3, h4⟩ := Ev.bind_ok_inv h2
    cases h4
    rw [pyKeywords]
    rcases pyEval_of_evalExpr e w s u hn.1 hp.1 h1 with g | g
    · rw [g]
      rcases pyKeywords_of_evalKeywords es ws u _ hn.2 hp.2 h3 with g' | g'
      · rw [g']; exact .inl rfl
      · rw [g'.1]; exact .inr ⟨rfl, fun ha => g'.2 (by
          simp only [NoAttributes, NoAttributesAll, NoAttributesKw] at ha
          first | exact ha | exact ha.1 | exact ha.2 | exact ha.2.1 | exact ha.2.2)⟩
    · rw [g.1]; exact .inr ⟨rfl, fun ha => g.2 (by
          simp only [NoAttributes, NoAttributesAll, NoAttributesKw] at ha
          first | exact ha | exact ha.1 | exact ha.2 | exact ha.2.1 | exact ha.2.2)⟩

theorem pyEntries_of_evalEntries : ∀ (es : List Expr) (vs : List (V × V)) (s t : EvalState V),
    OnNamesAll (fun id => ∃ v, env id = some v) es → PlainCallsAll es →
    evalEntries W T depth look m parent es s = (.ok vs, t) →
    pyEntries (lenient W) env es = .ok vs ∨
      pyEntries (lenient W) env es = .error .attributeError ∧ ¬ NoAttributesAll es
  | [], vs, s, t, hn, hp, h => by
    rw [evalEntries_short _ _ _ _ _ _ (by intro _ _ _ h; cases h)] at h
    rw [pyEntries_short _ _ (by intro _ _ _ h; cases h)]
    cases h
    exact .inl rfl
  | [_], vs, s, t, hn, hp, h => by
    rw [evalEntries_short _ _ _ _ _ _ (by intro _ _ _ h; cases h)] at h
    rw [pyEntries_short _ _ (by intro _ _ _ h; cases h)]
    cases h
    exact .inl rfl
  | k :: x :: es, vs, s, t, hn, hp, h => by
    rw [evalEntries] at h
    rw [OnNamesAll, OnNamesAll] at hn
    rw [PlainCallsAll, PlainCallsAll] at hp
    obtain ⟨w, u, h1, h2⟩ := Ev.bind_ok_inv h
    obtain ⟨i, u', h3, h4⟩ := Ev.bind_ok_inv h2
    obtain ⟨ws, u'', h5, h6⟩ := Ev.bind_ok_inv h4
    cases h6
    rw [pyEntries]
    rcases pyEval_of_evalExpr k w s u hn.1 hp.1 h1 with g | g
    · rw [g]
      simp only
      rcases pyEval_of_evalExpr x i u u' hn.2.1 hp.2.1 h3 with g' | g'
      · rw [g']
        simp only
        rcases pyEntries_of_evalEntries es ws u' _ hn.2.2 hp.2.2 h5 with g'' | g''
        · rw [g'']; exact .inl rfl
        · rw [g''.1]; exact .inr ⟨rfl, fun ha => g''.2 (by
          simp only [NoAttributes, NoAttributesAll, NoAttributesKw] at ha
          first | exact ha | exact ha.1 | exact ha.2 | exact ha.2.1 | exact ha.2.2)⟩
      · rw [g'.1]; exact .inr ⟨rfl, fun ha => g'.2 (by
          simp only [NoAttributes, NoAttributesAll, NoAttributesKw] at ha
          first | exact ha | exact ha.1 | exact ha.2 | exact ha.2.1 | exact ha.2.2)⟩
    · rw [g.1]; exact .inr ⟨rfl, fun ha => g.2 (by
          simp only [NoAttributes, NoAttributesAll, NoAttributesKw] at ha
          first | exact ha | exact ha.1 | exact ha.2 | exact ha.2.1 | exact ha.2.2)⟩

end

mutual

/-- Without attributes the state is neither used nor changed. -/
theorem evalExpr_same : ∀ (e : Expr), OnNames (fun id => ∃ v, env id = some v) e → NoAttributes e →
    ∃ r, ∀ s, evalExpr W T depth look m parent e s = (r, s)
  | .name id load, hn, ha => by
    cases load with
    | false => exact ⟨_, fun s => by rw [evalExpr]; rfl⟩
    | true =>
      rw [OnNames] at hn
      obtain ⟨w, hw⟩ := hn
      exact ⟨_, fun s => by rw [evalExpr, Bool.not_true, if_neg (by simp), hlook id w hw s]⟩
  | .attribute value attr load, hn, ha => by rw [NoAttributes] at ha; exact ha.elim
  | .subscript value slice load, hn, ha => by
    cases load with
    | false => exact ⟨_, fun s => by rw [evalExpr]; rfl⟩
    | true =>
      rw [OnNames] at hn
      rw [NoAttributes] at ha
      obtain ⟨r, hr⟩ := evalExpr_same value hn.1 ha.1
      obtain ⟨r', hr'⟩ := evalExpr_same slice hn.2 ha.2
      cases r with
      | error x =>
        exact ⟨.error x, fun s => by
          rw [evalExpr, Bool.not_true, if_neg (by simp), Ev.bind_error (hr s)]⟩
      | ok v =>
        cases r' with
        | error x =>
          exact ⟨.error x, fun s => by
            rw [evalExpr, Bool.not_true, if_neg (by simp), Ev.bind_ok (hr s), Ev.bind_error (hr' s)]⟩
        | ok i =>
          exact ⟨evalItem W v i, fun s => by
            rw [evalExpr, Bool.not_true, if_neg (by simp), Ev.bind_ok (hr s), Ev.bind_ok (hr' s)]
            rfl⟩
  | .tuple elts load, hn, ha => by
    cases load with
    | false => exact ⟨_, fun s => by rw [evalExpr]; rfl⟩
    | true =>
      rw [OnNames] at hn
      rw [NoAttributes] at ha
      obtain ⟨r, hr⟩ := evalExprs_same elts hn ha
      cases r with
      | error x =>
        exact ⟨.error x, fun s => by
          rw [evalExpr, Bool.not_true, if_neg (by simp), Ev.bind_error (hr s)]⟩
      | ok vs =>
        exact ⟨.ok (W.tuple vs), fun s => by
          rw [evalExpr, Bool.not_true, if_neg (by simp), Ev.bind_ok (hr s)]
          rfl⟩
  | .list elts, hn, ha => by
    rw [OnNames] at hn
    rw [NoAttributes] at ha
    obtain ⟨r, hr⟩ := evalExprs_same elts hn ha
    cases r with
    | error x => exact ⟨.error x, fun s => by rw [evalExpr, Ev.bind_error (hr s)]⟩
    | ok vs => exact ⟨.ok (W.list vs), fun s => by rw [evalExpr, Ev.bind_ok (hr s)]; rfl⟩
  | .call func args keywords, hn, ha => by
    rw [OnNames] at hn
    rw [NoAttributes] at ha
    obtain ⟨r1, h1⟩ := evalExprs_same args hn.2.1 ha.2.1
    obtain ⟨r2, h2⟩ := evalKeywords_same keywords hn.2.2 ha.2.2
    obtain ⟨r3, h3⟩ := evalExpr_same func hn.1 ha.1
    cases r1 with
    | error x => exact ⟨.error x, fun s => by rw [evalExpr, Ev.bind_error (h1 s)]⟩
    | ok vs =>
      cases r2 with
      | error x => exact ⟨.error x, fun s => by rw [evalExpr, Ev.bind_ok (h1 s), Ev.bind_error (h2 s)]⟩
      | ok kvs =>
        cases r3 with
        | error x =>
          exact ⟨.error x, fun s => by
            rw [evalExpr, Ev.bind_ok (h1 s), Ev.bind_ok (h2 s), Ev.bind_error (h3 s)]⟩
        | ok f =>
          exact ⟨W.call f vs (kwargsOf kvs), fun s => by
            rw [evalExpr, Ev.bind_ok (h1 s), Ev.bind_ok (h2 s), Ev.bind_ok (h3 s)]
            rfl⟩
  | .constant value, hn, ha => ⟨_, fun s => by rw [evalExpr]; rfl⟩
  | .binOp left op right, hn, ha => by
    rw [OnNames] at hn
    rw [NoAttributes] at ha
    obtain ⟨r, hr⟩ := evalExpr_same left hn.1 ha.1
    obtain ⟨r', hr'⟩ := evalExpr_same right hn.2 ha.2
    cases r with
    | error x => exact ⟨.error x, fun s => by rw [evalExpr, Ev.bind_error (hr s)]⟩
    | ok v =>
      cases r' with
      | error x => exact ⟨.error x, fun s => by rw [evalExpr, Ev.bind_ok (hr s), Ev.bind_error (hr' s)]⟩
      | ok i =>
        exact ⟨evalBinary W op v i, fun s => by
          rw [evalExpr, Ev.bind_ok (hr s), Ev.bind_ok (hr' s)]
          rfl⟩
  | .other tag [], hn, ha => by
    rcases other_cases tag [] with rfl | ⟨hd, ⟨o, ho, e⟩ | ho⟩
    · refine ⟨W.dict [], fun s => ?_⟩
      rw [evalExpr_dict, evalEntries_short _ _ _ _ _ _ (by intro _ _ _ h; cases h)]
      rfl
    · cases e
    · obtain ⟨e, he⟩ := evalExpr_other W T depth look m parent hd ho
      exact ⟨.error e, fun s => by rw [he]; rfl⟩
  | .other tag [operand], hn, ha => by
    rcases other_cases tag [operand] with rfl | ⟨hd, ⟨o, ho, e⟩ | ho⟩
    · refine ⟨W.dict [], fun s => ?_⟩
      rw [evalExpr_dict, evalEntries_short _ _ _ _ _ _ (by intro _ _ _ h; cases h)]
      rfl
    · cases e
      rw [OnNames, OnNamesAll] at hn
      rw [NoAttributes, NoAttributesAll] at ha
      obtain ⟨r, hr⟩ := evalExpr_same operand hn.1 ha.1
      cases r with
      | error x => exact ⟨.error x, fun s => by rw [evalExpr_unary _ _ _ _ _ _ ho, Ev.bind_error (hr s)]⟩
      | ok v =>
        exact ⟨W.unary tag v, fun s => by rw [evalExpr_unary _ _ _ _ _ _ ho, Ev.bind_ok (hr s)]; rfl⟩
    · obtain ⟨e, he⟩ := evalExpr_other W T depth look m parent hd ho
      exact ⟨.error e, fun s => by rw [he]; rfl⟩
  | .other tag (k :: x :: es), hn, ha => by
    rcases other_cases tag (k :: x :: es) with rfl | ⟨hd, ⟨o, ho, e⟩ | ho⟩
    · rw [OnNames] at hn
      rw [NoAttributes] at ha
      obtain ⟨r, hr⟩ := evalEntries_same (k :: x :: es) hn ha
      cases r with
      | error x => exact ⟨.error x, fun s => by rw [evalExpr_dict, Ev.bind_error (hr s)]⟩
      | ok kvs => exact ⟨W.dict kvs, fun s => by rw [evalExpr_dict, Ev.bind_ok (hr s)]; rfl⟩
    · cases e
    · obtain ⟨e, he⟩ := evalExpr_other W T depth look m parent hd ho
      exact ⟨.error e, fun s => by rw [he]; rfl⟩

theorem evalExprs_same : ∀ (es : List Expr), OnNamesAll (fun id => ∃ v, env id = some v) es →
    NoAttributesAll es → ∃ r, ∀ s, evalExprs W T depth look m parent es s = (r, s)
  | [], hn, ha => ⟨_, fun s => by rw [evalExprs]; rfl⟩
  | e :: es, hn, ha => by
    rw [OnNamesAll] at hn
    rw [NoAttributesAll] at ha
    obtain ⟨r, hr⟩ := evalExpr_same e hn.1 ha.1
    obtain ⟨r', hr'⟩ := evalExprs_same es hn.2 ha.2
    cases r with
    | error x => exact ⟨.error x, fun s => by rw [evalExprs, Ev.bind_error (hr s)]⟩
    | ok v =>
      cases r' with
      | error x => exact ⟨.error x, fun s => by rw [evalExprs, Ev.bind_ok (hr s), Ev.bind_error (hr' s)]⟩
      | ok vs =>
        exact ⟨.ok (v :: vs), fun s => by rw [evalExprs, Ev.bind_ok (hr s), Ev.bind_ok (hr' s)]; rfl⟩

theorem evalKeywords_same : ∀ (es : List (Option String × Expr)),
    OnNamesKw (fun id => ∃ v, env id = some v) es →
    NoAttributesKw es → ∃ r, ∀ s, evalKeywords W T depth look m parent es s = (r, s)
  | [], hn, ha => ⟨_, fun s => by rw [evalKeywords]; rfl⟩
  | (k, e) :: es, hn, ha => by
    rw [OnNamesKw] at hn
    rw [NoAttributesKw] at ha
    obtain ⟨r, hr⟩ := evalExpr_same e hn.1 ha.1
    obtain ⟨r', hr'⟩ := evalKeywords_same es hn.2 ha.2
    cases r with
    | error x => exact ⟨.error x, fun s => by rw [evalKeywords, Ev.bind_error (hr s)]⟩
    | ok v =>
      cases r' with
      | error x =>
        exact ⟨.error x, fun s => by rw [evalKeywords, Ev.bind_ok (hr s), Ev.bind_error (hr' s)]⟩
      | ok vs =>
        exact ⟨.ok ((k, v) :: vs), fun s => by
          rw [evalKeywords, Ev.bind_ok (hr s), Ev.bind_ok (hr' s)]; rfl⟩

theorem evalEntries_same : ∀ (es : List Expr), OnNamesAll (fun id => ∃ v, env id = some v) es →
    NoAttributesAll es → ∃ r, ∀ s, evalEntries W T depth look m parent es s = (r, s)
  | [], hn, ha => ⟨_, fun s => by
      rw [evalEntries_short _ _ _ _ _ _ (by intro _ _ _ h; cases h)]; rfl⟩
  | [_], hn, ha => ⟨_, fun s => by
      rw [evalEntries_short _ _ _ _ _ _ (by intro _ _ _ h; cases h)]; rfl⟩
  | k :: x :: es, hn, ha => by
    rw [OnNamesAll, OnNamesAll] at hn
    rw [NoAttributesAll, NoAttributesAll] at ha
    obtain ⟨r1, h1⟩ := evalExpr_same k hn.1 ha.1
    obtain ⟨r2, h2⟩ := evalExpr_same x hn.2.1 ha.2.1
    obtain ⟨r3, h3⟩ := evalEntries_same es hn.2.2 ha.2.2
    cases r1 with
    | error x => exact ⟨.error x, fun s => by rw [evalEntries, Ev.bind_error (h1 s)]⟩
    | ok vk =>
      cases r2 with
      | error x =>
        exact ⟨.error x, fun s => by rw [evalEntries, Ev.bind_ok (h1 s), Ev.bind_error (h2 s)]⟩
      | ok vx =>
        cases r3 with
        | error x =>
          exact ⟨.error x, fun s => by
            rw [evalEntries, Ev.bind_ok (h1 s), Ev.bind_ok (h2 s), Ev.bind_error (h3 s)]⟩
        | ok kvs =>
          exact ⟨.ok ((vk, vx) :: kvs), fun s => by
            rw [evalEntries, Ev.bind_ok (h1 s), Ev.bind_ok (h2 s), Ev.bind_ok (h3 s)]
            rfl⟩

end

end

mutual

theorem pyEval_congr {V : Type} {W : Interpreter V} {env env' : String → Option V} : ∀ (e : Expr),
    OnNames (fun id => env id = env' id) e → pyEval W env e = pyEval W env' e
  | .name id load, h => by
    rw [OnNames] at h
    cases load <;> simp only [pyEval, h]
  | .attribute value attr load, h => by
    rw [OnNames] at h
    cases load <;> simp only [pyEval, pyEval_congr value h]
  | .subscript value slice load, h => by
    rw [OnNames] at h
    cases load <;> simp only [pyEval, pyEval_congr value h.1, pyEval_congr slice h.2]
  | .tuple elts load, h => by
    rw [OnNames] at h
    cases load <;> simp only [pyEval, pyEvals_congr elts h]
  | .list elts, h => by
    rw [OnNames] at h
    simp only [pyEval, pyEvals_congr elts h]
  | .call func args keywords, h => by
    rw [OnNames] at h
    simp only [pyEval, pyEval_congr func h.1, pyEvals_congr args h.2.1, pyKeywords_congr keywords h.2.2]
  | .constant value, h => by simp only [pyEval]
  | .binOp left op right, h => by
    rw [OnNames] at h
    simp only [pyEval, pyEval_congr left h.1, pyEval_congr right h.2]
  | .other tag [], h => by
    rw [OnNames] at h
    simp only [pyEval, pyEntries_congr [] h]
  | .other tag [operand], h => by
    rw [OnNames] at h
    have h' := h
    rw [OnNamesAll] at h'
    simp only [pyEval, pyEntries_congr [operand] h, pyEval_congr operand h'.1]
  | .other tag (a :: b :: es), h => by
    rw [OnNames] at h
    simp only [pyEval, pyEntries_congr (a :: b :: es) h]

theorem pyEvals_congr {V : Type} {W : Interpreter V} {env env' : String → Option V} :
    ∀ (es : List Expr), OnNamesAll (fun id => env id = env' id) es →
    pyEvals W env es = pyEvals W env' es
  | [], _ => by simp only [pyEvals]
  | e :: es, h => by
    rw [OnNamesAll] at h
    simp only [pyEvals, pyEval_congr e h.1, pyEvals_congr es h.2]

theorem pyKeywords_congr {V : Type} {W : Interpreter V} {env env' : String → Option V} :
    ∀ (es : List (Option String × Expr)), OnNamesKw (fun id => env id = env' id) es →
    pyKeywords W env es = pyKeywords W env' es
  | [], _ => by simp only [pyKeywords]
  | (k, e) :: es, h => by
    rw [OnNamesKw] at h
    simp only [pyKeywords, pyEval_congr e h.1, pyKeywords_congr es h.2]

theorem pyEntries_congr {V : Type} {W : Interpreter V} {env env' : String → Option V} :
    ∀ (es : List Expr), OnNamesAll (fun id => env id = env' id) es →
    pyEntries W env es = pyEntries W env' es
  | [], _ => by simp only [pyEntries]
  | [_], _ => by simp only [pyEntries]
  | k :: v :: es, h => by
    rw [OnNamesAll, OnNamesAll] at h
    simp only [pyEntries, pyEval_congr k h.1, pyEval_congr v h.2.1, pyEntries_congr es h.2.2]

end

mutual

theorem OnNames_imp {P Q : String → Prop} (h : ∀ id, P id → Q id) : ∀ (e : Expr), OnNames P e → OnNames Q e
  | .name id load, g => by rw [OnNames] at g ⊢; exact h id g
  | .attribute value attr load, g => by rw [OnNames] at g ⊢; exact OnNames_imp h value g
  | .subscript value slice load, g => by
    rw [OnNames] at g ⊢; exact ⟨OnNames_imp h value g.1, OnNames_imp h slice g.2⟩
  | .tuple elts load, g => by rw [OnNames] at g ⊢; exact OnNamesAll_imp h elts g
  | .list elts, g => by rw [OnNames] at g ⊢; exact OnNamesAll_imp h elts g
  | .call func args keywords, g => by
    rw [OnNames] at g ⊢
    exact ⟨OnNames_imp h func g.1, OnNamesAll_imp h args g.2.1, OnNamesKw_imp h keywords g.2.2⟩
  | .constant value, g => by rw [OnNames]; trivial
  | .binOp left op right, g => by
    rw [OnNames] at g ⊢; exact ⟨OnNames_imp h left g.1, OnNames_imp h right g.2⟩
  | .other tag children, g => by rw [OnNames] at g ⊢; exact OnNamesAll_imp h children g

theorem OnNamesAll_imp {P Q : String → Prop} (h : ∀ id, P id → Q id) : ∀ (es : List Expr),
    OnNamesAll P es → OnNamesAll Q es
  | [], _ => by rw [OnNamesAll]; trivial
  | e :: es, g => by
    rw [OnNamesAll] at g ⊢; exact ⟨OnNames_imp h e g.1, OnNamesAll_imp h es g.2⟩

theorem OnNamesKw_imp {P Q : String → Prop} (h : ∀ id, P id → Q id) :
    ∀ (es : List (Option String × Expr)), OnNamesKw P es → OnNamesKw Q es
  | [], _ => by rw [OnNamesKw]; trivial
  | (_, e) :: es, g => by
    rw [OnNamesKw] at g ⊢; exact ⟨OnNames_imp h e g.1, OnNamesKw_imp h es g.2⟩

end

section

variable {V : Type} {W : Interpreter V} {T : Stubs} {depth : Nat} {other : Atom → String}
  {m parent : Path} {env : String → Option V}

/-- The environment, restricted to the names that are available. -/
noncomputable def restricted (W : Interpreter V) (T : Stubs) (depth : Nat) (m parent : Path)
    (env : String → Option V) : String → Option V :=
  open Classical in fun id => if Available W T depth m parent env id then env id else none

/-- What the names of an expression are looked up to. -/
theorem restricted_look (n : Nat) (id : String) (v : V)
    (h : restricted W T depth m parent env id = some v) (s : EvalState V) :
    (evResolve T depth m parent [id] >>= evalPath W T depth other (n + 1)) s = (.ok v, s) := by
  unfold restricted at h
  by_cases ha : Available W T depth m parent env id
  · rw [if_pos ha] at h
    obtain ⟨q, w, hr, hw, he⟩ := ha
    rw [he] at h
    cases h
    rw [Ev.bind_ok (show evResolve T depth m parent [id] s = (.ok q, s) from Ev.lift_ok hr s)]
    exact evalPath_runtime hw n s
  · rw [if_neg ha] at h; cases h

theorem restricted_agrees {e : Expr} (h : OnNames (Available W T depth m parent env) e) :
    OnNames (fun id => env id = restricted W T depth m parent env id) e :=
  OnNames_imp (fun id ha => by unfold restricted; rw [if_pos ha]) e h

theorem restricted_some {e : Expr} (h : OnNames (Available W T depth m parent env) e) :
    OnNames (fun id => ∃ v, restricted W T depth m parent env id = some v) e :=
  OnNames_imp (fun id ha => by
    unfold restricted; rw [if_pos ha]; exact ha.elim fun q ⟨v, _, _, h⟩ => ⟨v, h⟩) e h

end

mutual

/-- What Python can do, lenient Python does as well. -/
theorem lenient_of_pyEval {V : Type} {W : Interpreter V} {env : String → Option V} :
    ∀ (e : Expr) (v : V), pyEval W env e = .ok v → pyEval (lenient W) env e = .ok v
  | .name id load, v, h => by
    cases load <;> simp only [pyEval] at h ⊢ <;> exact h
  | .attribute value attr load, v, h => by
    cases load with
    | false => simp only [pyEval] at h; cases h
    | true =>
      rw [pyEval] at h ⊢
      cases h1 : pyEval W env value with
      | error e => rw [h1] at h; cases h
      | ok w => rw [h1] at h; rw [lenient_of_pyEval value w h1]; exact h
  | .subscript value slice load, v, h => by
    cases load with
    | false => simp only [pyEval] at h; cases h
    | true =>
      rw [pyEval] at h ⊢
      cases h1 : pyEval W env value with
      | error e => rw [h1] at h; cases h
      | ok w =>
        cases h2 : pyEval W env slice with
        | error e => rw [h1, h2] at h; cases h
        | ok i =>
          rw [h1, h2] at h
          rw [lenient_of_pyEval value w h1, lenient_of_pyEval slice i h2]
          exact evalItem_ok_inv (evalItem_of_ok h)
  | .tuple elts load, v, h => by
    cases load with
    | false => simp only [pyEval] at h; cases h
    | true =>
      rw [pyEval] at h ⊢
      cases h1 : pyEvals W env elts with
      | error e => rw [h1] at h; cases h
      | ok vs => rw [h1] at h; rw [lenient_of_pyEvals elts vs h1]; exact h
  | .list elts, v, h => by
    rw [pyEval] at h ⊢
    cases h1 : pyEvals W env elts with
    | error e => rw [h1] at h; cases h
    | ok vs => rw [h1] at h; rw [lenient_of_pyEvals elts vs h1]; exact h
  | .call func args keywords, v, h => by
    rw [pyEval] at h ⊢
    by_cases g : (keywords.map Prod.fst).Nodup ∧ none ∉ keywords.map Prod.fst
    · rw [if_pos g] at h ⊢
      cases h1 : pyEval W env func with
      | error e => rw [h1] at h; cases h
      | ok f =>
        cases h2 : pyEvals W env args with
        | error e => rw [h1, h2] at h; cases h
        | ok vs =>
          cases h3 : pyKeywords W env keywords with
          | error e => rw [h1, h2, h3] at h; cases h
          | ok kvs =>
            rw [h1, h2, h3] at h
            rw [lenient_of_pyEval func f h1, lenient_of_pyEvals args vs h2,
              lenient_of_pyKeywords keywords kvs h3]
            exact h
    · rw [if_neg g] at h; cases h
  | .constant value, v, h => by rw [pyEval] at h ⊢; exact h
  | .binOp left op right, v, h => by
    rw [pyEval] at h ⊢
    cases h1 : pyEval W env left with
    | error e => rw [h1] at h; cases h
    | ok l =>
      cases h2 : pyEval W env right with
      | error e => rw [h1, h2] at h; cases h
      | ok r =>
        rw [h1, h2] at h
        rw [lenient_of_pyEval left l h1, lenient_of_pyEval right r h2]
        simp only at h ⊢
        show (match W.binary op l r with
          | .error (.typeError tag) => if op = "BitOr" then W.union l r else .error (.typeError tag)
          | r => r) = .ok v
        rw [h]
  | .other tag [], v, h => by
    rcases other_cases tag [] with rfl | ⟨hd, ⟨o, ho, e⟩ | ho⟩
    · rw [pyEval_dict, pyEntries_short _ _ (by intro _ _ _ h; cases h)] at h ⊢
      exact h
    · cases e
    · rw [pyEval_other _ _ hd ho] at h; cases h
  | .other tag [operand], v, h => by
    rcases other_cases tag [operand] with rfl | ⟨hd, ⟨o, ho, e⟩ | ho⟩
    · rw [pyEval_dict, pyEntries_short _ _ (by intro _ _ _ h; cases h)] at h ⊢
      exact h
    · cases e
      rw [pyEval_unary _ _ ho] at h ⊢
      cases h1 : pyEval W env operand with
      | error e => rw [h1] at h; cases h
      | ok w => rw [h1] at h; rw [lenient_of_pyEval operand w h1]; exact h
    · rw [pyEval_other _ _ hd ho] at h; cases h
  | .other tag (k :: x :: es), v, h => by
    rcases other_cases tag (k :: x :: es) with rfl | ⟨hd, ⟨o, ho, e⟩ | ho⟩
    · rw [pyEval_dict] at h ⊢
      cases h1 : pyEntries W env (k :: x :: es) with
      | error e => rw [h1] at h; cases h
      | ok kvs => rw [h1] at h; rw [lenient_of_pyEntries (k :: x :: es) kvs h1]; exact h
    · cases e
    · rw [pyEval_other _ _ hd ho] at h; cases h

theorem lenient_of_pyEvals {V : Type} {W : Interpreter V} {env : String → Option V} :
    ∀ (es : List Expr) (vs : List V), pyEvals W env es = .ok vs → pyEvals (lenient W) env es = .ok vs
  | [], vs, h => by rw [pyEvals] at h ⊢; exact h
  | e :: es, vs, h => by
    rw [pyEvals] at h ⊢
    cases h1 : pyEval W env e with
    | error e => rw [h1] at h; cases h
    | ok w =>
      cases h2 : pyEvals W env es with
      | error e => rw [h1, h2] at h; cases h
      | ok ws =>
        rw [h1, h2] at h
        rw [lenient_of_pyEval e w h1, lenient_of_pyEvals es ws h2]
        exact h

theorem lenient_of_pyKeywords {V : Type} {W : Interpreter V} {env : String → Option V} :
    ∀ (es : List (Option String × Expr)) (vs : List (Option String × V)),
    pyKeywords W env es = .ok vs → pyKeywords (lenient W) env es = .ok vs
  | [], vs, h => by rw [pyKeywords] at h ⊢; exact h
  | (k, e) :: es, vs, h => by
    rw [pyKeywords] at h ⊢
    cases h1 : pyEval W env e with
    | error e => rw [h1] at h; cases h
    | ok w =>
      cases h2 : pyKeywords W env es with
      | error e => rw [h1, h2] at h; cases h
      | ok ws =>
        rw [h1, h2] at h
        rw [lenient_of_pyEval e w h1, lenient_of_pyKeywords es ws h2]
        exact h

theorem lenient_of_pyEntries {V : Type} {W : Interpreter V} {env : String → Option V} :
    ∀ (es : List Expr) (vs : List (V × V)), pyEntries W env es = .ok vs →
    pyEntries (lenient W) env es = .ok vs
  | [], vs, h => by
    rw [pyEntries_short _ _ (by intro _ _ _ h; cases h)] at h ⊢
    exact h
  | [_], vs, h => by
    rw [pyEntries_short _ _ (by intro _ _ _ h; cases h)] at h ⊢
    exact h
  | k :: x :: es, vs, h => by
    rw [pyEntries] at h ⊢
    cases h1 : pyEval W env k with
    | error e => rw [h1] at h; cases h
    | ok w =>
      cases h2 : pyEval W env x with
      | error e => rw [h1, h2] at h; cases h
      | ok i =>
        cases h3 : pyEntries W env es with
        | error e => rw [h1, h2, h3] at h; cases h
        | ok ws =>
          rw [h1, h2, h3] at h
          rw [lenient_of_pyEval k w h1, lenient_of_pyEval x i h2, lenient_of_pyEntries es ws h3]
          exact h

end

end Paradigm
