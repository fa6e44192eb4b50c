import Verif.Lemmas.Stub
import Verif.Lemmas.Scoping
import Verif.Props.Overloads
import Verif.Spec.Lookup

/-! The search for definitions and what comes out of it. -/

namespace Paradigm

open PyCall Spec Props

/-! ### Legality -/

theorem required_constructible {a : Obj} {k : Kind} {n : String} {p : Param}
    (h : RequiredParameter.new a (.kind k) n = .ok p) : ConstructibleParam p := .inl ⟨_, _, _, h⟩

theorem optional_constructible {a d : Obj} {k : Kind} {n : String} {p : Param}
    (h : OptionalParameter.new a (.kind k) n d = .ok p) : ConstructibleParam p :=
  .inr ⟨_, _, _, _, h⟩

theorem paramFromRaw_constructible {raw : RawParam} {p : Param} (h : paramFromRaw raw = .ok p) :
    ConstructibleParam p := by
  unfold paramFromRaw at h
  cases hd : raw.default with
  | none =>
    simp only [hd] at h
    split at h
    · exact optional_constructible h
    · exact required_constructible h
  | some d => simp only [hd] at h; exact optional_constructible h

theorem paramFromNode_constructible {ev : Expr → Except PyErr Obj} {node : Arg}
    {d : Option Expr} {k : Kind} {p : Param} (h : paramFromNode ev node d k = .ok p) :
    ConstructibleParam p := by
  unfold paramFromNode at h
  obtain ⟨a, _, h⟩ := except_bind_ok.1 h
  cases d with
  | none =>
    simp only [] at h
    split at h
    · exact optional_constructible h
    · exact required_constructible h
  | some e =>
    obtain ⟨v, _, h⟩ := except_bind_ok.1 h
    split at h
    · exact optional_constructible h
    · exact optional_constructible h

theorem plainNew_constructible {ps : List Param} {r : Obj} {s : PlainSig}
    (hp : ∀ p ∈ ps, ConstructibleParam p) (h : PlainSig.new ps r = .ok s) :
    ConstructiblePlain s := by
  obtain ⟨_, rfl⟩ := new_ok_iff.1 h
  exact ⟨hp, h⟩

theorem mapExcept_all {α β : Type} {f : α → Except PyErr β} {P : β → Prop} {l : List α}
    {r : List β} (hf : ∀ a ∈ l, ∀ b, f a = .ok b → P b) (h : mapExcept f l = .ok r) :
    ∀ b ∈ r, P b := by
  intro b hb
  obtain ⟨a, ha, hab⟩ := (mapExcept_pointwise.1 h).exists_left hb
  exact hf a ha b hab

theorem fromRawSignature_constructible {raw : RawSig} {s : Sig}
    (h : fromRawSignature raw = .ok s) : Constructible s := by
  unfold fromRawSignature at h
  simp only [except_bind_ok, pure_ok] at h
  obtain ⟨ps, hps, t, ht, rfl⟩ := h
  exact plainNew_constructible (mapExcept_all (fun _ _ _ => paramFromRaw_constructible) hps) ht

theorem toVariadicParameter_constructible {ev : Expr → Except PyErr Obj} {node : Option Arg}
    {k : Kind} {ps : List Param} (h : toVariadicParameter ev node k = .ok ps) :
    ∀ p ∈ ps, ConstructibleParam p := by
  cases node with
  | none => cases h; simp
  | some node =>
    unfold toVariadicParameter at h
    simp only [except_bind_ok, pure_ok] at h
    obtain ⟨q, hq, rfl⟩ := h
    intro p hp
    cases List.mem_singleton.1 hp
    exact paramFromNode_constructible hq

theorem declared_constructible {ev : Expr → Except PyErr Obj} {a : Arguments}
    {ps : List Param} (h : declaredParameters ev a = .ok ps) :
    ∀ p ∈ ps, ConstructibleParam p := by
  unfold declaredParameters at h
  simp only [except_bind_ok, pure_ok] at h
  obtain ⟨ps1, h1, ps2, h2, ps3, h3, ps4, h4, rfl⟩ := h
  intro p hp
  simp only [List.mem_append] at hp
  rcases hp with ((hp | hp) | hp) | hp
  · refine mapExcept_all (fun pd _ q hq => ?_) h1 p hp
    cases hpd : pd.1 with
    | none => simp [hpd] at hq
    | some node => simp only [hpd] at hq; exact paramFromNode_constructible hq
  · exact toVariadicParameter_constructible h2 p hp
  · exact mapExcept_all (fun pd _ q hq => paramFromNode_constructible hq) h3 p hp
  · exact toVariadicParameter_constructible h4 p hp

theorem adjusted_constructible {role : Role} {full ps : List Param} (h : Adjusted role full ps)
    (hf : ∀ p ∈ full, ConstructibleParam p) : ∀ p ∈ ps, ConstructibleParam p := by
  intro p hp
  cases role with
  | function => rw [show ps = full from h] at hp; exact hf p hp
  | constructor =>
    obtain ⟨first, rfl⟩ := h
    exact hf p (List.mem_cons_of_mem _ hp)
  | method =>
    obtain ⟨first, rest, rfl, rfl⟩ := h
    rcases List.mem_cons.1 hp with rfl | hp
    · exact .inl ⟨_, .kind .positionalOnly, _, rfl⟩
    · exact hf p (List.mem_cons_of_mem _ hp)
  | classMethod =>
    obtain ⟨first, rest, rfl, rfl⟩ := h
    rcases List.mem_cons.1 hp with rfl | hp
    · exact .inl ⟨_, .kind .positionalOnly, _, rfl⟩
    · exact hf p (List.mem_cons_of_mem _ hp)

theorem fromFunctionDef_constructible {R : Runtime} {f : FunctionDef} {c : Fn} {m parent : Path}
    {s : Sig} (h : fromFunctionDef R f c m parent = .ok s) : Constructible s := by
  obtain ⟨ps, r, hps, _, hw, rfl⟩ := fromFunctionDef_ok.1 h
  obtain ⟨full, role, hfull, _, hadj⟩ := parametersFrom_ok hps
  exact ⟨adjusted_constructible hadj (declared_constructible hfull),
    new_ok_iff.2 ⟨(validate_ok_iff _).2 hw, rfl⟩⟩

theorem fromCallableItem_constructible {ev : Expr → Except PyErr Obj} {e : Expr} {s : Sig}
    (h : fromCallableItem ev e = .ok s) : Constructible s := by
  unfold fromCallableItem at h
  split at h
  · split at h
    · simp only [except_bind_ok, pure_ok] at h
      obtain ⟨ps, hps, r, _, t, ht, rfl⟩ := h
      refine plainNew_constructible (mapExcept_all (fun ei _ q hq => ?_) hps) ht
      simp only [except_bind_ok] at hq
      obtain ⟨a, _, hq⟩ := hq
      exact required_constructible hq
    · simp only [except_bind_ok, pure_ok] at h
      obtain ⟨p1, h1, p2, h2, r, _, t, ht, rfl⟩ := h
      refine plainNew_constructible (fun p hp => ?_) ht
      simp only [List.mem_cons, List.not_mem_nil, or_false] at hp
      rcases hp with rfl | rfl
      · exact optional_constructible h1
      · exact optional_constructible h2
  · cases h
  · cases h

theorem members_constructible {l : List Sig} (h : ∀ s ∈ l, Constructible s) :
    ∀ s ∈ members l, ConstructiblePlain s := by
  induction l with
  | nil => simp [members]
  | cons a l ih =>
    have ih := ih fun s hs => h s (List.mem_cons_of_mem _ hs)
    have ha := h a List.mem_cons_self
    cases a with
    | plain a =>
      intro s hs
      rcases List.mem_cons.1 hs with rfl | hs
      · exact ha
      · exact ih s hs
    | overloaded ss =>
      intro s hs
      rcases List.mem_append.1 hs with hs | hs
      · exact ha.1 s hs
      · exact ih s hs

theorem collapse_constructible {ss : List PlainSig} {t : Sig}
    (h : ∀ s ∈ ss, ConstructiblePlain s) (ht : collapse ss = some t) : Constructible t := by
  match ss with
  | [] => simp [collapse] at ht
  | [s] => simp only [collapse, Option.some.injEq] at ht; subst ht; exact h s (by simp)
  | a :: b :: l =>
    simp only [collapse, Option.some.injEq] at ht
    subst ht
    refine ⟨h, ?_⟩
    rw [overloaded_new_plain, if_neg (by simp)]
    exact ⟨_, rfl⟩

theorem fromSignatures_constructible {l : List Sig} {t : Sig} (h : ∀ s ∈ l, Constructible s)
    (ht : fromSignatures l = .ok t) : Constructible t := by
  rw [fromSignatures_eq] at ht
  cases hc : collapse (members l) with
  | none => simp [hc] at ht
  | some u =>
    simp only [hc, Except.ok.injEq] at ht
    subst ht
    exact collapse_constructible (members_constructible h) hc

theorem bind_constructible {s t : Sig} (hs : Constructible s) {a : List Obj} {k : Kwargs}
    (h : s.bind a k = .ok t) : Constructible t := by
  rcases C03_overloaded_bind_legal s hs a k with ⟨u, hu, hc⟩ | ⟨tag, hu⟩
  · rw [hu] at h; cases h; exact hc
  · rw [hu] at h; cases h

theorem fromNamed_constructible {R : Runtime} {st : Stmt → Path → Except PyErr Sig} {e : Expr}
    {c : Fn} {m parent : Path} {s : Sig}
    (hst : ∀ node m s, st node m = .ok s → Constructible s)
    (h : fromNamed R st e c m parent = .ok s) : Constructible s := by
  unfold fromNamed at h
  simp only [except_bind_ok] at h
  obtain ⟨path, _, q, _, kinds, _, kind, _, h⟩ := h
  split at h
  · simp only [except_bind_ok] at h
    obtain ⟨nodes, _, sigs, hs, bound, hb, h⟩ := h
    have hs := mapExcept_all (P := Constructible) (fun node _ s hs => hst node _ s hs) hs
    exact fromSignatures_constructible
      (mapExcept_all (fun s hm t ht => bind_constructible (hs s hm) ht) hb) h
  · simp only [except_bind_ok] at h
    obtain ⟨nodes, _, stmts, _, h⟩ := h
    split at h
    · exact hst _ _ _ h
    · cases h

theorem fromExpression_statement_constructible (R : Runtime) : ∀ n : Nat,
    (∀ e c m parent s, fromExpression R n e c m parent = .ok s → Constructible s) ∧
    (∀ node c m parent s, fromStatement R n node c m parent = .ok s → Constructible s)
  | 0 => ⟨fun _ _ _ _ _ h => by simp [fromExpression] at h,
      fun _ _ _ _ _ h => by simp [fromStatement] at h⟩
  | n + 1 => by
    obtain ⟨ih1, ih2⟩ := fromExpression_statement_constructible R n
    constructor
    · intro e c m parent s h
      have named : ∀ e s, fromNamed R (fun node m => fromStatement R n node c m []) e c m parent =
          .ok s → Constructible s :=
        fun e s h => fromNamed_constructible (fun node m s h => ih2 node c m [] s h) h
      cases e with
      | name id load => rw [fromExpression] at h; exact named _ _ h
      | «attribute» v a l => rw [fromExpression] at h; exact named _ _ h
      | call func args keywords =>
        rw [fromExpression] at h
        simp only [except_bind_ok] at h
        obtain ⟨path, _, q, _, h⟩ := h
        split at h
        · split at h
          · simp only [except_bind_ok] at h
            obtain ⟨sigs, hs, h⟩ := h
            exact fromSignatures_constructible
              (mapExcept_all (fun e _ s hs => ih1 e c m parent s hs) hs) h
          · exact ih1 _ _ _ _ _ h
        · cases h
      | subscript value slice load =>
        rw [fromExpression] at h
        simp only [except_bind_ok] at h
        obtain ⟨path, _, q, _, h⟩ := h
        split at h
        · exact fromCallableItem_constructible h
        · cases h
      | _ => simp [fromExpression] at h
    · intro node c m parent s h
      cases node with
      | annAssign t a v => rw [fromStatement] at h; exact ih1 _ _ _ _ _ h
      | assign t v => rw [fromStatement] at h; exact ih1 _ _ _ _ _ h
      | functionDef f => rw [fromStatement] at h; exact fromFunctionDef_constructible h
      | _ => simp [fromStatement] at h

theorem fromPaths_constructible {R : Runtime} {value : Fn} {paths : List QPath} {s : Sig}
    (h : fromPaths R value paths = .ok s) : Constructible s := by
  induction paths with
  | nil => simp [fromPaths] at h
  | cons q paths ih =>
    obtain ⟨m, object⟩ := q
    rw [fromPaths] at h
    split at h
    · cases h
    · split at h
      · exact ih h
      · cases h
      · rename_i sigs hs
        exact fromSignatures_constructible
          (mapExcept_all (fun node _ s hs =>
            (fromExpression_statement_constructible R R.depth).2 _ _ _ _ _ hs) hs) h

theorem fromFn_constructible {R : Runtime} {value : Fn} {s : Sig}
    (h : fromFn R value = .ok s) : Constructible s := by
  unfold fromFn at h
  obtain ⟨paths, _, h⟩ := except_bind_ok.1 h
  exact fromPaths_constructible h

theorem fromInstance_constructible {R : Runtime} {self : Obj} {attr : Except PyErr Fn} {s : Sig}
    (h : fromInstance R self attr = .ok s) : Constructible s := by
  unfold fromInstance at h
  simp only [except_bind_ok] at h
  obtain ⟨f, _, t, ht, h⟩ := h
  exact bind_constructible (fromFn_constructible ht) h

theorem fromClass_constructible {R : Runtime} {f : Fn} {s : Sig}
    (h : fromClass R f = .ok s) : Constructible s := by
  unfold fromClass at h
  obtain ⟨paths, _, h⟩ := except_bind_ok.1 h
  split at h
  · cases h
  · simp only [except_bind_ok] at h
    obtain ⟨q, _, nodes, _, sigs, hs, h⟩ := h
    exact fromSignatures_constructible
      (mapExcept_all (fun node _ s hs =>
        (fromExpression_statement_constructible R R.depth).2 _ _ _ _ _ hs) hs) h

theorem fromInspect_constructible {raw : Except PyErr RawSig} {s : Sig}
    (h : fromInspect raw = .ok s) : Constructible s := by
  unfold fromInspect at h
  obtain ⟨r, _, h⟩ := except_bind_ok.1 h
  exact fromRawSignature_constructible h

theorem orElse_ok {r f : Except PyErr Sig} {s : Sig} (h : orElse r f = .ok s) :
    r = .ok s ∨ f = .ok s := by
  unfold orElse at h
  split at h
  · exact .inr h
  · exact .inl h

theorem Spec.LookedUpAs.fromCallable {callable : Callable} {f : Fn} {raw : Except PyErr RawSig}
    (h : LookedUpAs callable f raw) (R : Runtime) :
    Paradigm.fromCallable R callable = orElse (fromFn R f) (fromInspect raw) := by
  cases h <;> rfl

theorem fromCallable_constructible (R : Runtime) : ∀ (c : Callable) (s : Sig),
    fromCallable R c = .ok s → Constructible s := by
  intro c
  induction c with
  | builtin owner qualname obj raw =>
    intro s h
    simp only [fromCallable] at h
    rcases orElse_ok h with h | h
    · cases owner with
      | «instance» self attr => exact fromInstance_constructible h
      | _ => exact fromFn_constructible h
    · exact fromInspect_constructible h
  | function f raw =>
    intro s h
    rw [fromCallable] at h
    rcases orElse_ok h with h | h
    · exact fromFn_constructible h
    · exact fromInspect_constructible h
  | method f self raw =>
    intro s h
    simp only [fromCallable] at h
    rcases orElse_ok h with h | h
    · cases self with
      | none => exact fromFn_constructible h
      | some p => exact fromInstance_constructible h
    · exact fromInspect_constructible h
  | methodWrapper self raw =>
    intro s h
    cases self with
    | none => simp [fromCallable] at h
    | some p =>
      rw [fromCallable] at h
      rcases orElse_ok h with h | h
      · exact fromInstance_constructible h
      · exact fromInspect_constructible h
  | descriptor f raw =>
    intro s h
    rw [fromCallable] at h
    rcases orElse_ok h with h | h
    · exact fromFn_constructible h
    · exact fromInspect_constructible h
  | cls f raw =>
    intro s h
    rw [fromCallable] at h
    rcases orElse_ok h with h | h
    · exact fromClass_constructible h
    · obtain ⟨r, _, h⟩ := except_bind_ok.1 h
      exact fromRawSignature_constructible h
  | partial_ func args keywords ih =>
    intro s h
    rw [fromCallable] at h
    obtain ⟨t, ht, h⟩ := except_bind_ok.1 h
    exact bind_constructible (ih t ht) h
  | other => intro s h; simp [fromCallable] at h

/-! ### Which errors escape -/

theorem required_error {a : Obj} {k : Kind} {n : String} {e : PyErr}
    (h : RequiredParameter.new a (.kind k) n = .error e) : ∃ tag, e = .valueError tag := by
  simp only [RequiredParameter.new, validateKind] at h
  split at h
  · cases h
  · cases h; exact ⟨_, rfl⟩

theorem optional_error {a d : Obj} {k : Kind} {n : String} {e : PyErr}
    (h : OptionalParameter.new a (.kind k) n d = .error e) : ∃ tag, e = .valueError tag := by
  simp only [OptionalParameter.new, validateKind] at h
  split at h
  · cases h; exact ⟨_, rfl⟩
  · cases h

theorem paramFromRaw_error {raw : RawParam} {e : PyErr} (h : paramFromRaw raw = .error e) :
    ∃ tag, e = .valueError tag := by
  unfold paramFromRaw at h
  cases hd : raw.default with
  | none =>
    simp only [hd] at h
    split at h
    · exact optional_error h
    · exact required_error h
  | some d => simp only [hd] at h; exact optional_error h

theorem plainNew_error {ps : List Param} {r : Obj} {e : PyErr}
    (h : PlainSig.new ps r = .error e) : ∃ tag, e = .valueError tag := by
  unfold PlainSig.new at h
  split at h
  · rename_i e' hv
    cases h
    cases ps with
    | nil => cases hv
    | cons p ps => exact validateRest_error ps _ _ _ _ hv
  · cases h

theorem fromRawSignature_error {raw : RawSig} {e : PyErr} (h : fromRawSignature raw = .error e) :
    ∃ tag, e = .valueError tag := by
  unfold fromRawSignature at h
  rcases except_bind_error.1 h with h | ⟨ps, _, h⟩
  · obtain ⟨p, _, h⟩ := mapExcept_error h
    exact paramFromRaw_error h
  · rcases except_bind_error.1 h with h | ⟨s, _, h⟩
    · exact plainNew_error h
    · cases h

theorem orElse_notFound {r f : Except PyErr Sig} (h : orElse r f = .error .signatureNotFound) :
    f = .error .signatureNotFound := by
  unfold orElse at h
  split at h
  · exact h
  · rename_i hne; exact absurd h (hne)

/-! ### Order -/

theorem pathLt_iff (p q : Path) : pathLt p q = true ↔ PathBefore p q := by
  unfold pathLt
  rw [decide_eq_true_eq]
  induction p generalizing q with
  | nil => cases q <;> simp [PathBefore]
  | cons x xs ih =>
    cases q with
    | nil => simp [PathBefore]
    | cons y ys => rw [List.cons_lt_cons_iff, ih]; rfl

theorem pathBefore_irrefl (p : Path) : ¬ PathBefore p p := by
  induction p with
  | nil => exact id
  | cons x xs ih => exact fun h => h.elim (String.lt_irrefl _) fun h => ih h.2

theorem pathBefore_trans {p q r : Path} (h : PathBefore p q) (h' : PathBefore q r) :
    PathBefore p r := by
  induction p generalizing q r with
  | nil =>
    cases r with
    | nil => cases q <;> exact h'
    | cons z zs => trivial
  | cons x xs ih =>
    cases q with
    | nil => exact h.elim
    | cons y ys =>
      cases r with
      | nil => exact h'.elim
      | cons z zs =>
        rcases h with h | ⟨rfl, h⟩ <;> rcases h' with h' | ⟨rfl, h'⟩
        · exact .inl (String.lt_trans h h')
        · exact .inl h
        · exact .inl h'
        · exact .inr ⟨rfl, ih h h'⟩

theorem string_trichotomy (x y : String) : x < y ∨ x = y ∨ y < x := by
  by_cases h : x < y
  · exact .inl h
  · by_cases h' : y < x
    · exact .inr (.inr h')
    · exact .inr (.inl (String.le_antisymm h' h))

theorem pathBefore_trichotomy (p q : Path) : PathBefore p q ∨ p = q ∨ PathBefore q p := by
  induction p generalizing q with
  | nil => cases q with
    | nil => exact .inr (.inl rfl)
    | cons => exact .inl trivial
  | cons x xs ih =>
    cases q with
    | nil => exact .inr (.inr trivial)
    | cons y ys =>
      rcases string_trichotomy x y with h | rfl | h
      · exact .inl (.inl h)
      · rcases ih ys with h | rfl | h
        · exact .inl (.inr ⟨rfl, h⟩)
        · exact .inr (.inl rfl)
        · exact .inr (.inr (.inr ⟨rfl, h⟩))
      · exact .inr (.inr (.inl h))

theorem qpathLt_iff (p q : QPath) : qpathLt p q = true ↔ QPathBefore p q := by
  simp [qpathLt, QPathBefore, pathLt_iff]

theorem qpathBefore_trans {p q r : QPath} (h : QPathBefore p q) (h' : QPathBefore q r) :
    QPathBefore p r := by
  rcases h with h | ⟨e, h⟩ <;> rcases h' with h' | ⟨e', h'⟩
  · exact .inl (pathBefore_trans h h')
  · exact .inl (e' ▸ h)
  · exact .inl (e ▸ h')
  · exact .inr ⟨e.trans e', pathBefore_trans h h'⟩

theorem qpathBefore_trichotomy (p q : QPath) : QPathBefore p q ∨ p = q ∨ QPathBefore q p := by
  obtain ⟨a, b⟩ := p
  obtain ⟨c, d⟩ := q
  rcases pathBefore_trichotomy a c with h | rfl | h
  · exact .inl (.inl h)
  · rcases pathBefore_trichotomy b d with h | rfl | h
    · exact .inl (.inr ⟨rfl, h⟩)
    · exact .inr (.inl rfl)
    · exact .inr (.inr (.inr ⟨rfl, h⟩))
  · exact .inr (.inr (.inl h))

theorem mem_insertSorted {q x : QPath} {l : List QPath} :
    x ∈ insertSorted q l ↔ x = q ∨ x ∈ l := by
  induction l with
  | nil => simp [insertSorted]
  | cons y l ih =>
    rw [insertSorted]
    split
    · simp
    · split
      · rename_i h; rw [beq_iff_eq] at h; subst h; simp
      · simp only [List.mem_cons, ih]
        exact or_left_comm

theorem mem_sortedSet {x : QPath} {l : List QPath} : x ∈ sortedSet l ↔ x ∈ l := by
  induction l with
  | nil => simp [sortedSet]
  | cons y l ih => rw [sortedSet, mem_insertSorted, ih, List.mem_cons]

theorem insertSorted_pairwise {q : QPath} {l : List QPath} (h : l.Pairwise QPathBefore) :
    (insertSorted q l).Pairwise QPathBefore := by
  induction l with
  | nil => simp [insertSorted]
  | cons y l ih =>
    obtain ⟨h1, h2⟩ := List.pairwise_cons.1 h
    rw [insertSorted]
    split
    · rename_i hq
      rw [qpathLt_iff] at hq
      refine List.pairwise_cons.2 ⟨fun x hx => ?_, h⟩
      rcases List.mem_cons.1 hx with rfl | hx
      · exact hq
      · exact qpathBefore_trans hq (h1 x hx)
    · rename_i hq
      rw [qpathLt_iff] at hq
      split
      · exact h
      · rename_i hne
        rw [beq_iff_eq] at hne
        refine List.pairwise_cons.2 ⟨fun x hx => ?_, ih h2⟩
        rcases mem_insertSorted.1 hx with rfl | hx
        · rcases qpathBefore_trichotomy x y with h | h | h
          · exact absurd h hq
          · exact absurd h hne
          · exact h
        · exact h1 x hx

theorem sortedSet_pairwise (l : List QPath) : (sortedSet l).Pairwise QPathBefore := by
  induction l with
  | nil => exact List.Pairwise.nil
  | cons y l ih => exact insertSorted_pairwise ih

theorem qpathBefore_irrefl (q : QPath) : ¬ QPathBefore q q := fun h =>
  h.elim (pathBefore_irrefl _) fun h => pathBefore_irrefl _ h.2

/-! ### Constructors of classes -/

theorem declared_iff_isSome {S : Stubs} {m o : Path} {nodes : Dict Path (List Stmt)}
    (hm : S.rawAstNodes.lookup m = some nodes) :
    (nodes.lookup o).isSome = true ↔ Declared S (m, o) := by
  rw [Option.isSome_iff_exists]
  constructor
  · rintro ⟨stmts, h⟩; exact ⟨nodes, stmts, hm, h⟩
  · rintro ⟨nodes', stmts, h, h'⟩
    simp only [hm, Option.some.injEq] at h
    subst h
    exact ⟨stmts, h'⟩

theorem firstHit_skip {α β : Type} {f : α → Except PyErr (Option β)} {pre post : List α}
    (h : ∀ x ∈ pre, f x = .ok none) : firstHit f (pre ++ post) = firstHit f post := by
  induction pre with
  | nil => rfl
  | cons x pre ih =>
    rw [List.cons_append, firstHit, h x List.mem_cons_self]
    exact ih fun y hy => h y (List.mem_cons_of_mem _ hy)

theorem firstHit_hit {α β : Type} {f : α → Except PyErr (Option β)} {x : α} {post : List α}
    {b : β} (h : f x = .ok (some b)) : firstHit f (x :: post) = .ok (some b) := by
  rw [firstHit, h]

theorem builderSearch_bases {R : Runtime} {object : Path} {n : Nat} {q : QPath}
    (hm : ∃ nodes, R.stubs.rawAstNodes.lookup q.1 = some nodes)
    (hi : ¬ Declared R.stubs (q.1, object ++ ["__init__"]))
    (hn : ¬ Declared R.stubs (q.1, object ++ ["__new__"])) :
    builderSearch R object (n + 1) q =
      firstHit (builderSearch R object n) (declaredBases R.stubs q) := by
  obtain ⟨nodes, hm⟩ := hm
  obtain ⟨m, o⟩ := q
  rw [builderSearch]
  simp only [hm]
  rw [← declared_iff_isSome hm] at hi hn
  rw [if_neg hi, if_neg hn]
  unfold declaredBases
  split
  · rename_i h; rw [h]; rfl
  · rename_i h; rw [h]; rfl

theorem builderSearch_init {R : Runtime} {object : Path} {n : Nat} {q : QPath}
    (hi : Declared R.stubs (q.1, object ++ ["__init__"])) :
    builderSearch R object (n + 1) q = .ok (some (q.1, object ++ ["__init__"])) := by
  obtain ⟨m, o⟩ := q
  obtain ⟨nodes, stmts, hm, hs⟩ := hi
  simp only [] at hm hs
  rw [builderSearch]
  simp [hm, hs]

theorem builderSearch_new {R : Runtime} {object : Path} {n : Nat} {q : QPath}
    (hi : ¬ Declared R.stubs (q.1, object ++ ["__init__"]))
    (hn : Declared R.stubs (q.1, object ++ ["__new__"])) :
    builderSearch R object (n + 1) q = .ok (some (q.1, object ++ ["__new__"])) := by
  obtain ⟨m, o⟩ := q
  obtain ⟨nodes, stmts, hm, hs⟩ := hn
  simp only [] at hm hs
  rw [← declared_iff_isSome hm] at hi
  rw [builderSearch]
  simp only [hm]
  rw [if_neg hi, if_pos (by simp [hs])]

/-- Enough depth for all elements of a list. -/
theorem uniform_depth {α : Type} {P : Nat → α → Prop} (l : List α)
    (h : ∀ x ∈ l, ∃ n, ∀ k, n ≤ k → P k x) : ∃ n, ∀ k, n ≤ k → ∀ x ∈ l, P k x := by
  induction l with
  | nil => exact ⟨0, by simp⟩
  | cons x l ih =>
    obtain ⟨n, hn⟩ := h x List.mem_cons_self
    obtain ⟨n', hn'⟩ := ih fun y hy => h y (List.mem_cons_of_mem _ hy)
    refine ⟨max n n', fun k hk y hy => ?_⟩
    rcases List.mem_cons.1 hy with rfl | hy
    · exact hn k (by omega)
    · exact hn' k (by omega) y hy

theorem builderSearch_lacks {R : Runtime} {q : QPath} (h : Lacks R.stubs q) :
    (∀ a, Ancestor R.stubs q a → a.2 = q.2) →
    ∃ n, ∀ k, n ≤ k → builderSearch R q.2 k q = .ok none := by
  induction h with
  | mk q hm hi hn hb ih =>
    intro hsame
    have hbs : ∀ b ∈ declaredBases R.stubs q,
        ∃ n, ∀ k, n ≤ k → builderSearch R q.2 k b = .ok none := by
      intro b hbm
      have e : b.2 = q.2 := hsame b (.step hbm (.refl b))
      rw [← e]
      exact ih b hbm fun a ha => (hsame a (.step hbm ha)).trans e.symm
    obtain ⟨n, hn'⟩ := uniform_depth _ hbs
    refine ⟨n + 1, fun k hk => ?_⟩
    obtain ⟨k, rfl⟩ : ∃ j, k = j + 1 := ⟨k - 1, by omega⟩
    rw [builderSearch_bases hm hi hn]
    have := firstHit_skip (pre := declaredBases R.stubs q) (post := [])
      (hn' k (by omega))
    rw [List.append_nil] at this
    rw [this]; rfl

theorem builderSearch_constructs {R : Runtime} {q r : QPath} (h : Constructs R.stubs q r) :
    (∀ a, Ancestor R.stubs q a → a.2 = q.2) →
    ∃ n, ∀ k, n ≤ k → builderSearch R q.2 k q = .ok (some r) := by
  induction h with
  | init q hi =>
    refine fun _ => ⟨1, fun k hk => ?_⟩
    obtain ⟨k, rfl⟩ : ∃ j, k = j + 1 := ⟨k - 1, by omega⟩
    exact builderSearch_init hi
  | new q hi hn =>
    refine fun _ => ⟨1, fun k hk => ?_⟩
    obtain ⟨k, rfl⟩ : ∃ j, k = j + 1 := ⟨k - 1, by omega⟩
    exact builderSearch_new hi hn
  | inherited q pre b post r hm hi hn hb hpre _ ih =>
    intro hsame
    have hmem : ∀ x ∈ pre ++ b :: post, x ∈ declaredBases R.stubs q := fun x hx => hb ▸ hx
    have hbm : b ∈ declaredBases R.stubs q := hmem b (by simp)
    have e : b.2 = q.2 := hsame b (.step hbm (.refl b))
    have hps : ∀ p ∈ pre, ∃ n, ∀ k, n ≤ k → builderSearch R q.2 k p = .ok none := by
      intro p hp
      have hpm := hmem p (by simp [hp])
      have e : p.2 = q.2 := hsame p (.step hpm (.refl p))
      rw [← e]
      exact builderSearch_lacks (hpre p hp) fun a ha => (hsame a (.step hpm ha)).trans e.symm
    obtain ⟨n, hn'⟩ := uniform_depth _ hps
    obtain ⟨n', hb'⟩ := ih fun a ha => (hsame a (.step hbm ha)).trans e.symm
    rw [e] at hb'
    refine ⟨max n n' + 1, fun k hk => ?_⟩
    obtain ⟨k, rfl⟩ : ∃ j, k = j + 1 := ⟨k - 1, by omega⟩
    rw [builderSearch_bases hm hi hn, hb, firstHit_skip (hn' k (by omega))]
    exact firstHit_hit (hb' k (by omega))

theorem builderSearch_depth (R : Runtime) (d : Nat) (object : Path) (n : Nat) (q : QPath) :
    builderSearch { R with depth := d } object n q = builderSearch R object n q := by
  induction n generalizing q with
  | zero => rfl
  | succ n ih =>
    obtain ⟨m, o⟩ := q
    have : builderSearch { R with depth := d } object n = builderSearch R object n :=
      funext fun q => ih q
    rw [builderSearch, builderSearch, this]

end Paradigm
