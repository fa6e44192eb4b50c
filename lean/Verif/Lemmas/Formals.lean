import Verif.Lemmas.Definitions

/-! Legality of the parameter list of a definition. -/

namespace Paradigm

open PyCall Spec

theorem zipIdx_pairwise {α : Type} (l : List α) (k : Nat) :
    (l.zipIdx k).Pairwise (fun p q => p.2 < q.2) := by
  induction l generalizing k with
  | nil => simp
  | cons a l ih =>
    rw [List.zipIdx_cons, List.pairwise_cons]
    refine ⟨fun p hp => ?_, ih _⟩
    have := List.le_snd_of_mem_zipIdx hp
    simp only []; omega

theorem positionalDefault_isSome {a : Arguments} {i : Nat}
    (hi : i < a.posonlyargs.length + a.args.length) :
    (positionalDefault a i).isSome ↔
      a.posonlyargs.length + a.args.length ≤ i + a.defaults.length := by
  unfold positionalDefault
  simp only []
  split
  · rename_i h
    simp only [Option.isSome_none, Bool.false_eq_true, false_iff]; omega
  · rename_i h
    rw [List.getElem?_eq_getElem (by omega)]
    simp only [Option.isSome_some, true_iff]; omega

theorem formals_ordered (a : Arguments) :
    (formals a).Pairwise (fun p q => rank p.kind ≤ rank q.kind) := by
  have hc : ∀ (k : Kind) {l : List Formal}, (∀ f ∈ l, f.kind = k) →
      l.Pairwise (fun p q => rank p.kind ≤ rank q.kind) := by
    intro k l h
    rw [List.pairwise_iff_forall_sublist]
    intro p q hs
    rw [h p (hs.subset (by simp)), h q (hs.subset (by simp))]
    exact Nat.le_refl _
  unfold formals
  rw [List.pairwise_append, List.pairwise_append, List.pairwise_append, List.pairwise_append]
  have k1 : ∀ f ∈ (a.posonlyargs.zipIdx.map (fun p => { arg := p.1, default := positionalDefault a p.2, kind := .positionalOnly : Formal })), f.kind = .positionalOnly := by
    intro f hf; obtain ⟨_, _, rfl⟩ := List.mem_map.1 hf; rfl
  have k2 : ∀ f ∈ (a.args.zipIdx.map (fun p => { arg := p.1, default := positionalDefault a (a.posonlyargs.length + p.2), kind := .positionalOrKeyword : Formal })), f.kind = .positionalOrKeyword := by
    intro f hf; obtain ⟨_, _, rfl⟩ := List.mem_map.1 hf; rfl
  have k3 : ∀ f ∈ (a.vararg.toList.map (fun p => { arg := p, default := none, kind := .variadicPositional : Formal })), f.kind = .variadicPositional := by
    intro f hf; obtain ⟨_, _, rfl⟩ := List.mem_map.1 hf; rfl
  have k4 : ∀ f ∈ ((a.kwonlyargs.zip a.kwDefaults).map (fun p => { arg := p.1, default := p.2, kind := .keywordOnly : Formal })), f.kind = .keywordOnly := by
    intro f hf; obtain ⟨_, _, rfl⟩ := List.mem_map.1 hf; rfl
  have k5 : ∀ f ∈ (a.kwarg.toList.map (fun p => { arg := p, default := none, kind := .variadicKeyword : Formal })), f.kind = .variadicKeyword := by
    intro f hf; obtain ⟨_, _, rfl⟩ := List.mem_map.1 hf; rfl
  refine ⟨⟨⟨⟨hc _ k1, hc _ k2, ?_⟩, hc _ k3, ?_⟩, hc _ k4, ?_⟩, hc _ k5, ?_⟩
  · intro p hp q hq
    rw [k1 p hp, k2 q hq]; decide
  · intro p hp q hq
    rw [k3 q hq]
    rcases List.mem_append.1 hp with hp | hp
    · rw [k1 p hp]; decide
    · rw [k2 p hp]; decide
  · intro p hp q hq
    rw [k4 q hq]
    rcases List.mem_append.1 hp with hp | hp
    · rcases List.mem_append.1 hp with hp | hp
      · rw [k1 p hp]; decide
      · rw [k2 p hp]; decide
    · rw [k3 p hp]; decide
  · intro p hp q hq
    rw [k5 q hq]
    cases p.kind <;> decide

theorem formals_countP (a : Arguments) (k : Kind) (hk : Variadic k) :
    (formals a).countP (fun f => f.kind == k) ≤ 1 := by
  have hz : ∀ (k' : Kind) {l : List Formal}, (∀ f ∈ l, f.kind = k') → k' ≠ k →
      l.countP (fun f => f.kind == k) = 0 := by
    intro k' l h hne
    rw [List.countP_eq_zero]
    intro f hf
    rw [h f hf]; simp [hne]
  have hle : ∀ (o : Option Arg) (g : Arg → Formal),
      (o.toList.map g).countP (fun f => f.kind == k) ≤ 1 := by
    intro o g
    refine Nat.le_trans List.countP_le_length ?_
    cases o <;> simp
  unfold formals
  rw [List.countP_append, List.countP_append, List.countP_append, List.countP_append]
  have z1 := hz .positionalOnly (l := a.posonlyargs.zipIdx.map (fun p =>
      { arg := p.1, default := positionalDefault a p.2, kind := .positionalOnly }))
    (by intro f hf; obtain ⟨_, _, rfl⟩ := List.mem_map.1 hf; rfl)
    (by rcases hk with rfl | rfl <;> simp)
  have z2 := hz .positionalOrKeyword (l := a.args.zipIdx.map (fun p =>
      { arg := p.1, default := positionalDefault a (a.posonlyargs.length + p.2),
        kind := .positionalOrKeyword }))
    (by intro f hf; obtain ⟨_, _, rfl⟩ := List.mem_map.1 hf; rfl)
    (by rcases hk with rfl | rfl <;> simp)
  have z4 := hz .keywordOnly (l := (a.kwonlyargs.zip a.kwDefaults).map (fun p =>
      { arg := p.1, default := p.2, kind := .keywordOnly }))
    (by intro f hf; obtain ⟨_, _, rfl⟩ := List.mem_map.1 hf; rfl)
    (by rcases hk with rfl | rfl <;> simp)
  have z3 := hle a.vararg (fun p => { arg := p, default := none, kind := .variadicPositional })
  have z5 := hle a.kwarg (fun p => { arg := p, default := none, kind := .variadicKeyword })
  rcases hk with rfl | rfl
  · have := hz .variadicKeyword (l := a.kwarg.toList.map (fun p =>
        { arg := p, default := none, kind := .variadicKeyword }))
      (by intro f hf; obtain ⟨_, _, rfl⟩ := List.mem_map.1 hf; rfl) (by simp)
    omega
  · have := hz .variadicPositional (l := a.vararg.toList.map (fun p =>
        { arg := p, default := none, kind := .variadicPositional }))
      (by intro f hf; obtain ⟨_, _, rfl⟩ := List.mem_map.1 hf; rfl) (by simp)
    omega

/-- The positional formals. -/
theorem formals_positional (a : Arguments) :
    (formals a).filter (fun f => f.kind == .positionalOnly || f.kind == .positionalOrKeyword) =
    a.posonlyargs.zipIdx.map (fun p =>
      { arg := p.1, default := positionalDefault a p.2, kind := .positionalOnly }) ++
    a.args.zipIdx.map (fun p =>
      { arg := p.1, default := positionalDefault a (a.posonlyargs.length + p.2),
        kind := .positionalOrKeyword }) := by
  have hall : ∀ (k' : Kind) {l : List Formal}, (∀ f ∈ l, f.kind = k') →
      (k' == .positionalOnly || k' == .positionalOrKeyword) = true →
      l.filter (fun f => f.kind == .positionalOnly || f.kind == .positionalOrKeyword) = l := by
    intro k' l h hk
    exact List.filter_eq_self.2 fun f hf => by rw [h f hf]; exact hk
  have hnone : ∀ (k' : Kind) {l : List Formal}, (∀ f ∈ l, f.kind = k') →
      (k' == .positionalOnly || k' == .positionalOrKeyword) = false →
      l.filter (fun f => f.kind == .positionalOnly || f.kind == .positionalOrKeyword) = [] := by
    intro k' l h hk
    exact List.filter_eq_nil_iff.2 fun f hf => by rw [h f hf, hk]; simp
  unfold formals
  rw [List.filter_append, List.filter_append, List.filter_append, List.filter_append,
    hall .positionalOnly (by intro f hf; obtain ⟨_, _, rfl⟩ := List.mem_map.1 hf; rfl) rfl,
    hall .positionalOrKeyword (by intro f hf; obtain ⟨_, _, rfl⟩ := List.mem_map.1 hf; rfl) rfl,
    hnone .variadicPositional (by intro f hf; obtain ⟨_, _, rfl⟩ := List.mem_map.1 hf; rfl) rfl,
    hnone .keywordOnly (by intro f hf; obtain ⟨_, _, rfl⟩ := List.mem_map.1 hf; rfl) rfl,
    hnone .variadicKeyword (by intro f hf; obtain ⟨_, _, rfl⟩ := List.mem_map.1 hf; rfl) rfl]
  simp

theorem formals_optionalsLast (a : Arguments) :
    ((formals a).filter
      (fun f => f.kind == .positionalOnly || f.kind == .positionalOrKeyword)).Pairwise
      (fun p q => p.default.isSome → q.default.isSome) := by
  rw [formals_positional, List.pairwise_append, List.pairwise_map, List.pairwise_map]
  have hmem : ∀ {l : List Arg} {p : Arg × Nat}, p ∈ l.zipIdx → p.2 < l.length := by
    intro l p hp
    have := List.snd_lt_of_mem_zipIdx hp
    omega
  refine ⟨?_, ?_, ?_⟩
  · have := zipIdx_pairwise a.posonlyargs 0
    refine List.Pairwise.imp_of_mem ?_ this
    intro p q hp hq hlt h
    have h1 := hmem hp; have h2 := hmem hq
    rw [positionalDefault_isSome (by omega)] at h ⊢
    omega
  · have := zipIdx_pairwise a.args 0
    refine List.Pairwise.imp_of_mem ?_ this
    intro p q hp hq hlt h
    have h1 := hmem hp; have h2 := hmem hq
    rw [positionalDefault_isSome (by omega)] at h ⊢
    omega
  · intro p hp q hq h
    obtain ⟨x, hx, rfl⟩ := List.mem_map.1 hp
    obtain ⟨y, hy, rfl⟩ := List.mem_map.1 hq
    have h1 := hmem hx; have h2 := hmem hy
    simp only at h ⊢
    rw [positionalDefault_isSome (by omega)] at h ⊢
    omega

/-- Parameters with the names and requiredness of the formals of a definition and kinds that keep
order and the kind of variadic ones form a legal list. -/
theorem formals_wellFormed {a : Arguments} (ha : Parsed a) {ps : List Param}
    (h : Pointwise (fun (f : Formal) (p : Param) => p.name = f.arg.name ∧
      (p.kind = f.kind ∨ p.kind = .positionalOnly ∧ f.kind = .positionalOrKeyword) ∧
      (p.isOptional = true ↔ f.default.isSome ∨ Variadic f.kind)) (formals a) ps)
    (hord : ps.Pairwise (fun p q => rank p.kind ≤ rank q.kind)) : WellFormed ps where
  distinct := by
    rw [← h.map_eq (f := fun f : Formal => f.arg.name) (g := Param.name) fun _ _ h => h.1.symm]
    exact ha.distinct
  ordered := hord
  oneVarPositional := by
    rw [← h.countP (f := fun f : Formal => f.kind == .variadicPositional)
      (fun _ _ h => by
        rcases h.2.1 with h | ⟨h, h'⟩
        · rw [h]
        · rw [h, h']; rfl)]
    exact formals_countP a _ (.inl rfl)
  oneVarKeyword := by
    rw [← h.countP (f := fun f : Formal => f.kind == .variadicKeyword)
      (fun _ _ h => by
        rcases h.2.1 with h | ⟨h, h'⟩
        · rw [h]
        · rw [h, h']; rfl)]
    exact formals_countP a _ (.inr rfl)
  optionalsLast := by
    have hf := h.filter (f := fun f : Formal => f.kind == .positionalOnly ||
        f.kind == .positionalOrKeyword) (g := isPositional) (fun f p h => by
      rcases h.2.1 with h | ⟨h, h'⟩
      · unfold isPositional; rw [h]; cases f.kind <;> rfl
      · unfold isPositional; rw [h, h']; rfl)
    have hf' : Pointwise (fun (f : Formal) (p : Param) => f.default.isSome ↔ p.isOptional = true)
        _ _ := hf.imp fun f hm p _ h => by
      have hk := (List.mem_filter.1 hm).2
      rw [h.2.2]
      constructor
      · exact .inl
      · rintro (h | h | h)
        · exact h
        · simp [h] at hk
        · simp [h] at hk
    exact hf'.pairwise (fun _ _ _ _ h h' hr hp => h'.1 (hr (h.2 hp))) (formals_optionalsLast a)

/-- The formal parameters of any definition form a legal list. -/
theorem declares_wellFormed {a : Arguments} (ha : Parsed a) {ps : List Param}
    (h : Pointwise Declares (formals a) ps) : WellFormed ps :=
  formals_wellFormed ha (h.imp fun _ _ _ _ h => ⟨h.name, .inl h.kind, h.optional⟩)
    (h.pairwise (fun _ _ _ _ h h' hr => by rw [h.kind, h'.kind]; exact hr) (formals_ordered a))

/-- The transcribed parameters form a legal list. -/
theorem transcribes_wellFormed {ev : Expr → Except PyErr Obj} {a : Arguments} (ha : Parsed a)
    {ps : List Param} (h : Pointwise (Transcribes ev) (formals a) ps) : WellFormed ps := by
  refine formals_wellFormed ha (h.imp fun f _ p _ h => ⟨h.name, ?_, h.optional⟩) ?_
  · have := h.kind
    split at this
    · exact .inr ⟨this, by assumption⟩
    · exact .inl this
  · refine h.pairwise (fun f p f' p' h h' hr => ?_) (formals_ordered a)
    rw [h.kind, h'.kind]
    revert hr
    cases f.kind <;> cases f'.kind <;> decide

/-- Dropping the first parameter, or making it required and positional-only, stays legal. -/
theorem adjusted_wellFormed {role : Role} {full ps : List Param} (h : Adjusted role full ps)
    (hw : WellFormed full) : WellFormed ps := by
  have hrep : ∀ (a : Obj) (first : Param) (rest : List Param), WellFormed (first :: rest) →
      WellFormed (.required a .positionalOnly first.name :: rest) := by
    intro a first rest hw
    have hrest := wellFormed_sublist hw (List.sublist_cons_self first rest)
    refine ⟨?_, ?_, ?_, ?_, ?_⟩
    · exact hw.distinct
    · exact List.pairwise_cons.2 ⟨fun q _ => Nat.zero_le _, hrest.ordered⟩
    · have := hrest.oneVarPositional
      rw [List.countP_cons]; simpa [Param.kind] using this
    · have := hrest.oneVarKeyword
      rw [List.countP_cons]; simpa [Param.kind] using this
    · rw [List.filter_cons, if_pos (by rfl)]
      exact List.pairwise_cons.2 ⟨fun q _ h => by simp [Param.isOptional] at h,
        hrest.optionalsLast⟩
  cases role with
  | function => rw [show ps = full from h]; exact hw
  | constructor =>
    obtain ⟨first, rfl⟩ := h
    exact wellFormed_sublist hw (List.sublist_cons_self first ps)
  | method =>
    obtain ⟨first, rest, rfl, rfl⟩ := h
    exact hrep _ _ _ hw
  | classMethod =>
    obtain ⟨first, rest, rfl, rfl⟩ := h
    exact hrep _ _ _ hw

/-! ### The role of a definition -/

theorem anyExcept_ok {α : Type} {f : α → Except PyErr Bool} {l : List α} {b : Bool}
    (h : anyExcept f l = .ok b) : b = true ↔ ∃ x ∈ l, f x = .ok true := by
  induction l with
  | nil => simp [anyExcept] at h; subst h; simp
  | cons x l ih =>
    rw [anyExcept] at h
    cases hf : f x with
    | error e => simp [hf] at h
    | ok c =>
      cases c with
      | true =>
        simp only [hf, Except.ok.injEq] at h
        subst h
        simp [hf]
      | false =>
        simp only [hf] at h
        rw [ih h]
        simp [hf]

theorem anyExcept_total {α : Type} {f : α → Except PyErr Bool} {l : List α}
    (h : ∀ x ∈ l, ∃ b, f x = .ok b) : ∃ b, anyExcept f l = .ok b := by
  induction l with
  | nil => exact ⟨_, rfl⟩
  | cons x l ih =>
    rw [anyExcept]
    obtain ⟨b, hb⟩ := h x (by simp)
    cases b with
    | true => exact ⟨true, by simp [hb]⟩
    | false =>
      obtain ⟨b, hb'⟩ := ih fun y hy => h y (List.mem_cons_of_mem _ hy)
      exact ⟨b, by simp [hb, hb']⟩

theorem isClassmethod_iff (R : Runtime) (m parent : Path) (d : Expr) :
    isClassmethod R m parent d = .ok true ↔ IsClassmethod R m parent d := by
  unfold isClassmethod IsClassmethod
  cases hp : toMaybePath d with
  | none => simp
  | some path =>
    simp only [Option.some.injEq, exists_eq_left']
    cases hr : R.resolve m parent path with
    | error e => simp
    | ok q => simp [builtinsPath]

theorem replaceFirst_ok {a : Obj} {full ps : List Param} :
    replaceFirst a full = .ok ps ↔ ∃ first rest, full = first :: rest ∧
      ps = .required a .positionalOnly first.name :: rest := by
  cases full with
  | nil => simp [replaceFirst]
  | cons p full =>
    have hr : RequiredParameter.new a (.kind .positionalOnly) p.name =
        .ok (.required a .positionalOnly p.name) := required_new _ _ _ (by simp [Variadic])
    simp only [replaceFirst, hr, except_bind_ok, pure_ok, Except.ok.injEq, exists_eq_left',
      List.cons.injEq]
    constructor
    · rintro rfl; exact ⟨p, full, ⟨rfl, rfl⟩, rfl⟩
    · rintro ⟨_, _, ⟨rfl, rfl⟩, rfl⟩; rfl

/-- What `_parameters_from` returns, if it returns. -/
theorem parametersFrom_ok {R : Runtime} {f : FunctionDef} {c : Fn} {m parent : Path}
    {ps : List Param} (h : parametersFrom R f c m parent = .ok ps) :
    ∃ full role, declaredParameters (R.ev m parent) f.args = .ok full ∧
      HasRole R f c m parent role ∧ Adjusted role full ps := by
  unfold parametersFrom at h
  rw [except_bind_ok] at h
  obtain ⟨full, hfull, h⟩ := h
  by_cases hc : c.isType = true
  · rw [if_pos hc] at h
    cases full with
    | nil => simp at h
    | cons p full =>
      simp only [Except.ok.injEq] at h
      subst h
      exact ⟨_, .constructor, hfull, hc, p, rfl⟩
  · rw [if_neg hc, except_bind_ok] at h
    have hc' : c.isType = false := by simpa using hc
    obtain ⟨b, hb, h⟩ := h
    have hb' := anyExcept_ok hb
    simp only [isClassmethod_iff] at hb'
    by_cases hbt : b = true
    · rw [if_pos hbt, replaceFirst_ok] at h
      exact ⟨full, .classMethod, hfull, ⟨hc', hb'.1 hbt⟩, h⟩
    · rw [if_neg hbt] at h
      have hno : ∀ d ∈ f.decorators, ¬ IsClassmethod R m parent d :=
        fun d hd hi => hbt (hb'.2 ⟨d, hd, hi⟩)
      cases hk : R.stubs.nodesKinds.lookup m with
      | none => simp [hk] at h
      | some kinds =>
        simp only [hk] at h
        by_cases hcl : kinds.lookup parent = some .class_
        · rw [if_pos (by simp [hcl]), replaceFirst_ok] at h
          exact ⟨full, .method, hfull, ⟨hc', hno, kinds, hk, hcl⟩, h⟩
        · rw [if_neg (by simp [hcl]), Except.ok.injEq] at h
          refine ⟨full, .function, hfull, ⟨hc', hno, ?_⟩, h.symm⟩
          rintro ⟨kinds', hk', hcl'⟩
          rw [hk] at hk'; cases hk'
          exact hcl hcl'

theorem identified_iff {R : Runtime} {m parent : Path} {d : Expr} :
    Identified R m parent d ↔ ∃ b, isClassmethod R m parent d = .ok b := by
  unfold Identified isClassmethod
  cases hp : toMaybePath d with
  | none => simp
  | some path =>
    simp only [Option.some.injEq, forall_eq']
    cases R.resolve m parent path <;> simp

/-- When `_parameters_from` returns. -/
theorem parametersFrom_total {R : Runtime} {f : FunctionDef} {c : Fn} {m parent : Path}
    {full : List Param} {role : Role}
    (hfull : declaredParameters (R.ev m parent) f.args = .ok full)
    (hrole : HasRole R f c m parent role)
    (hdec : c.isType = false → ∀ d ∈ f.decorators, Identified R m parent d)
    (hmod : c.isType = false → ∃ kinds, R.stubs.nodesKinds.lookup m = some kinds)
    (hne : role ≠ .function → full ≠ []) :
    ∃ ps, parametersFrom R f c m parent = .ok ps ∧ Adjusted role full ps := by
  unfold parametersFrom
  rw [hfull]
  simp only [bind, Except.bind]
  by_cases hc : c.isType = true
  · have : role = .constructor := by
      cases role with
      | constructor => rfl
      | _ => have := hrole.1; rw [hc] at this; cases this
    subst this
    rw [if_pos hc]
    cases full with
    | nil => exact absurd rfl (hne (by simp))
    | cons p full => exact ⟨_, rfl, p, rfl⟩
  · have hc' : c.isType = false := by simpa using hc
    rw [if_neg hc]
    obtain ⟨b, hb⟩ := anyExcept_total fun d hd => identified_iff.1 (hdec hc' d hd)
    have hb' := anyExcept_ok hb
    simp only [isClassmethod_iff] at hb'
    rw [hb]
    simp only []
    obtain ⟨kinds, hk⟩ := hmod hc'
    have hcons : role ≠ .function → ∃ p l, full = p :: l := by
      intro hr
      cases full with
      | nil => exact absurd rfl (hne hr)
      | cons p l => exact ⟨p, l, rfl⟩
    cases role with
    | constructor => exact absurd hrole hc
    | classMethod =>
      rw [if_pos (hb'.2 hrole.2)]
      obtain ⟨p, l, rfl⟩ := hcons (by simp)
      exact ⟨_, replaceFirst_ok.2 ⟨p, l, rfl, rfl⟩, p, l, rfl, rfl⟩
    | method =>
      rw [if_neg (fun hbt => by
        obtain ⟨d, hd, hi⟩ := hb'.1 hbt
        exact hrole.2.1 d hd hi)]
      obtain ⟨kinds', hk', hcl⟩ := hrole.2.2
      simp only [hk']
      rw [if_pos (by simp [hcl])]
      obtain ⟨p, l, rfl⟩ := hcons (by simp)
      exact ⟨_, replaceFirst_ok.2 ⟨p, l, rfl, rfl⟩, p, l, rfl, rfl⟩
    | function =>
      rw [if_neg (fun hbt => by
        obtain ⟨d, hd, hi⟩ := hb'.1 hbt
        exact hrole.2.1 d hd hi)]
      simp only [hk]
      rw [if_neg (fun hcl => hrole.2.2 ⟨kinds, hk, by simpa using hcl⟩)]
      exact ⟨_, rfl, rfl⟩

end Paradigm
