import Verif.Lemmas.Pointwise

/-! Lemmas about the conversion of `inspect` signatures and of stub definitions. -/

namespace Paradigm

open PyCall Spec

/-! ### `Except` -/

theorem except_bind_ok {α β : Type} {x : Except PyErr α} {f : α → Except PyErr β} {b : β} :
    (x >>= f) = .ok b ↔ ∃ a, x = .ok a ∧ f a = .ok b := by
  cases x with
  | error e => simp [bind, Except.bind]
  | ok a => simp [bind, Except.bind]

theorem except_bind_error {α β : Type} {x : Except PyErr α} {f : α → Except PyErr β} {e : PyErr} :
    (x >>= f) = .error e ↔ x = .error e ∨ ∃ a, x = .ok a ∧ f a = .error e := by
  cases x with
  | error e => simp [bind, Except.bind]
  | ok a => simp [bind, Except.bind]

theorem pure_ok {α : Type} {a b : α} : (pure a : Except PyErr α) = .ok b ↔ a = b := by
  simp [pure, Except.pure]

theorem variadic_beq (k : Kind) :
    (k == .variadicPositional || k == .variadicKeyword) = true ↔ Variadic k := by
  cases k <;> simp [Variadic]

theorem required_new (a : Obj) (k : Kind) (n : String) (h : ¬ Variadic k) :
    RequiredParameter.new a (.kind k) n = .ok (.required a k n) := by
  cases k <;> simp_all [RequiredParameter.new, validateKind, Variadic]

theorem optional_new (a : Obj) (k : Kind) (n : String) :
    OptionalParameter.new a (.kind k) n = .ok (.optional a none k n) := by
  simp [OptionalParameter.new, validateKind, Obj.noDefault, Obj.isNoDefault]

theorem optional_new_default (a d : Obj) (k : Kind) (n : String) (h : ¬ Variadic k) :
    OptionalParameter.new a (.kind k) n d =
      .ok (.optional a (if d.isNoDefault then none else some d) k n) := by
  have hk : (k == .variadicPositional || k == .variadicKeyword) = false := by
    rw [← Bool.not_eq_true, variadic_beq]; exact h
  simp only [OptionalParameter.new, validateKind, hk, Bool.false_and]
  cases d.isNoDefault <;> simp

theorem isNoDefault_iff (d : Obj) : d.isNoDefault = true ↔ d = .atom .noDefault := by
  unfold Obj.isNoDefault
  split <;> simp_all

theorem isEllipsis_iff (d : Obj) : d.isEllipsis = true ↔ d = .atom .ellipsis := by
  unfold Obj.isEllipsis
  split <;> simp_all

/-! ### `inspect` signatures -/

theorem paramFromRaw_eq (raw : RawParam) (h : Variadic raw.kind → raw.default = none) :
    ∃ p, paramFromRaw raw = .ok p ∧ Describes raw p ∧
      p.annotation = raw.annotation.getD (.form anyForm) ∧ ValidParam p ∧
      (raw.default ≠ some (.atom .noDefault) → p.default? = raw.default) := by
  unfold paramFromRaw
  cases hd : raw.default with
  | none =>
    simp only []
    by_cases hv : Variadic raw.kind
    · rw [if_pos ((variadic_beq _).2 hv), optional_new]
      exact ⟨_, rfl, ⟨rfl, rfl, by simp [Param.isOptional, hv]⟩, rfl,
        by simp [ValidParam], fun _ => rfl⟩
    · rw [if_neg (fun hc => hv ((variadic_beq _).1 hc)), required_new _ _ _ hv]
      exact ⟨_, rfl, ⟨rfl, rfl, by simp [Param.isOptional, hv, hd]⟩, rfl,
        ⟨fun hk => hv (.inl hk), fun hk => hv (.inr hk)⟩, fun _ => rfl⟩
  | some d =>
    have hv : ¬ Variadic raw.kind := fun hv => by rw [h hv] at hd; cases hd
    simp only []
    rw [optional_new_default _ _ _ _ hv]
    refine ⟨_, rfl, ⟨rfl, rfl, by simp [Param.isOptional, hd]⟩, rfl,
      ⟨fun hk => absurd hk hv, fun v hv => ?_⟩, fun hne => ?_⟩
    · split at hv
      · cases hv
      · rename_i hn
        cases hv
        simpa using hn
    · have : d.isNoDefault = false := by
        rw [← Bool.not_eq_true, isNoDefault_iff]
        rintro rfl; exact hne rfl
      simp [Param.default?, this]

/-- Any list of formal parameters which an `inspect` signature describes is legal if there are not
several variadic ones. -/
theorem describes_wellFormed {raw : RawSig} (hv : InspectValid raw)
    (h1 : raw.parameters.countP (fun p => p.kind == .variadicPositional) ≤ 1)
    (h2 : raw.parameters.countP (fun p => p.kind == .variadicKeyword) ≤ 1)
    {ps : List Param} (h : Pointwise Describes raw.parameters ps) : WellFormed ps where
  distinct := by
    rw [← h.map_eq (f := RawParam.name) (g := Param.name) fun _ _ h => h.name.symm]
    exact hv.distinct
  ordered := h.pairwise (fun _ _ _ _ h h' hr => by rw [h.kind, h'.kind]; exact hr) hv.ordered
  oneVarPositional := by
    rw [← h.countP (f := fun p : RawParam => p.kind == .variadicPositional)
      fun _ _ h => by rw [h.kind]]
    exact h1
  oneVarKeyword := by
    rw [← h.countP (f := fun p : RawParam => p.kind == .variadicKeyword)
      fun _ _ h => by rw [h.kind]]
    exact h2
  optionalsLast := by
    have : (raw.parameters.filter (fun p => p.kind == .positionalOnly ||
        p.kind == .positionalOrKeyword)).Pairwise (fun p q => p.default.isSome → q.default.isSome) := by
      rw [List.pairwise_filter]
      refine hv.optionalsLast.imp ?_
      intro p q hpq _ hq
      refine hpq ?_
      simpa using hq
    have hmem : Pointwise (fun r p => Describes r p ∧ ¬ Variadic r.kind)
        (raw.parameters.filter (fun p => p.kind == .positionalOnly ||
          p.kind == .positionalOrKeyword)) (ps.filter isPositional) := by
      have hf : Pointwise Describes (raw.parameters.filter (fun p => p.kind == .positionalOnly ||
          p.kind == .positionalOrKeyword)) (ps.filter isPositional) :=
        h.filter fun a b h => by
          unfold isPositional; rw [h.kind]; cases a.kind <;> rfl
      refine hf.imp fun r hr p _ h => ⟨h, ?_⟩
      have := (List.mem_filter.1 hr).2
      rintro (hk | hk) <;> simp [hk] at this
    refine hmem.pairwise (fun a b a' b' h h' hr => ?_) this
    rw [h.1.optional, h'.1.optional]
    rintro (hs | hs)
    · exact .inl (hr hs)
    · exact absurd hs h.2

/-! ### Positional parameters of a definition -/

theorem zipLongest_getElem? {α β : Type} (as : List α) (bs : List β) (h : bs.length ≤ as.length)
    (i : Nat) : (zipLongest as bs)[i]? = (as[i]?).map (fun a => (some a, bs[i]?)) := by
  induction as generalizing bs i with
  | nil =>
    cases bs with
    | nil => simp [zipLongest]
    | cons b bs => simp at h
  | cons a as ih =>
    cases bs with
    | nil =>
      cases i with
      | zero => simp [zipLongest]
      | succ i => simp [zipLongest, ih [] (by simp)]
    | cons b bs =>
      cases i with
      | zero => simp [zipLongest]
      | succ i => simp [zipLongest, ih bs (by simpa using h)]

theorem zipLongest_length {α β : Type} (as : List α) (bs : List β) (h : bs.length ≤ as.length) :
    (zipLongest as bs).length = as.length := by
  induction as generalizing bs with
  | nil =>
    cases bs with
    | nil => simp [zipLongest]
    | cons b bs => simp at h
  | cons a as ih =>
    cases bs with
    | nil => simp [zipLongest, ih [] (by simp)]
    | cons b bs => simp [zipLongest, ih bs (by simpa using h)]

/-- The positional formals of a definition without positional-only marker. -/
def posFormals (a : Arguments) : List Formal :=
  a.args.zipIdx.map (fun p =>
    { arg := p.1, default := positionalDefault a (a.posonlyargs.length + p.2),
      kind := .positionalOrKeyword })

theorem zipped_eq (a : Arguments) (hp : a.posonlyargs = [])
    (hd : a.defaults.length ≤ a.args.length) :
    (zipLongest a.args.reverse a.defaults.reverse).reverse =
      (posFormals a).map (fun f => (some f.arg, f.default)) := by
  have hd' : a.defaults.reverse.length ≤ a.args.reverse.length := by simpa using hd
  have hl := zipLongest_length _ _ hd'
  apply List.ext_getElem?
  intro i
  by_cases hi : i < a.args.length
  · rw [List.getElem?_reverse (by rw [hl, List.length_reverse]; exact hi), hl,
      zipLongest_getElem? _ _ hd', List.length_reverse,
      List.getElem?_reverse (l := a.args) (by omega)]
    have e1 : a.args.length - 1 - (a.args.length - 1 - i) = i := by omega
    rw [e1]
    simp only [posFormals, List.getElem?_map, List.getElem?_zipIdx, Option.map_map]
    have : a.args[i]? = some a.args[i] := List.getElem?_eq_getElem hi
    rw [this]
    simp only [Option.map_some, Function.comp, Nat.zero_add, hp, List.length_nil,
      positionalDefault, Option.some.injEq, Prod.mk.injEq, true_and]
    by_cases hc : i + a.defaults.length < a.args.length
    · rw [if_pos hc, List.getElem?_eq_none (by rw [List.length_reverse]; omega)]
    · rw [if_neg hc, List.getElem?_reverse (by omega)]
      congr 1; omega
  · rw [List.getElem?_eq_none (by rw [List.length_reverse, hl, List.length_reverse]; omega),
      List.getElem?_eq_none (by simp [posFormals]; omega)]

/-- The conversion of one formal parameter. -/
def nodeOf (ev : Expr → Except PyErr Obj) (f : Formal) : Except PyErr Param :=
  paramFromNode ev f.arg f.default
    (if f.kind = .positionalOrKeyword then .positionalOnly else f.kind)

theorem positional_iff {ev : Expr → Except PyErr Obj} {a : Arguments} (hp : a.posonlyargs = [])
    (hd : a.defaults.length ≤ a.args.length) {ps : List Param} :
    toPositionalParameters ev a = .ok ps ↔
      Pointwise (fun f p => nodeOf ev f = .ok p) (posFormals a) ps := by
  unfold toPositionalParameters
  rw [mapExcept_pointwise, zipped_eq a hp hd]
  have hk : ∀ f ∈ posFormals a, f.kind = .positionalOrKeyword := by
    intro f hf
    obtain ⟨x, _, rfl⟩ := List.mem_map.1 hf
    rfl
  constructor
  · intro h
    refine h.of_map_left.imp fun f hf p _ h => ?_
    simpa [nodeOf, hk f hf] using h
  · intro h
    refine Pointwise.map_left (h.imp fun f hf p _ h => ?_)
    simpa [nodeOf, hk f hf] using h

theorem keyword_iff {ev : Expr → Except PyErr Obj} {a : Arguments} {ps : List Param} :
    toKeywordParameters ev a = .ok ps ↔
      Pointwise (fun f p => nodeOf ev f = .ok p)
        ((a.kwonlyargs.zip a.kwDefaults).map (fun p =>
          { arg := p.1, default := p.2, kind := .keywordOnly : Formal })) ps := by
  unfold toKeywordParameters
  rw [mapExcept_pointwise]
  exact ⟨fun h => Pointwise.map_left (h.imp fun _ _ _ _ h => h), fun h => h.of_map_left.imp
    fun _ _ _ _ h => h⟩

theorem variadic_iff {ev : Expr → Except PyErr Obj} {node : Option Arg} {k : Kind}
    (hk : Variadic k) {ps : List Param} :
    toVariadicParameter ev node k = .ok ps ↔
      Pointwise (fun f p => nodeOf ev f = .ok p)
        (node.toList.map (fun p => { arg := p, default := none, kind := k : Formal })) ps := by
  have hk' : k ≠ .positionalOrKeyword := by rcases hk with rfl | rfl <;> simp
  cases node with
  | none => cases ps <;> simp [toVariadicParameter, Pointwise]
  | some node =>
    simp only [toVariadicParameter, except_bind_ok, pure_ok, Option.toList_some, List.map_cons,
      List.map_nil]
    constructor
    · rintro ⟨p, hp, rfl⟩
      exact ⟨by simpa [nodeOf, hk'] using hp, trivial⟩
    · intro h
      obtain ⟨p, qs, rfl, h1, h2⟩ := h.cons_left
      cases h2.nil_left
      exact ⟨p, by simpa [nodeOf, hk'] using h1, rfl⟩

theorem pointwise_append_left {α β : Type} {r : α → β → Prop} {as as' : List α} {bs : List β}
    (h : Pointwise r (as ++ as') bs) :
    ∃ b b', bs = b ++ b' ∧ Pointwise r as b ∧ Pointwise r as' b' := by
  induction as generalizing bs with
  | nil => exact ⟨[], bs, rfl, trivial, h⟩
  | cons a as ih =>
    obtain ⟨b, bs, rfl, hr, h⟩ := Pointwise.cons_left h
    obtain ⟨c, c', rfl, h1, h2⟩ := ih h
    exact ⟨b :: c, c', rfl, ⟨hr, h1⟩, h2⟩

theorem formals_noPosonly (a : Arguments) (hp : a.posonlyargs = []) :
    formals a = posFormals a ++
      a.vararg.toList.map (fun p => { arg := p, default := none, kind := .variadicPositional }) ++
      (a.kwonlyargs.zip a.kwDefaults).map (fun p =>
        { arg := p.1, default := p.2, kind := .keywordOnly }) ++
      a.kwarg.toList.map (fun p => { arg := p, default := none, kind := .variadicKeyword }) := by
  simp [formals, posFormals, hp]

/-- The whole parameter list is the conversion of the formal parameters one by one. -/
theorem declared_iff {ev : Expr → Except PyErr Obj} {a : Arguments} (hp : a.posonlyargs = [])
    (hd : a.defaults.length ≤ a.args.length) {full : List Param} :
    declaredParameters ev a = .ok full ↔
      Pointwise (fun f p => nodeOf ev f = .ok p) (formals a) full := by
  unfold declaredParameters
  simp only [except_bind_ok, pure_ok]
  rw [formals_noPosonly a hp]
  constructor
  · rintro ⟨ps, h1, vs, h2, ks, h3, ws, h4, rfl⟩
    exact ((((positional_iff hp hd).1 h1).append ((variadic_iff (.inl rfl)).1 h2)).append
      (keyword_iff.1 h3)).append ((variadic_iff (.inr rfl)).1 h4)
  · intro h
    obtain ⟨x, d, rfl, h, h4⟩ := pointwise_append_left h
    obtain ⟨x, c, rfl, h, h3⟩ := pointwise_append_left h
    obtain ⟨x, b, rfl, h, h2⟩ := pointwise_append_left h
    exact ⟨x, (positional_iff hp hd).2 h, b, (variadic_iff (.inl rfl)).2 h2, c,
      keyword_iff.2 h3, d, (variadic_iff (.inr rfl)).2 h4, rfl⟩

/-- Variadic formals have no default. -/
theorem formals_variadic {a : Arguments} {f : Formal} (hf : f ∈ formals a)
    (hv : Variadic f.kind) : f.default = none := by
  unfold formals at hf
  simp only [List.mem_append, List.mem_map] at hf
  rcases hf with (((⟨x, _, rfl⟩ | ⟨x, _, rfl⟩) | ⟨x, _, rfl⟩) | ⟨x, _, rfl⟩) | ⟨x, _, rfl⟩ <;>
    first | rfl | (rcases hv with h | h <;> cases h)

theorem effective_variadic (k : Kind) :
    Variadic (if k = .positionalOrKeyword then .positionalOnly else k) ↔ Variadic k := by
  cases k <;> simp [Variadic]

/-- One formal parameter is transcribed faithfully. -/
theorem nodeOf_transcribes {ev : Expr → Except PyErr Obj} {f : Formal} {p : Param}
    (hv : Variadic f.kind → f.default = none) (h : nodeOf ev f = .ok p) :
    Transcribes ev f p ∧ ValidParam p := by
  unfold nodeOf paramFromNode at h
  rw [except_bind_ok] at h
  obtain ⟨annotation, ha, h⟩ := h
  have hann : (f.arg.annotation = none → annotation = .form anyForm) ∧
      ∀ e, f.arg.annotation = some e → ev e = .ok annotation := by
    cases he : f.arg.annotation with
    | none => simp only [annotationFrom, he, Except.ok.injEq] at ha; exact ⟨fun _ => ha.symm, by simp⟩
    | some e =>
      simp only [annotationFrom, he] at ha
      exact ⟨by simp, fun e' he' => by cases he'; exact ha⟩
  generalize hk : (if f.kind = .positionalOrKeyword then Kind.positionalOnly else f.kind) = k at h
  have hkv : Variadic k ↔ Variadic f.kind := hk ▸ effective_variadic f.kind
  cases hd : f.default with
  | none =>
    simp only [hd] at h
    by_cases hvk : Variadic k
    · rw [if_pos ((variadic_beq _).2 hvk), optional_new] at h
      cases h
      exact ⟨⟨rfl, hk ▸ rfl, by simp [Param.isOptional, hkv.1 hvk], hann.1, hann.2,
        fun _ => rfl, by simp [hd]⟩, by simp [ValidParam]⟩
    · rw [if_neg (fun hc => hvk ((variadic_beq _).1 hc)), required_new _ _ _ hvk] at h
      cases h
      exact ⟨⟨rfl, hk ▸ rfl, by simp [Param.isOptional, hd, ← hkv, hvk], hann.1, hann.2,
        fun _ => rfl, by simp [hd]⟩, ⟨fun hk => hvk (.inl hk), fun hk => hvk (.inr hk)⟩⟩
  | some e =>
    have hvk : ¬ Variadic k := fun hc => by rw [hv (hkv.1 hc)] at hd; cases hd
    simp only [hd, except_bind_ok] at h
    obtain ⟨v, hev, h⟩ := h
    by_cases hell : v.isEllipsis = true
    · rw [if_pos hell, optional_new] at h
      cases h
      refine ⟨⟨rfl, hk ▸ rfl, by simp [Param.isOptional, hd], hann.1, hann.2, by simp [hd],
        fun e' he' => ?_⟩, by simp [ValidParam]⟩
      rw [hd] at he'; cases he'
      exact ⟨v, hev, .inl ⟨rfl, .inl ((isEllipsis_iff v).1 hell)⟩⟩
    · rw [if_neg hell, optional_new_default _ _ _ _ hvk] at h
      cases h
      have hell' : v ≠ .atom .ellipsis := fun hc => hell ((isEllipsis_iff v).2 hc)
      refine ⟨⟨rfl, hk ▸ rfl, by simp [Param.isOptional, hd], hann.1, hann.2, by simp [hd],
        fun e' he' => ?_⟩, ⟨fun hc => absurd hc hvk, fun w hw => ?_⟩⟩
      · rw [hd] at he'; cases he'
        refine ⟨v, hev, ?_⟩
        by_cases hn : v.isNoDefault = true
        · exact .inl ⟨by simp [Param.default?, hn], .inr ((isNoDefault_iff v).1 hn)⟩
        · exact .inr ⟨by simp [Param.default?, hn], hell',
            fun hc => hn ((isNoDefault_iff v).2 hc)⟩
      · split at hw
        · cases hw
        · rename_i hn; cases hw; simpa using hn

theorem nodeOf_total {ev : Expr → Except PyErr Obj} {f : Formal}
    (hev : ∀ e, f.arg.annotation = some e ∨ f.default = some e → ∃ v, ev e = .ok v)
    (hv : Variadic f.kind → f.default = none) : ∃ p, nodeOf ev f = .ok p := by
  unfold nodeOf paramFromNode
  have : ∃ annotation, annotationFrom ev f.arg = .ok annotation := by
    unfold annotationFrom
    cases ha : f.arg.annotation with
    | none => exact ⟨_, rfl⟩
    | some e => exact hev e (.inl ha)
  obtain ⟨annotation, ha⟩ := this
  simp only [except_bind_ok]
  generalize hk : (if f.kind = .positionalOrKeyword then Kind.positionalOnly else f.kind) = k
  have hkv : Variadic k ↔ Variadic f.kind := hk ▸ effective_variadic f.kind
  cases hd : f.default with
  | none =>
    by_cases hvk : Variadic k
    · exact ⟨_, annotation, ha, by
        simp only []; rw [if_pos ((variadic_beq _).2 hvk), optional_new]⟩
    · exact ⟨_, annotation, ha, by
        simp only []
        rw [if_neg (fun hc => hvk ((variadic_beq _).1 hc)), required_new _ _ _ hvk]⟩
  | some e =>
    have hvk : ¬ Variadic k := fun hc => by rw [hv (hkv.1 hc)] at hd; cases hd
    obtain ⟨v, hev⟩ := hev e (.inr hd)
    by_cases hell : v.isEllipsis = true
    · exact ⟨_, annotation, ha, by
        simp only [except_bind_ok]; exact ⟨v, hev, by rw [if_pos hell, optional_new]⟩⟩
    · exact ⟨_, annotation, ha, by
        simp only [except_bind_ok]
        exact ⟨v, hev, by rw [if_neg hell, optional_new_default _ _ _ _ hvk]⟩⟩

end Paradigm
