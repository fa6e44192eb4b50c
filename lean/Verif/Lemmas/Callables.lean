import Verif.Spec.Callables
import Verif.Lemmas.Twice
import Verif.Lemmas.Lookup
import Verif.Lemmas.CacheName

/-!
# Signatures of callables: helper lemmas
-/

namespace Paradigm

open Spec PyCall Props

theorem fromSignatures_madeOf {l : List PlainSig} {s : Sig} :
    fromSignatures (l.map .plain) = .ok s ↔ MadeOf l s := by
  have hc : MadeOf l s ↔ collapse l = some s := by
    unfold MadeOf
    match l with
    | [] => simp [collapse]
    | [p] => simp [collapse, eq_comm]
    | a :: b :: l => simp [collapse, eq_comm]
  rw [hc, fromSignatures_eq]
  have : members (l.map .plain) = l := by
    clear hc
    induction l with
    | nil => rfl
    | cons a l ih => rw [List.map_cons, members, ih]
  rw [this]
  cases collapse l <;> simp

theorem fromStatement_functionDef {R : Runtime} {n : Nat} (hn : n ≠ 0) (f : FunctionDef) (c : Fn)
    (m parent : Path) :
    fromStatement R n (.functionDef f) c m parent = fromFunctionDef R f c m parent := by
  obtain ⟨k, rfl⟩ : ∃ k, n = k + 1 := ⟨n - 1, by omega⟩
  rfl

/-- The signatures of function definitions, one by one. -/
theorem functionDefs_ok {R : Runtime} {n : Nat} (hn : n ≠ 0) {fs : List FunctionDef} {c : Fn}
    {m parent : Path} {sigs : List Sig} :
    mapExcept (fun node => fromStatement R n node c m parent) (fs.map .functionDef) = .ok sigs ↔
      ∃ ss : List PlainSig, sigs = ss.map .plain ∧
        Pointwise (fun f p => fromFunctionDef R f c m parent = .ok (.plain p)) fs ss := by
  rw [mapExcept_pointwise]
  induction fs generalizing sigs with
  | nil =>
    constructor
    · intro h
      cases sigs with
      | nil => exact ⟨[], rfl, trivial⟩
      | cons s sigs => exact h.elim
    · rintro ⟨ss, rfl, h⟩
      cases ss with
      | nil => trivial
      | cons s ss => exact h.elim
  | cons f fs ih =>
    constructor
    · intro h
      cases sigs with
      | nil => exact h.elim
      | cons s sigs =>
        obtain ⟨h1, h2⟩ := h
        obtain ⟨ss, rfl, hp⟩ := ih.1 h2
        rw [fromStatement_functionDef hn] at h1
        obtain ⟨ps, r, _, _, _, rfl⟩ := fromFunctionDef_ok.1 h1
        exact ⟨⟨ps, r⟩ :: ss, rfl, h1, hp⟩
    · rintro ⟨ss, rfl, h⟩
      cases ss with
      | nil => exact h.elim
      | cons s ss =>
        obtain ⟨h1, h2⟩ := h
        exact ⟨(fromStatement_functionDef hn f c m parent).trans h1, ih.2 ⟨ss, rfl, h2⟩⟩

theorem functionDefs_error {R : Runtime} {n : Nat} (hn : n ≠ 0) {fs : List FunctionDef} {c : Fn}
    {m parent : Path} {e : PyErr}
    (h : mapExcept (fun node => fromStatement R n node c m parent) (fs.map .functionDef) = .error e) :
    ∃ f ∈ fs, fromFunctionDef R f c m parent = .error e := by
  obtain ⟨node, hnode, he⟩ := mapExcept_error h
  obtain ⟨f, hf, rfl⟩ := List.mem_map.1 hnode
  rw [fromStatement_functionDef hn] at he
  exact ⟨f, hf, he⟩

theorem loadAstNodes_definedBy {R : Runtime} {q : QPath} {fs : List FunctionDef}
    (h : DefinedBy R.stubs q fs) (hne : fs ≠ []) :
    loadAstNodes R q.1 q.2 = .ok (fs.map .functionDef) := by
  obtain ⟨nodes, h1, h2⟩ := h
  cases fs with
  | nil => exact absurd rfl hne
  | cons f fs => simp [loadAstNodes, h1, h2]

theorem loadAstNodes_undeclared {R : Runtime} {q : QPath} (h : ¬ Declared R.stubs q) :
    loadAstNodes R q.1 q.2 = .error .signatureNotFound := by
  unfold loadAstNodes
  cases h1 : R.stubs.rawAstNodes.lookup q.1 with
  | none => rfl
  | some nodes =>
    cases h2 : nodes.lookup q.2 with
    | none => simp only [h2]
    | some stmts => exact absurd ⟨nodes, stmts, h1, h2⟩ h

/-- A single place with definitions. -/
theorem fromPaths_definedBy {R : Runtime} (hd : R.depth ≠ 0) {c : Fn} {q : QPath}
    {others : List QPath} {fs : List FunctionDef} (h : DefinedBy R.stubs q fs) (hne : fs ≠ [])
    (hno : ∀ f ∈ fs, fromFunctionDef R f c q.1 q.2.dropLast ≠ .error .signatureNotFound) {s : Sig} :
    fromPaths R c (q :: others) = .ok s ↔ GivenBy R c q fs s := by
  obtain ⟨m, object⟩ := q
  rw [fromPaths, loadAstNodes_definedBy h hne]
  simp only []
  unfold GivenBy
  cases hm : mapExcept (fun node => fromStatement R R.depth node c m object.dropLast)
      (fs.map .functionDef) with
  | ok sigs =>
    obtain ⟨ss, rfl, hp⟩ := (functionDefs_ok hd).1 hm
    simp only []
    rw [fromSignatures_madeOf]
    constructor
    · exact fun h => ⟨ss, hp, h⟩
    · rintro ⟨ss', hp', h'⟩
      have := (functionDefs_ok hd).2 ⟨ss', rfl, hp'⟩
      rw [hm] at this
      injection this with this
      have hi : ss = ss' := by
        refine List.map_inj_right (f := Sig.plain) ?_ |>.1 this
        intro a b h; injection h
      subst hi; exact h'
  | error e =>
    obtain ⟨f, hf, he⟩ := functionDefs_error hd hm
    have hno' : e ≠ .signatureNotFound := by rintro rfl; exact hno f hf he
    constructor
    · intro h
      exfalso
      cases e <;> first | exact hno' rfl | cases h
    · rintro ⟨ss, hp, _⟩
      have := (functionDefs_ok hd).2 ⟨ss, rfl, hp⟩
      rw [hm] at this; cases this

theorem objectBuilder_eq : objectBuilder = objectNew := rfl

theorem nodup_sortedSet (l : List QPath) : (sortedSet l).Nodup :=
  (sortedSet_pairwise l).imp fun h e => by subst e; exact qpathBefore_irrefl _ h

theorem filter_singleton {l : List QPath} (hn : l.Nodup) {p : QPath → Bool} {r : QPath}
    (hr : r ∈ l) (hpr : p r = true) (h : ∀ x ∈ l, p x = true → x = r) : l.filter p = [r] := by
  induction l with
  | nil => cases hr
  | cons a l ih =>
    rw [List.nodup_cons] at hn
    rw [List.filter_cons]
    by_cases ha : p a = true
    · have hx := h a List.mem_cons_self ha
      subst hx
      rw [if_pos ha]
      have : l.filter p = [] := by
        rw [List.filter_eq_nil_iff]
        intro x hx hp
        have := h x (List.mem_cons_of_mem _ hx) hp
        subst this
        exact hn.1 hx
      rw [this]
    · rw [if_neg ha]
      rcases List.mem_cons.1 hr with rfl | hr
      · exact absurd hpr ha
      · exact ih hn.2 hr fun x hx => h x (List.mem_cons_of_mem _ hx)

/-- All places agree on one constructor. -/
theorem resolveBuilder_agreed {R : Runtime} {paths builders : List QPath} {r : QPath}
    (hb : Pointwise (fun q b => classBuilder R q = .ok b) paths builders) (h : Agreed builders r) :
    resolveBuilder R paths = .ok r := by
  unfold resolveBuilder
  rw [mapExcept_pointwise.2 hb]
  show (match sortedSet builders with
    | [q] => (pure q : Except PyErr QPath)
    | candidates => if candidates.contains objectBuilder then
        match candidates.filter (fun q => q != objectBuilder) with
        | [q] => return q
        | _ => .error .signatureNotFound
      else .error .signatureNotFound) = _
  have hmem : ∀ b, b ∈ sortedSet builders ↔ b ∈ builders := fun b => mem_sortedSet
  have hnd := nodup_sortedSet builders
  split
  · rename_i q hq
    have : r ∈ [q] := by rw [← hq]; exact (hmem r).2 h.1
    rw [List.mem_singleton] at this
    subst this; rfl
  · rename_i hne
    have hr : r ∈ sortedSet builders := (hmem r).2 h.1
    have hx : ∃ x ∈ sortedSet builders, x ≠ r := by
      refine Classical.byContradiction fun hno => ?_
      have hall : ∀ x ∈ sortedSet builders, x = r := fun x hx =>
        Classical.byContradiction fun hxr => hno ⟨x, hx, hxr⟩
      cases hl : sortedSet builders with
      | nil => rw [hl] at hr; cases hr
      | cons a l =>
        rw [hl] at hall hnd
        have ha := hall a List.mem_cons_self
        cases l with
        | nil => exact hne a hl
        | cons b l =>
          have hb := hall b (by simp)
          rw [ha, hb] at hnd
          simp at hnd
    obtain ⟨x, hx, hxr⟩ := hx
    have hxo : x = objectNew := ((h.2 x ((hmem x).1 hx)).resolve_left hxr)
    subst hxo
    have hro : r ≠ objectNew := fun e => hxr e.symm
    rw [if_pos (by rw [objectBuilder_eq]; exact List.contains_iff_mem.2 hx)]
    rw [filter_singleton hnd hr (by simp [objectBuilder_eq, hro]) (by
      intro y hy hyo
      rcases h.2 y ((hmem y).1 hy) with e | e
      · exact e
      · subst e; simp [objectBuilder_eq] at hyo)]
    rfl

/-- Two different constructors. -/
theorem resolveBuilder_ambiguous {R : Runtime} {paths builders : List QPath} {a b : QPath}
    (hb : Pointwise (fun q b => classBuilder R q = .ok b) paths builders) (ha : a ∈ builders)
    (hb' : b ∈ builders) (hab : a ≠ b) (hao : a ≠ objectNew) (hbo : b ≠ objectNew) :
    resolveBuilder R paths = .error .signatureNotFound := by
  unfold resolveBuilder
  rw [mapExcept_pointwise.2 hb]
  show (match sortedSet builders with
    | [q] => (pure q : Except PyErr QPath)
    | candidates => if candidates.contains objectBuilder then
        match candidates.filter (fun q => q != objectBuilder) with
        | [q] => return q
        | _ => .error .signatureNotFound
      else .error .signatureNotFound) = _
  have hma : a ∈ sortedSet builders := mem_sortedSet.2 ha
  have hmb : b ∈ sortedSet builders := mem_sortedSet.2 hb'
  split
  · rename_i q hq
    rw [hq, List.mem_singleton] at hma hmb
    exact absurd (hma.trans hmb.symm) hab
  · split
    · have hfa : a ∈ (sortedSet builders).filter (fun q => q != objectBuilder) :=
        List.mem_filter.2 ⟨hma, by simp [objectBuilder_eq, hao]⟩
      have hfb : b ∈ (sortedSet builders).filter (fun q => q != objectBuilder) :=
        List.mem_filter.2 ⟨hmb, by simp [objectBuilder_eq, hbo]⟩
      split
      · rename_i q hq
        rw [hq, List.mem_singleton] at hfa hfb
        exact absurd (hfa.trans hfb.symm) hab
      · rfl
    · rfl

/-- The candidates of a callable. -/
theorem candidatePaths_ok {R : Runtime} {value : Fn} {paths : List QPath}
    (h : candidatePaths R value = .ok paths) (c : QPath) :
    c ∈ paths ↔ Candidate R value c := by
  unfold candidatePaths at h
  unfold Candidate
  obtain ⟨⟨m, object⟩, hq, h⟩ := except_bind_ok.1 h
  simp only [hq, Except.ok.injEq, exists_eq_left'] at h ⊢
  cases h1 : R.index.lookup m with
  | none =>
    rw [h1] at h
    simp only [Option.bind_none] at h
    split at h
    · cases h
    · injection h with h
      subst h
      by_cases hm : m = []
      · simp [hm]
      · simp [hm]
  | some objects =>
    rw [h1] at h
    simp only [Option.bind_some] at h
    cases h2 : objects.lookup object with
    | none =>
      rw [h2] at h
      simp only [] at h
      split at h
      · cases h
      · injection h with h
        subst h
        by_cases hm : m = []
        · simp only [hm, List.isEmpty_nil, if_true, List.not_mem_nil, false_iff]
          rintro (⟨o, p, ho, hp, _⟩ | ⟨_, hne, _⟩)
          · injection ho with ho; subst ho
            rw [h2] at hp; cases hp
          · exact hne rfl
        · rw [if_neg (by simpa using hm), List.mem_singleton]
          constructor
          · intro h
            refine .inr ⟨fun o ho => ?_, hm, h⟩
            injection ho with ho; subst ho; exact h2
          · rintro (⟨o, p, ho, hp, _⟩ | ⟨_, _, h⟩)
            · injection ho with ho; subst ho
              rw [h2] at hp; cases hp
            · exact h
    | some places =>
      rw [h2] at h
      simp only [] at h
      injection h with h
      subst h
      rw [List.mem_filter]
      constructor
      · intro h
        exact .inl ⟨objects, places, rfl, h2, h⟩
      · rintro (⟨o, p, ho, hp, h⟩ | ⟨h, _⟩)
        · injection ho with ho; subst ho
          rw [h2] at hp; injection hp with hp; subst hp
          exact h
        · have := h objects rfl
          rw [h2] at this; cases this

theorem follow_leads {L : Live} {x y : Nat} {path : Path} :
    L.follow x path = some y ↔ FollowsTo L x path y := by
  induction path generalizing x with
  | nil =>
    rw [Live.follow]
    constructor
    · intro h; injection h with h; subst h; exact .here x
    · intro h; cases h; rfl
  | cons name path ih =>
    rw [Live.follow]
    constructor
    · intro h
      cases hg : L.getattr x name with
      | none => rw [hg] at h; cases h
      | some z => rw [hg] at h; exact .step hg (ih.1 h)
    · intro h
      cases h with
      | step hg h => rw [hg]; exact ih.2 h

/-- Loaded modules: only the object itself is accepted. -/
theorem has_loaded {L : Live} {value : Nat} {c : QPath} {x : Nat} (h : L.loaded c.1 = some x) :
    L.has value c = true ↔ FoundAt L value c := by
  unfold Live.has FoundAt
  rw [h]
  simp only []
  cases hf : L.follow x c.2 with
  | none =>
    constructor
    · intro h; cases h
    · rintro ⟨y, hy, hl⟩
      injection hy with hy; subst hy
      rw [follow_leads.2 hl] at hf; cases hf
  | some y =>
    constructor
    · intro h
      have : y = value := by simpa using h
      subst this
      exact ⟨x, rfl, follow_leads.1 hf⟩
    · rintro ⟨z, hz, hl⟩
      injection hz with hz; subst hz
      rw [follow_leads.2 hl] at hf
      injection hf with hf
      simp [hf]

/-! ### `Callable[...]` -/

theorem underscored_injective {i j : Nat} (h : "_" ++ toString i = "_" ++ toString j) : i = j := by
  have h := congrArg String.toList h
  simp only [String.toList_append] at h
  have h := List.append_cancel_left h
  have e : ∀ k : Nat, (toString k).toList = Nat.toDigits 10 k := fun k => by
    show (Nat.repr k).toList = _
    simp [Nat.repr]
  rw [e, e] at h
  exact toDigits_injective h

/-- Nameless positional parameters. -/
def nameless (annotations : List Obj) (i : Nat) : List Param :=
  match annotations with
  | [] => []
  | a :: annotations =>
    .required a .positionalOnly ("_" ++ toString i) :: nameless annotations (i + 1)

theorem nameless_length (annotations : List Obj) (i : Nat) :
    (nameless annotations i).length = annotations.length := by
  induction annotations generalizing i with
  | nil => rfl
  | cons a l ih => rw [nameless, List.length_cons, ih, List.length_cons]

theorem mem_nameless {annotations : List Obj} {i : Nat} {p : Param}
    (h : p ∈ nameless annotations i) : ∃ a j, i ≤ j ∧ p = .required a .positionalOnly
      ("_" ++ toString j) := by
  induction annotations generalizing i with
  | nil => cases h
  | cons a l ih =>
    rw [nameless] at h
    rcases List.mem_cons.1 h with rfl | h
    · exact ⟨a, i, Nat.le_refl _, rfl⟩
    · obtain ⟨b, j, hj, rfl⟩ := ih h
      exact ⟨b, j, by omega, rfl⟩

theorem nameless_wellFormed (annotations : List Obj) (i : Nat) :
    WellFormed (nameless annotations i) := by
  have hk : ∀ p ∈ nameless annotations i, p.kind = .positionalOnly := by
    intro p hp; obtain ⟨_, _, _, rfl⟩ := mem_nameless hp; rfl
  refine ⟨?_, ?_, ?_, ?_, ?_⟩
  · clear hk
    induction annotations generalizing i with
    | nil => exact List.nodup_nil
    | cons a l ih =>
      rw [nameless, List.map_cons, List.nodup_cons]
      refine ⟨?_, ih (i + 1)⟩
      intro h
      obtain ⟨p, hp, he⟩ := List.mem_map.1 h
      obtain ⟨b, j, hj, rfl⟩ := mem_nameless hp
      have := underscored_injective (i := j) (j := i) he
      omega
  · refine List.Pairwise.imp_of_mem (R := fun _ _ => True) ?_ (List.pairwise_of_forall fun _ _ => trivial)
    intro p q hp hq _
    rw [hk p hp, hk q hq]; exact Nat.le_refl _
  · rw [List.countP_eq_zero.2 (fun p hp => by rw [hk p hp]; decide)]; omega
  · rw [List.countP_eq_zero.2 (fun p hp => by rw [hk p hp]; decide)]; omega
  · refine List.Pairwise.imp_of_mem (R := fun _ _ => True) ?_ (List.pairwise_of_forall fun _ _ => trivial)
    intro p q hp _ _ ho
    obtain ⟨_, _, _, rfl⟩ := mem_nameless (List.mem_filter.1 hp).1
    cases ho

theorem nameless_accepts (annotations : List Obj) (args : List Obj) (kwargs : Kwargs)
    (hnd : (keys kwargs).Nodup) : Accepts (nameless annotations 0) args kwargs ↔
      args.length = annotations.length ∧ keys kwargs = [] := by
  have hk : ∀ p ∈ nameless annotations 0, p.kind = .positionalOnly ∧ p.isRequired = true := by
    intro p hp; obtain ⟨_, _, _, rfl⟩ := mem_nameless hp; exact ⟨rfl, rfl⟩
  have hpos : posOf (nameless annotations 0) = nameless annotations 0 := by
    unfold posOf
    rw [List.filter_eq_self]
    intro p hp
    simp [isPositional, (hk p hp).1]
  have hrest : restOf (nameless annotations 0) = [] := by
    unfold restOf
    rw [List.filter_eq_nil_iff]
    intro p hp
    simp [isPositional, (hk p hp).1]
  have hrem : remaining (nameless annotations 0) args.length =
      (nameless annotations 0).drop args.length := by
    rw [remaining, hpos, hrest, List.append_nil]
  have hnk : kwNames ((nameless annotations 0).drop args.length) = [] := by
    unfold kwNames
    rw [List.filter_eq_nil_iff.2, List.map_nil]
    intro p hp
    simp [acceptsKeyword, (hk p (List.mem_of_mem_drop hp)).1]
  have hnp : ¬ hasVP (nameless annotations 0) := by
    rintro ⟨p, hp, h⟩; rw [(hk p hp).1] at h; cases h
  have hnvk : ¬ hasVK (nameless annotations 0) := by
    rintro ⟨p, hp, h⟩; rw [(hk p hp).1] at h; cases h
  rw [accepts_iff (nameless_wellFormed _ _) _ _ hnd]
  unfold countOk keysOk requiredOk
  rw [hrem, hnk, hpos, nameless_length]
  constructor
  · rintro ⟨h1, h2, h3⟩
    have h1 := h1.resolve_left hnp
    refine ⟨?_, ?_⟩
    · refine Classical.byContradiction fun hne => ?_
      have hlt : args.length < (nameless annotations 0).length := by
        rw [nameless_length]; omega
      have hm : (nameless annotations 0)[args.length] ∈ (nameless annotations 0).drop args.length :=
        List.mem_drop_iff_getElem.2 ⟨0, by omega, by simp⟩
      have hk' := hk _ (List.mem_of_mem_drop hm)
      have := (h3 _ hm hk'.2 (by simp [hasSlot, hk'.1])).1
      simp [acceptsKeyword, hk'.1] at this
    · cases hkw : keys kwargs with
      | nil => rfl
      | cons k ks =>
        rcases h2 k (by rw [hkw]; simp) with h | h
        · cases h
        · exact absurd h.1 hnvk
  · rintro ⟨h1, h2⟩
    refine ⟨.inr (by omega), by rw [h2]; simp, ?_⟩
    rw [List.drop_eq_nil_of_le (by rw [nameless_length]; omega)]
    simp

/-- The parameters of `Callable[[...], R]`. -/
theorem namelessFrom {ev : Expr → Except PyErr Obj} : ∀ {elts : List Expr} {annotations : List Obj}
    (i : Nat), Pointwise (fun e a => ev e = .ok a) elts annotations →
    mapExcept (fun ei : Expr × Nat => do
        let annotation ← ev ei.1
        RequiredParameter.new annotation (.kind .positionalOnly) ("_" ++ toString ei.2))
      (elts.zipIdx i) = .ok (nameless annotations i)
  | [], [], i, _ => rfl
  | [], _ :: _, _, h => h.elim
  | _ :: _, [], _, h => h.elim
  | e :: elts, a :: annotations, i, h => by
    rw [List.zipIdx_cons, mapExcept, namelessFrom (i + 1) h.2]
    simp only []
    rw [show ev e = .ok a from h.1]
    rfl

/-- `(*args, **kwargs)` -/
def anythingParams : List Param :=
  [.optional (.form anyForm) none .variadicPositional "args",
    .optional (.form anyForm) none .variadicKeyword "kwargs"]

theorem anything_wellFormed : WellFormed anythingParams := by
  refine ⟨by decide, ?_, by decide, by decide, ?_⟩
  · simp [anythingParams, rank, Param.kind]
  · simp [anythingParams, List.filter_cons, isPositional, Param.kind]

theorem anything_accepts (args : List Obj) (kwargs : Kwargs) (hnd : (keys kwargs).Nodup) :
    Accepts anythingParams args kwargs := by
  have hpos : posOf anythingParams = [] := rfl
  have hrem : remaining anythingParams args.length = anythingParams := by
    rw [remaining, hpos, List.drop_nil]; rfl
  rw [accepts_iff anything_wellFormed _ _ hnd]
  unfold countOk keysOk requiredOk
  rw [hrem, hpos, List.take_nil]
  refine ⟨.inl ⟨_, List.mem_cons_self, rfl⟩, fun k _ => .inr ⟨⟨_, List.mem_cons_of_mem _
    List.mem_cons_self, rfl⟩, by simp [kwNames]⟩, ?_⟩
  intro p hp hr
  simp only [anythingParams, List.mem_cons, List.not_mem_nil, or_false] at hp
  rcases hp with rfl | rfl <;> cases hr

end Paradigm
