import Verif.Lemmas.AsRead

/-! Which definitions can be read. -/

namespace Paradigm

open PyCall Spec

theorem anyExcept_true {α : Type} {f : α → Except PyErr Bool} {l : List α} :
    anyExcept f l = .ok true ↔ ∃ before x after, l = before ++ x :: after ∧ f x = .ok true ∧
      ∀ y ∈ before, ∃ b, f y = .ok b := by
  induction l with
  | nil => simp [anyExcept]
  | cons y l ih =>
    rw [anyExcept]
    constructor
    · intro h
      cases hy : f y with
      | error e => simp [hy] at h
      | ok b =>
        cases b with
        | true => exact ⟨[], y, l, rfl, hy, by simp⟩
        | false =>
          rw [hy] at h
          obtain ⟨before, x, after, rfl, h1, h2⟩ := ih.1 h
          refine ⟨y :: before, x, after, rfl, h1, fun z hz => ?_⟩
          rcases List.mem_cons.1 hz with rfl | hz
          · exact ⟨_, hy⟩
          · exact h2 z hz
    · rintro ⟨before, x, after, he, h1, h2⟩
      cases before with
      | nil => cases he; rw [h1]
      | cons z before =>
        cases he
        obtain ⟨b, hb⟩ := h2 y (by simp)
        cases b with
        | true => rw [hb]
        | false =>
          rw [hb]
          exact ih.2 ⟨before, x, after, rfl, h1, fun z hz => h2 z (List.mem_cons_of_mem _ hz)⟩

theorem anyExcept_false {α : Type} {f : α → Except PyErr Bool} {l : List α} :
    anyExcept f l = .ok false ↔ ∀ x ∈ l, f x = .ok false := by
  induction l with
  | nil => simp [anyExcept]
  | cons y l ih =>
    rw [anyExcept, List.forall_mem_cons, ← ih]
    cases hy : f y with
    | error e => simp
    | ok b => cases b <;> simp

theorem parametersFrom_placed {R : Runtime} {f : FunctionDef} {c : Fn} {m parent : Path} {ps : List Param}
    (h : parametersFrom R f c m parent = .ok ps) : Placed R f c m parent := by
  unfold parametersFrom at h
  rw [except_bind_ok] at h
  obtain ⟨full, _, h⟩ := h
  by_cases hc : c.isType = true
  · exact .constructor hc
  · rw [if_neg hc, except_bind_ok] at h
    obtain ⟨b, hb, h⟩ := h
    cases b with
    | true =>
      obtain ⟨before, x, after, h1, h2, h3⟩ := anyExcept_true.1 hb
      exact .classMethod before after x h1 ((isClassmethod_iff ..).1 h2) fun y hy => identified_iff.2 (h3 y hy)
    | false =>
      rw [if_neg (by simp)] at h
      cases hk : R.stubs.nodesKinds.lookup m with
      | none => simp [hk] at h
      | some kinds =>
        exact .other (fun x hx => identified_iff.2 ⟨_, anyExcept_false.1 hb x hx⟩) kinds hk

theorem placed_parametersFrom {R : Runtime} {f : FunctionDef} {c : Fn} {m parent : Path} {full : List Param}
    (hfull : declaredParameters (R.ev m parent) f.args = .ok full) (hp : Placed R f c m parent)
    (hne : ∀ role, HasRole R f c m parent role → role ≠ .function → full ≠ []) :
    ∃ ps, parametersFrom R f c m parent = .ok ps := by
  unfold parametersFrom
  rw [hfull]
  simp only [bind, Except.bind]
  have replaced : ∀ a, full ≠ [] → ∃ ps, replaceFirst a full = .ok ps := by
    intro a h
    cases full with
    | nil => exact absurd rfl h
    | cons p l =>
      cases hn : RequiredParameter.new a (.kind .positionalOnly) p.name with
      | ok q => exact ⟨q :: l, by simp [replaceFirst, hn, bind, Except.bind, pure, Except.pure]⟩
      | error e =>
        rw [required_new _ _ _ (by simp [Variadic])] at hn
        cases hn
  by_cases hc : c.isType = true
  · rw [if_pos hc]
    have := hne .constructor hc (by simp)
    cases full with
    | nil => exact absurd rfl this
    | cons p l => exact ⟨l, rfl⟩
  · rw [if_neg hc]
    have hc' : c.isType = false := by simpa using hc
    have classy : (∃ b, anyExcept (isClassmethod R m parent) f.decorators = .ok b) := by
      cases hp with
      | constructor h => exact absurd h hc
      | classMethod before after x h1 h2 h3 =>
        exact ⟨true, anyExcept_true.2 ⟨before, x, after, h1, (isClassmethod_iff ..).2 h2,
          fun y hy => identified_iff.1 (h3 y hy)⟩⟩
      | other h => exact anyExcept_total fun x hx => identified_iff.1 (h x hx)
    obtain ⟨b, hb⟩ := classy
    rw [hb]
    dsimp only
    have hb' := anyExcept_ok hb
    simp only [isClassmethod_iff] at hb'
    cases b with
    | true =>
      rw [if_pos rfl]
      exact replaced _ (hne .classMethod ⟨hc', hb'.1 rfl⟩ (by simp))
    | false =>
      rw [if_neg (by simp)]
      have hno : ∀ d ∈ f.decorators, ¬ IsClassmethod R m parent d := fun d hd hi => by
        have := hb'.2 ⟨d, hd, hi⟩; cases this
      have known : ∃ kinds, R.stubs.nodesKinds.lookup m = some kinds := by
        cases hp with
        | constructor h => exact absurd h hc
        | classMethod before after x h1 h2 h3 => exact absurd h2 (hno x (by rw [h1]; simp))
        | other _ kinds h => exact ⟨kinds, h⟩
      obtain ⟨kinds, hk⟩ := known
      rw [hk]
      dsimp only
      by_cases hcl : kinds.lookup parent = some .class_
      · rw [if_pos (by simp [hcl])]
        exact replaced _ (hne .method ⟨hc', hno, kinds, hk, hcl⟩ (by simp))
      · rw [if_neg (by simp [hcl])]
        exact ⟨_, rfl⟩

theorem unslashed_parsed {a : Arguments} (h : Parsed a) (hd : a.defaults.length ≤ a.args.length) :
    Parsed (unslashed a) where
  defaults := by simpa [unslashed] using hd
  kwDefaults := h.kwDefaults
  distinct := by
    have := h.distinct
    rw [formals_unslashed a, List.map_append] at this
    exact (List.nodup_append.1 this).2.1

/-- A definition can be read exactly if nothing is in the way. -/
theorem readable_iff {R : Runtime} {d : FunctionDef} {c : Fn} {m parent : Path} (ha : Parsed d.args) :
    (∃ sig, fromFunctionDef R d c m parent = .ok sig) ↔ Readable R d c m parent := by
  constructor
  · rintro ⟨sig, h⟩
    obtain ⟨ps, r, hps, hr, _, _⟩ := fromFunctionDef_ok.1 h
    obtain ⟨full, role, hfull, hrole, hadj⟩ := parametersFrom_ok hps
    have hd := defaults_after hfull
    have hpt := (declared_iff (a := unslashed d.args) rfl hd).1
      (show declaredParameters (R.ev m parent) (unslashed d.args) = .ok full from hfull)
    refine ⟨hd, fun f hf e he => ?_, fun hn e he => ?_, parametersFrom_placed hps, fun role' hrole' hne he => ?_⟩
    · rw [readFormals_eq] at hf
      obtain ⟨x, hx, rfl⟩ := List.mem_map.1 hf
      obtain ⟨p, _, hp⟩ := hpt.exists_right hx
      have ht := (nodeOf_transcribes (fun hv => formals_variadic hx hv) hp).1
      have he : x.arg.annotation = some e ∨ x.default = some e := by
        split at he <;> exact he
      rcases he with he | he
      · exact ⟨_, ht.annotation e he⟩
      · obtain ⟨v, hv, _⟩ := ht.default e he
        exact ⟨v, hv⟩
    · unfold returnsFrom at hr
      rw [if_neg (by simpa using hn), he] at hr
      exact ⟨r, hr⟩
    · cases hasRole_unique hrole hrole'
      have hl := hpt.length
      rw [readFormals_eq, List.map_eq_nil_iff] at he
      rw [he] at hl
      have hf : full = [] := List.length_eq_zero_iff.1 hl.symm
      subst hf
      cases role with
      | function => exact hne rfl
      | constructor => obtain ⟨_, h⟩ := hadj; cases h
      | method => obtain ⟨_, _, h, _⟩ := hadj; cases h
      | classMethod => obtain ⟨_, _, h, _⟩ := hadj; cases h
  · intro h
    obtain ⟨full, hm⟩ := mapExcept_total (f := nodeOf (R.ev m parent)) (as := formals (unslashed d.args))
      fun x hx => nodeOf_total (fun e he => h.parameters
        (if x.kind = .positionalOrKeyword then { x with kind := .positionalOnly } else x)
        (by rw [readFormals_eq]; exact List.mem_map.2 ⟨x, hx, rfl⟩) e (by split <;> exact he))
        (fun hv => formals_variadic hx hv)
    have hpt := mapExcept_pointwise.1 hm
    have hfull : declaredParameters (R.ev m parent) d.args = .ok full :=
      (declared_iff (a := unslashed d.args) rfl h.defaults).2 hpt
    obtain ⟨ps, hps⟩ := placed_parametersFrom hfull h.placed fun role hrole hne he => by
      refine h.first role hrole hne ?_
      rw [readFormals_eq, List.map_eq_nil_iff]
      have hl := hpt.length
      rw [he] at hl
      exact List.length_eq_zero_iff.1 hl
    obtain ⟨full', role, hfull', hrole, hadj⟩ := parametersFrom_ok hps
    rw [hfull] at hfull'
    cases hfull'
    have htr := transcribes_wellFormed (unslashed_parsed ha h.defaults)
      (hpt.imp fun x hx p _ g => (nodeOf_transcribes (fun hv => formals_variadic hx hv) g).1)
    have hw := adjusted_wellFormed hadj htr
    have hret : ∃ r, returnsFrom R d c m parent = .ok r := by
      unfold returnsFrom
      split
      · exact ⟨_, rfl⟩
      · rename_i hn
        cases hr : d.returns with
        | none => exact ⟨_, rfl⟩
        | some e => exact h.result (by simpa using hn) e hr
    obtain ⟨r, hr⟩ := hret
    exact ⟨_, fromFunctionDef_ok.2 ⟨ps, r, hps, hr, hw, rfl⟩⟩

end Paradigm
