import Verif.Spec.AsRead
import Verif.Lemmas.Formals
import Verif.Lemmas.Stub

/-! Definitions are read without what stands before `/`. -/

namespace Paradigm

open PyCall Spec

/-- The arguments without those before `/`. -/
def unslashed (a : Arguments) : Arguments := { a with posonlyargs := [] }

theorem positionalDefault_unslashed (a : Arguments) (i : Nat) :
    positionalDefault (unslashed a) i = positionalDefault a (a.posonlyargs.length + i) := by
  unfold positionalDefault unslashed
  simp only [List.length_nil, Nat.zero_add]
  by_cases h : i + a.defaults.length < a.args.length
  · rw [if_pos h, if_pos (by omega)]
  · rw [if_neg h, if_neg (by omega)]
    congr 1
    omega

theorem formals_unslashed (a : Arguments) :
    formals a = a.posonlyargs.zipIdx.map (fun p =>
      { arg := p.1, default := positionalDefault a p.2, kind := .positionalOnly }) ++
      formals (unslashed a) := by
  unfold formals
  simp only [positionalDefault_unslashed, List.append_assoc]
  simp [unslashed]

theorem formals_unslashed_kind (a : Arguments) : ∀ f ∈ formals (unslashed a), f.kind ≠ .positionalOnly := by
  intro f hf
  unfold formals unslashed at hf
  simp only [List.mem_append, List.mem_map] at hf
  rcases hf with (((⟨x, hx, rfl⟩ | ⟨x, _, rfl⟩) | ⟨x, _, rfl⟩) | ⟨x, _, rfl⟩) | ⟨x, _, rfl⟩ <;>
    first | (cases hx; done) | simp

theorem readFormals_eq (a : Arguments) :
    readFormals a = (formals (unslashed a)).map fun f =>
      if f.kind = .positionalOrKeyword then { f with kind := .positionalOnly } else f := by
  unfold readFormals
  rw [formals_unslashed a, List.filter_append]
  have h1 : (a.posonlyargs.zipIdx.map (fun p =>
      ({ arg := p.1, default := positionalDefault a p.2, kind := .positionalOnly } : Formal))).filter
        (fun f => f.kind != .positionalOnly) = [] := by
    rw [List.filter_eq_nil_iff]
    intro f hf
    obtain ⟨x, _, rfl⟩ := List.mem_map.1 hf
    simp
  have h2 : (formals (unslashed a)).filter (fun f => f.kind != .positionalOnly) = formals (unslashed a) := by
    rw [List.filter_eq_self]
    intro f hf
    simpa using formals_unslashed_kind a f hf
  rw [h1, h2, List.nil_append]

theorem zipLongest_long {α β : Type} : ∀ (as : List α) (bs : List β), as.length < bs.length →
    ∃ b, (none, some b) ∈ zipLongest as bs
  | [], b :: bs, _ => ⟨b, by simp [zipLongest]⟩
  | _ :: as, b :: bs, h => by
    obtain ⟨b', hb⟩ := zipLongest_long as bs (by simpa using h)
    exact ⟨b', by simp [zipLongest, hb]⟩

/-- If a definition is read at all, then the defaults all belong to parameters after `/`. -/
theorem defaults_after {ev : Expr → Except PyErr Obj} {a : Arguments} {full : List Param}
    (h : declaredParameters ev a = .ok full) : a.defaults.length ≤ a.args.length := by
  unfold declaredParameters at h
  rw [except_bind_ok] at h
  obtain ⟨ps, hp, _⟩ := h
  unfold toPositionalParameters at hp
  rw [mapExcept_pointwise] at hp
  refine Nat.le_of_not_lt fun hlt => ?_
  obtain ⟨b, hb⟩ := zipLongest_long a.args.reverse a.defaults.reverse (by simpa using hlt)
  obtain ⟨p, _, he⟩ := hp.exists_right (List.mem_reverse.2 hb)
  cases he

/-- The parameters of a signature read from a definition. -/
theorem fromFunctionDef_asRead {R : Runtime} {d : FunctionDef} {c : Fn} {m parent : Path} {sig : Sig}
    (h : fromFunctionDef R d c m parent = .ok sig) :
    ∃ s role, sig = .plain s ∧ WellFormed s.parameters ∧ HasRole R d c m parent role ∧
      Pointwise Declares (roleFormals role (readFormals d.args)) s.parameters := by
  obtain ⟨ps, r, hps, _, hw, rfl⟩ := fromFunctionDef_ok.1 h
  obtain ⟨full, role, hfull, hrole, hadj⟩ := parametersFrom_ok hps
  refine ⟨_, role, rfl, hw, hrole, ?_⟩
  have hd := defaults_after hfull
  have hfull' : declaredParameters (R.ev m parent) (unslashed d.args) = .ok full := hfull
  have hpt : Pointwise Declares (readFormals d.args) full := by
    rw [readFormals_eq]
    refine Pointwise.map_left (((declared_iff (a := unslashed d.args) rfl hd).1 hfull').imp fun x hx p _ g => ?_)
    have ht := (nodeOf_transcribes (fun hv => formals_variadic hx hv) g).1
    split
    · rename_i hk
      refine ⟨ht.name, by rw [ht.kind, if_pos hk], ht.optional.trans ?_⟩
      simp [hk, Variadic]
    · rename_i hk
      exact ⟨ht.name, by rw [ht.kind, if_neg hk], ht.optional⟩
  cases role with
  | function => rw [show ps = full from hadj]; exact hpt
  | constructor =>
    obtain ⟨first, rfl⟩ := hadj
    cases hf : readFormals d.args with
    | nil => rw [hf] at hpt; cases hpt.nil_left
    | cons x xs => rw [hf] at hpt; exact hpt.2
  | method =>
    obtain ⟨first, rest, rfl, rfl⟩ := hadj
    cases hf : readFormals d.args with
    | nil => rw [hf] at hpt; cases hpt.nil_left
    | cons x xs =>
      rw [hf] at hpt
      exact ⟨⟨hpt.1.name, rfl, by simp [Param.isOptional, Variadic]⟩, hpt.2⟩
  | classMethod =>
    obtain ⟨first, rest, rfl, rfl⟩ := hadj
    cases hf : readFormals d.args with
    | nil => rw [hf] at hpt; cases hpt.nil_left
    | cons x xs =>
      rw [hf] at hpt
      exact ⟨⟨hpt.1.name, rfl, by simp [Param.isOptional, Variadic]⟩, hpt.2⟩

/-- No parameter is read as one that can be given both by position and by keyword. -/
theorem roleFormals_unmixed {a : Arguments} {role : Role} :
    ∀ f ∈ roleFormals role (readFormals a), f.kind ≠ .positionalOrKeyword := by
  have hr : ∀ f ∈ readFormals a, f.kind ≠ .positionalOrKeyword := by
    intro f hf
    obtain ⟨x, _, rfl⟩ := List.mem_map.1 hf
    split
    · simp
    · assumption
  intro f hf
  cases role with
  | function => exact hr f hf
  | constructor => exact hr f (List.mem_of_mem_tail hf)
  | method =>
    cases h : readFormals a with
    | nil => rw [h] at hf; cases hf
    | cons x xs =>
      rw [h] at hf hr
      rcases List.mem_cons.1 hf with rfl | hf
      · simp
      · exact hr f (List.mem_cons_of_mem _ hf)
  | classMethod =>
    cases h : readFormals a with
    | nil => rw [h] at hf; cases hf
    | cons x xs =>
      rw [h] at hf hr
      rcases List.mem_cons.1 hf with rfl | hf
      · simp
      · exact hr f (List.mem_cons_of_mem _ hf)

/-- A definition as read and its signature accept the same calls. -/
theorem fromFunctionDef_accepts {R : Runtime} {d : FunctionDef} {c : Fn} {m parent : Path} {s : PlainSig}
    (h : fromFunctionDef R d c m parent = .ok (.plain s)) {role : Role} (hrole : HasRole R d c m parent role)
    {args : List Obj} {kwargs : Kwargs} (hnd : (keys kwargs).Nodup) :
    Accepts s.parameters args kwargs ↔ FormalsAccept (roleFormals role (readFormals d.args)) args kwargs := by
  obtain ⟨s', role', he, hw, hrole', hpt⟩ := fromFunctionDef_asRead h
  cases he
  cases hasRole_unique hrole hrole'
  constructor
  · exact fun g => ⟨_, hpt, g⟩
  · rintro ⟨ps, hps, g⟩
    have both : Pointwise (fun p q : Param => p.name = q.name ∧ p.kind = q.kind ∧
        p.isOptional = q.isOptional) s.parameters ps := by
      generalize roleFormals role (readFormals d.args) = fs at hpt hps
      generalize s.parameters = qs at hpt
      clear g hw h
      induction fs generalizing ps qs with
      | nil => cases hpt.nil_left; cases hps.nil_left; trivial
      | cons f fs ih =>
        obtain ⟨q, qs, rfl, h1, h2⟩ := hpt.cons_left
        obtain ⟨p, ps, rfl, h3, h4⟩ := hps.cons_left
        refine ⟨⟨by rw [h1.name, h3.name], by rw [h1.kind, h3.kind], ?_⟩, ih _ h4 _ h2⟩
        rw [Bool.eq_iff_iff, h1.optional, h3.optional]
    exact (accepts_congr hw (wellFormed_congr both hw) (both.imp fun p _ q _ g =>
      ⟨g.1, g.2.1, by have := g.2.2; cases p <;> cases q <;> simp_all [Param.isRequired, Param.isOptional]⟩)
      hnd).2 g

end Paradigm
