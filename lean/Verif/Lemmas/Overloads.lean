import Verif.Lemmas.Quiet

/-!
# Lemmas: what the signatures made of declarations are called after
-/

namespace Paradigm

open Spec

/-- Whatever garbage is collected. -/
theorem evaluator_quiet {R : Runtime} {W : Interpreter Obj} (hW : Ordinary W) {other : Atom → String} (n : Nat)
    (collect : EvalState Obj → EvalState Obj) (m parent : Path) (e : Expr) :
    Quiet ((R.evaluator W other n).after collect m parent e) := fun _ => evaluateNode_quiet hW n m parent e _

theorem paramFromNodeS_name {ev : Expr → Ev Obj Obj} (hev : ∀ e, Quiet (ev e)) (node : Arg)
    (default : Option Expr) (kind : Kind) :
    Yields (fun p : Param => p.name = node.name ∧ p.kind = kind) (paramFromNodeS ev node default kind) := by
  have hopt : ∀ (a d : Obj), Yields (V := Obj) (fun p : Param => p.name = node.name ∧ p.kind = kind)
      (Ev.lift (OptionalParameter.new a (.kind kind) node.name d)) := by
    intro a d
    refine Yields.lift (fun h => ?_) fun p h => ?_
    · obtain ⟨_, h⟩ := optional_error h
      cases h
    · simp only [OptionalParameter.new, validateKind] at h
      split at h
      · cases h
      · cases h; exact ⟨rfl, rfl⟩
  have hann : Quiet (annotationFromS ev node) := by
    unfold annotationFromS
    split
    · exact Quiet.pure _
    · exact hev _
  unfold paramFromNodeS
  refine Yields.bind hann fun a _ => ?_
  cases default with
  | some e =>
    refine Yields.bind (hev e) fun d _ => ?_
    split
    · exact hopt _ _
    · exact hopt _ _
  | none =>
    dsimp only
    split
    · exact hopt _ _
    · refine Yields.lift (fun h => ?_) fun p h => ?_
      · obtain ⟨_, h⟩ := required_error h
        cases h
      · simp only [RequiredParameter.new, validateKind] at h
        split at h
        · cases h; exact ⟨rfl, rfl⟩
        · cases h

theorem zipLongest_fst {α β : Type} : ∀ (as : List α) (bs : List β),
    (zipLongest as bs).filterMap Prod.fst = as
  | [], bs => by
    rw [zipLongest, List.filterMap_map]
    exact List.filterMap_eq_nil_iff.2 fun _ _ => rfl
  | a :: as, [] => by simp [zipLongest, zipLongest_fst as []]
  | a :: as, b :: bs => by simp [zipLongest, zipLongest_fst as bs]

theorem names_of_some {β : Type} : ∀ {xs : List (Option Arg × β)} {ps : List Param},
    Pointwise (fun x p => ∃ node, x.1 = some node ∧ p.name = node.name) xs ps →
    ps.map Param.name = (xs.filterMap Prod.fst).map Arg.name
  | [], ps, h => by rw [h.nil_left]; rfl
  | (x, b) :: xs, ps, h => by
    obtain ⟨p, ps, rfl, ⟨node, hx, hp⟩, h'⟩ := h.cons_left
    dsimp only at hx
    subst hx
    simp [names_of_some h', hp]

theorem names_of_pairs {β : Type} : ∀ {as : List Arg} {bs : List β} {ps : List Param},
    bs.length = as.length →
    Pointwise (fun x p => p.name = x.1.name) (as.zip bs) ps → ps.map Param.name = as.map Arg.name
  | [], _, ps, _, h => by rw [h.nil_left]; rfl
  | a :: as, [], ps, hl, _ => by simp at hl
  | a :: as, b :: bs, ps, hl, h => by
    rw [List.zip_cons_cons] at h
    obtain ⟨p, ps, rfl, hp, h'⟩ := h.cons_left
    rw [List.map_cons, List.map_cons, names_of_pairs (by simpa using hl) h', hp]

theorem toVariadicParameterS_names {ev : Expr → Ev Obj Obj} (hev : ∀ e, Quiet (ev e)) (node : Option Arg)
    (kind : Kind) : Yields (fun ps : List Param => ps.map Param.name = node.toList.map Arg.name)
      (toVariadicParameterS ev node kind) := by
  cases node with
  | none => exact Yields.pure rfl
  | some node => exact (paramFromNodeS_name hev node none kind).bind fun p hp => Yields.pure (by simp [hp.1])

/-- The first parameter is positional-only. -/
def BeginsPositional (ps : List Param) : Prop := ∃ p rest, ps = p :: rest ∧ p.kind = .positionalOnly

theorem declaredParametersS_names {ev : Expr → Ev Obj Obj} (hev : ∀ e, Quiet (ev e)) {a : Arguments}
    (hk : a.kwDefaults.length = a.kwonlyargs.length) :
    Yields (fun ps : List Param => ps.map Param.name = namesDeclared a ∧ (a.args ≠ [] → BeginsPositional ps))
      (declaredParametersS ev a) := by
  have h1 : Yields (fun ps : List Param => ps.map Param.name = a.args.map Arg.name ∧
        ∀ p ∈ ps, p.kind = .positionalOnly) (toPositionalParametersS ev a) := by
    refine (Yields.each (P := fun x p => (∃ node, x.1 = some node ∧ p.name = node.name) ∧
      p.kind = .positionalOnly) fun x _ => ?_).imp fun ps h => ?_
    · obtain ⟨p, d⟩ := x
      cases p with
      | none => exact Yields.raise (by simp)
      | some node => exact (paramFromNodeS_name hev node d _).imp fun p hp => ⟨⟨node, rfl, hp.1⟩, hp.2⟩
    · refine ⟨?_, fun p hp => ?_⟩
      · rw [names_of_some (h.imp fun _ _ _ _ g => g.1), List.filterMap_reverse, zipLongest_fst,
          List.reverse_reverse]
      · obtain ⟨_, _, g⟩ := h.exists_left hp
        exact g.2
  have h3 : Yields (fun ps : List Param => ps.map Param.name = a.kwonlyargs.map Arg.name)
      (toKeywordParametersS ev a) :=
    (Yields.each (P := fun x p => p.name = x.1.name) fun x _ => (paramFromNodeS_name hev x.1 x.2 _).imp
      fun _ g => g.1).imp fun ps h => names_of_pairs hk h
  refine h1.bind fun ps hps => (toVariadicParameterS_names hev _ _).bind fun vs hvs =>
    h3.bind fun ks hks => (toVariadicParameterS_names hev _ _).bind fun ws hws => Yields.pure ?_
  refine ⟨by simp [namesDeclared, hps.1, hvs, hks, hws], fun hne => ?_⟩
  cases ps with
  | nil => exact absurd (by simpa using hps.1) hne
  | cons p ps => exact ⟨p, _, rfl, hps.2 p (.head _)⟩

/-- The stubs declare a class there. -/
def ClassThere (T : Stubs) (m parent : Path) : Prop :=
  ∃ kinds, T.nodesKinds.lookup m = some kinds ∧ kinds.lookup parent = some .class_

/-- The names the parameters have, given the declared ones. -/
theorem adjustedParameters_names {R : Runtime} {f : FunctionDef} {c : Fn} {m parent : Path}
    (full : List Param) : adjustedParameters R f c m parent full ≠ .error .signatureNotFound ∧
      ∀ ps, adjustedParameters R f c m parent full = .ok ps →
        (ps.map Param.name = if c.isType then (full.map Param.name).tail else full.map Param.name) ∧
        (c.isType = false → BeginsPositional full ∨ ClassThere R.stubs m parent → BeginsPositional ps) := by
  have hrep : ∀ a : Obj, replaceFirst a full ≠ .error .signatureNotFound ∧
      ∀ ps, replaceFirst a full = .ok ps → ps.map Param.name = full.map Param.name ∧
        (c.isType = false → BeginsPositional full ∨ ClassThere R.stubs m parent → BeginsPositional ps) := by
    intro a
    refine ⟨fun h => ?_, fun ps h => ?_⟩
    · rcases replaceFirst_error h with h | ⟨_, h⟩ <;> cases h
    · obtain ⟨first, rest, rfl, rfl⟩ := replaceFirst_ok.1 h
      exact ⟨rfl, fun _ _ => ⟨_, _, rfl, rfl⟩⟩
  unfold adjustedParameters
  by_cases hc : c.isType = true
  · rw [if_pos hc, if_pos hc]
    cases full with
    | nil => exact ⟨(by simp), fun ps h => by cases h⟩
    | cons p full => exact ⟨(by simp), fun ps h => by
        cases h; exact ⟨rfl, fun g => absurd hc (by simp [g])⟩⟩
  · rw [if_neg hc, if_neg hc]
    refine ⟨fun h => ?_, fun ps h => ?_⟩
    · rcases except_bind_error.1 h with h | ⟨b, _, h⟩
      · obtain ⟨d, _, h⟩ := anyExcept_error h
        unfold isClassmethod at h
        split at h
        · cases h
        · split at h
          · rename_i e he
            injection h with h
            subst h
            exact resolve_quiet _ _ _ _ _ _ he
          · cases h
      split at h
      · exact (hrep _).1 h
      split at h
      · cases h
      · split at h
        · exact (hrep _).1 h
        · cases h
    · rw [except_bind_ok] at h
      obtain ⟨b, _, h⟩ := h
      split at h
      · exact (hrep _).2 _ h
      split at h
      · cases h
      · split at h
        · exact (hrep _).2 _ h
        · next hkinds hnot =>
          cases h
          refine ⟨rfl, fun _ g => g.resolve_right ?_⟩
          rintro ⟨kinds, hk, hc'⟩
          rw [hkinds] at hk
          cases hk
          exact hnot (by rw [hc']; rfl)

/-- The names of the declaration, and how it begins. -/
def Shaped (inClass : Prop) (asClass : Bool) (f : FunctionDef) (p : PlainSig) : Prop :=
  NamedAfter asClass f p ∧ (asClass = false → f.args.args ≠ [] ∨ inClass → BeginsPositional p.parameters)

theorem fromFunctionDefS_names {R : Runtime} {E : Evaluator} {f : FunctionDef} {c : Fn} {m parent : Path}
    (hE : ∀ e, Quiet (E m parent e)) (hk : f.args.kwDefaults.length = f.args.kwonlyargs.length) :
    Yields (fun s => ∃ p, s = .plain p ∧ Shaped (ClassThere R.stubs m parent) c.isType f p)
      (fromFunctionDefS R E f c m parent) := by
  refine Yields.bind (P := fun ps => (ps.map Param.name =
      if c.isType then (namesDeclared f.args).tail else namesDeclared f.args) ∧
      (c.isType = false → f.args.args ≠ [] ∨ ClassThere R.stubs m parent → BeginsPositional ps)) ?_ fun ps hps =>
    Yields.bind (P := fun _ => True) ?_ fun r _ =>
    Yields.bind (P := fun s => s.parameters = ps) ?_ fun s hs => Yields.pure ⟨s, rfl, ?_⟩
  · refine (declaredParametersS_names hE hk).bind fun full hfull => ?_
    obtain ⟨h1, h2⟩ := adjustedParameters_names (R := R) (f := f) (c := c) (m := m) (parent := parent) full
    exact Yields.lift h1 fun ps h =>
      ⟨by rw [(h2 ps h).1, hfull.1], fun hc ha => (h2 ps h).2 hc (ha.imp_left hfull.2)⟩
  · unfold returnsFromS
    split
    · exact Quiet.pure _
    · split
      · exact Quiet.pure _
      · exact hE _
  · refine Yields.lift (fun h => ?_) fun s h => ?_
    · obtain ⟨_, h⟩ := plainNew_error h
      cases h
    · obtain ⟨_, rfl⟩ := new_ok_iff.1 h
      rfl
  · unfold Shaped NamedAfter
    rw [hs]
    exact hps

theorem fromSignatures_quiet (l : List Sig) : fromSignatures l ≠ .error .signatureNotFound := by
  rw [Props.fromSignatures_eq]
  cases Props.collapse (Props.members l) <;> simp

/-- The signature is made of one plain signature for each declaration. -/
def OneShaped (inClass : Prop) (asClass : Bool) (fs : List FunctionDef) (s : Sig) : Prop :=
  ∃ ss, MadeOf ss s ∧ Pointwise (Shaped inClass asClass) fs ss

theorem OneShaped.declared {inClass : Prop} {asClass : Bool} {fs : List FunctionDef} {s : Sig}
    (h : OneShaped inClass asClass fs s) : OnePerDeclaration asClass fs s := by
  obtain ⟨ss, h1, h2⟩ := h
  exact ⟨ss, h1, h2.imp fun _ _ _ _ g => g.1⟩

theorem plains {P : FunctionDef → PlainSig → Prop} : ∀ {fs : List FunctionDef} {l : List Sig},
    Pointwise (fun f s => ∃ p, s = .plain p ∧ P f p) fs l → ∃ ss : List PlainSig, l = ss.map .plain ∧
      Pointwise P fs ss
  | [], l, h => ⟨[], by rw [h.nil_left]; rfl, trivial⟩
  | f :: fs, l, h => by
    obtain ⟨s, l, rfl, ⟨p, rfl, hp⟩, h'⟩ := h.cons_left
    obtain ⟨ss, rfl, hss⟩ := plains h'
    exact ⟨p :: ss, rfl, hp, hss⟩

section

variable {R : Runtime} {E : Evaluator} (hE : ∀ m parent e, Quiet (E m parent e)) (hd : R.depth ≠ 0)
  {c : Fn} {q : QPath} {fs : List FunctionDef} (h : DefinedBy R.stubs q fs) (hne : fs ≠ [])
  (hfs : ∀ f ∈ fs, f.args.kwDefaults.length = f.args.kwonlyargs.length)

include hE hd hfs in
theorem nodes_names : Yields (fun l => ∃ ss : List PlainSig, l = ss.map .plain ∧
      Pointwise (Shaped (ClassThere R.stubs q.1 q.2.dropLast) c.isType) fs ss)
    (Ev.each (fun node => fromStatementS R E R.depth node c q.1 q.2.dropLast) (fs.map .functionDef)) := by
  refine (Yields.each (P := fun node s => ∃ f p, node = .functionDef f ∧ s = .plain p ∧
    Shaped (ClassThere R.stubs q.1 q.2.dropLast) c.isType f p) fun node hn => ?_).imp fun l hl => ?_
  · obtain ⟨f, hf, rfl⟩ := List.mem_map.1 hn
    obtain ⟨n, hn⟩ := Nat.exists_eq_succ_of_ne_zero hd
    rw [hn, fromStatementS]
    exact (fromFunctionDefS_names (hE _ _) (hfs f hf)).imp fun s ⟨p, hs, hp⟩ => ⟨f, p, rfl, hs, hp⟩
  · refine plains ?_
    clear hfs
    induction fs generalizing l with
    | nil => rw [hl.nil_left]; trivial
    | cons f fs ih =>
      obtain ⟨s, l, rfl, ⟨f', p, hf, hs, hp⟩, hl⟩ := hl.cons_left
      cases hf
      exact ⟨⟨p, hs, hp⟩, ih l hl⟩

theorem catchNotFound_quiet {α : Type} {P : α → Prop} {x handler : Ev Obj α} (h : Yields P x) :
    catchNotFound x handler = x := by
  funext s
  have h1 := (h s).1
  unfold catchNotFound
  split
  · rename_i he
    rw [he] at h1
    exact absurd rfl h1
  · rfl

include hE hd h hne hfs

theorem fromPathsS_declared (others : List QPath) :
    Yields (OneShaped (ClassThere R.stubs q.1 q.2.dropLast) c.isType fs) (fromPathsS R E c (q :: others)) := by
  obtain ⟨m, object⟩ := q
  have hn := nodes_names hE hd (c := c) (q := (m, object)) hfs
  rw [fromPathsS, loadAstNodes_definedBy h hne]
  refine Yields.bind (P := fun l => l = fs.map .functionDef)
    (Yields.lift (by simp) fun l hl => by cases hl; rfl) ?_
  rintro _ rfl
  have hsome : Yields (fun o => ∃ ss : List PlainSig, o = some (ss.map .plain) ∧
      Pointwise (Shaped (ClassThere R.stubs m object.dropLast) c.isType) fs ss) (do
        let signatures ← Ev.each
          (fun node => fromStatementS R E R.depth node c m object.dropLast) (fs.map .functionDef)
        pure (some signatures) : Ev Obj (Option (List Sig))) :=
    hn.bind fun l ⟨ss, hl, hss⟩ => Yields.pure ⟨ss, by rw [hl], hss⟩
  rw [catchNotFound_quiet hsome]
  refine hsome.bind ?_
  rintro _ ⟨ss, rfl, hss⟩
  exact Yields.lift (fromSignatures_quiet _) fun s hs => ⟨ss, fromSignatures_madeOf.1 hs, hss⟩

theorem fromFnS_declared (hq : LooksAt R false c q) :
    Yields (OneShaped (ClassThere R.stubs q.1 q.2.dropLast) c.isType fs) (fromFnS R E c) := by
  obtain ⟨others, hq⟩ := hq
  unfold fromFnS
  rw [hq]
  refine Yields.bind (P := fun l => l = q :: others)
    (Yields.lift (by simp) fun l hl => by cases hl; rfl) ?_
  rintro _ rfl
  exact fromPathsS_declared hE hd h hne hfs others

theorem fromClassS_declared (hq : LooksAt R true c q) :
    Yields (OneShaped (ClassThere R.stubs q.1 q.2.dropLast) c.isType fs) (fromClassS R E c) := by
  obtain ⟨paths, builders, hp, hb, ha⟩ := hq
  have hpe : paths.isEmpty = false := by
    cases paths with
    | nil => exact absurd hb.nil_left (List.ne_nil_of_mem ha.1)
    | cons q paths => rfl
  unfold fromClassS
  rw [hp]
  refine Yields.bind (P := fun l => l = paths)
    (Yields.lift (by simp) fun l hl => by cases hl; rfl) ?_
  rintro _ rfl
  rw [hpe, if_neg (by simp), resolveBuilder_agreed hb ha]
  refine Yields.bind (P := fun l => l = q) (Yields.lift (by simp) fun l hl => by cases hl; rfl) ?_
  rintro _ rfl
  rw [loadAstNodes_definedBy h hne]
  refine Yields.bind (P := fun l => l = fs.map .functionDef)
    (Yields.lift (by simp) fun l hl => by cases hl; rfl) ?_
  rintro _ rfl
  refine (nodes_names hE hd hfs).bind ?_
  rintro _ ⟨ss, rfl, hss⟩
  exact Yields.lift (fromSignatures_quiet _) fun s hs => ⟨ss, fromSignatures_madeOf.1 hs, hss⟩

end

/-! ### Bound to instances -/

theorem takeWhile_drop_length {α : Type} (f : α → Bool) : ∀ l : List α,
    l.takeWhile f ++ l.drop (l.takeWhile f).length = l
  | [] => rfl
  | x :: l => by
    cases h : f x with
    | true => simp [h, takeWhile_drop_length f l]
    | false => simp [h]

theorem bind_one_shaped {p : PlainSig} {self : Obj} (h : BeginsPositional p.parameters) :
    p.expects [self] [] = true ∧ p.bind [self] [] ≠ .error .signatureNotFound ∧
      ∀ t, p.bind [self] [] = .ok t → t.parameters = p.parameters.tail := by
  obtain ⟨first, rest, hp, hk⟩ := h
  have hpos : isPositionable first = true := by simp [isPositionable, hk]
  have hb : bindPositionals p.parameters [self] [] (!(byKind p.parameters .variadicPositional).isEmpty) =
      .ok rest := by
    unfold bindPositionals
    rw [hp, List.takeWhile_cons_of_pos hpos]
    simp only [List.length_cons, List.length_nil, keys, List.map_nil, List.take_succ_cons, List.take_zero,
      checkPositionals, List.drop_succ_cons, List.drop_zero]
    rw [if_neg (by simp)]
    simp [takeWhile_drop_length]
  have hkw : ∀ b, bindKeywords rest [] b = .ok rest := by
    intro b
    simp [bindKeywords, keys]
  have hbind : p.bind [self] [] = PlainSig.new rest p.returns := by
    unfold PlainSig.bind
    rw [hb]
    simp only [hkw]
  refine ⟨?_, ?_, ?_⟩
  · unfold PlainSig.expects
    have : byKind p.parameters .positionalOnly = first :: byKind rest .positionalOnly := by
      rw [hp]; simp [byKind, hk]
    simp [this, keys]
  · rw [hbind]
    intro h
    obtain ⟨_, h⟩ := plainNew_error h
    cases h
  · intro t ht
    rw [hbind] at ht
    obtain ⟨_, rfl⟩ := new_ok_iff.1 ht
    rw [hp]; rfl

theorem bind_declared {fs : List FunctionDef} {inClass : Prop}
    (hargs : ∀ f ∈ fs, f.args.args ≠ [] ∨ inClass) {s : Sig} {self : Obj}
    (h : OneShaped inClass false fs s) : s.bind [self] [] ≠ .error .signatureNotFound ∧
      ∀ t, s.bind [self] [] = .ok t → OnePerDeclaration true fs t := by
  obtain ⟨ss, hmade, hss⟩ := h
  have hbegin : ∀ p ∈ ss, BeginsPositional p.parameters := by
    intro p hp
    obtain ⟨f, hf, hfp⟩ := hss.exists_left hp
    exact hfp.2 rfl (hargs f hf)
  have hnamed : ∀ ts, Pointwise (fun p t => p.bind [self] [] = .ok t) ss ts →
      Pointwise (NamedAfter true) fs ts := by
    intro ts hts
    refine (hss.comp hts).imp ?_
    rintro f hf t ht ⟨p, hp, hb⟩
    have h1 := hp.1
    obtain ⟨first, rest, he, hk⟩ := hp.2 rfl (hargs f hf)
    have h2 := (bind_one_shaped (self := self) ⟨first, rest, he, hk⟩).2.2 t hb
    unfold NamedAfter at h1 ⊢
    rw [h2, List.map_tail, h1]
    simp
  match ss, hmade, hbegin, hnamed with
  | [], hmade, _, _ => exact absurd rfl hmade.1
  | [p], hmade, hbegin, hnamed =>
    rw [hmade.2.1 p rfl, Sig.bind]
    have h1 := bind_one_shaped (self := self) (hbegin p (.head _))
    cases hb : p.bind [self] [] with
    | error e => exact ⟨fun g => h1.2.1 (by rw [hb]; injection g with g; rw [g]), fun _ g => by cases g⟩
    | ok t =>
      refine ⟨(by simp), fun u hu => ?_⟩
      cases hu
      exact ⟨[t], ⟨by simp, fun _ g => by cases g; rfl, fun g => by simp at g⟩, hnamed [t] ⟨hb, trivial⟩⟩
  | p :: p' :: ss, hmade, hbegin, hnamed =>
    rw [hmade.2.2 (by simp), Sig.bind, List.filter_eq_self.2 fun p hp => (bind_one_shaped (self := self) (hbegin p hp)).1]
    cases hm : mapExcept (fun s : PlainSig => s.bind [self] []) (p :: p' :: ss) with
    | error e =>
      obtain ⟨x, hx, he⟩ := mapExcept_error hm
      exact ⟨fun g => (bind_one_shaped (self := self) (hbegin x hx)).2.1 (by rw [he]; injection g with g; rw [g]),
        fun _ g => by cases g⟩
    | ok ts =>
      have hts := mapExcept_pointwise.1 hm
      have hne : ts.isEmpty = false := by
        cases ts with
        | nil => exact absurd hts.nil_right (by simp)
        | cons t ts => rfl
      simp only [hne, Bool.false_eq_true, if_false]
      exact ⟨fromSignatures_quiet _, fun t ht => ⟨ts, fromSignatures_madeOf.1 ht, hnamed ts hts⟩⟩

end Paradigm
