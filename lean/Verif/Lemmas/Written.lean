import Verif.Lemmas.Pipeline
import Verif.Props.Callables
import Verif.Props.Definitions
import Verif.Spec.Written

/-!
# Definitions whose annotations have a meaning
-/

namespace Paradigm

open Spec

theorem hasRole_some (R : Runtime) (d : FunctionDef) (c : Fn) (m parent : Path) :
    ∃ role, HasRole R d c m parent role := by
  cases hc : c.isType with
  | true => exact ⟨.constructor, hc⟩
  | false =>
    by_cases h1 : ∃ x ∈ d.decorators, IsClassmethod R m parent x
    · exact ⟨.classMethod, hc, h1⟩
    · have h1 : ∀ x ∈ d.decorators, ¬ IsClassmethod R m parent x := fun x hx h => h1 ⟨x, hx, h⟩
      by_cases h2 : InClass R m parent
      · exact ⟨.method, hc, h1, h2⟩
      · exact ⟨.function, hc, h1, h2⟩

theorem hasRole_constructor {R : Runtime} {d : FunctionDef} {c : Fn} {m parent : Path} {role : Role}
    (h : HasRole R d c m parent role) : role = .constructor ↔ c.isType = true := by
  cases role with
  | constructor => exact ⟨fun _ => h, fun _ => rfl⟩
  | function => exact ⟨fun e => (by cases e), fun e => absurd e (by rw [h.1]; decide)⟩
  | method => exact ⟨fun e => (by cases e), fun e => absurd e (by rw [h.1]; decide)⟩
  | classMethod => exact ⟨fun e => (by cases e), fun e => absurd e (by rw [h.1]; decide)⟩

theorem positionalDefault_mem {a : Arguments} {i : Nat} {e : Expr} (h : positionalDefault a i = some e) :
    e ∈ a.defaults := by
  unfold positionalDefault at h
  dsimp only at h
  split at h
  · cases h
  · exact List.mem_of_getElem? h

/-- What is written for a parameter is a part of the definition. -/
theorem formals_parts {a : Arguments} (hp : a.posonlyargs = []) {x : Formal} (hx : x ∈ formals a) :
    (∀ e, x.arg.annotation = some e → e ∈ argumentsParts a) ∧
      ∀ e, x.default = some e → e ∈ argumentsParts a := by
  have ann : ∀ arg : Arg, arg ∈ a.args ++ a.vararg.toList ++ a.kwonlyargs ++ a.kwarg.toList →
      ∀ e, arg.annotation = some e → e ∈ argumentsParts a := by
    intro arg ha e he
    unfold argumentsParts
    exact List.mem_append_left _ (List.mem_append_left _ (List.mem_filterMap.2 ⟨arg, ha, he⟩))
  unfold formals at hx
  simp only [hp, List.zipIdx_nil, List.map_nil, List.nil_append, List.mem_append, List.mem_map] at hx
  rcases hx with ((⟨y, hy, rfl⟩ | ⟨y, hy, rfl⟩) | ⟨y, hy, rfl⟩) | ⟨y, hy, rfl⟩
  · refine ⟨ann _ (by simp [List.fst_mem_of_mem_zipIdx hy]), fun e he => ?_⟩
    unfold argumentsParts
    exact List.mem_append_left _ (List.mem_append_right _ (positionalDefault_mem he))
  · exact ⟨ann _ (by simp at hy ⊢; simp [hy]), fun e he => by cases he⟩
  · refine ⟨ann _ (by simp [(List.of_mem_zip hy).1]), fun e he => ?_⟩
    unfold argumentsParts
    exact List.mem_append_right _ (List.mem_filterMap.2 ⟨y.2, (List.of_mem_zip hy).2, he⟩)
  · exact ⟨ann _ (by simp at hy ⊢; simp [hy]), fun e he => by cases he⟩

theorem Spec.Transcribes.congr {ev ev' : Expr → Except PyErr Obj} {x : Formal} {p : Param}
    (h : Transcribes ev x p) (h1 : ∀ e, x.arg.annotation = some e → ev' e = ev e)
    (h2 : ∀ e, x.default = some e → ev' e = ev e) : Transcribes ev' x p :=
  { h with
    annotation := fun e he => (h1 e he).trans (h.annotation e he)
    default := fun e he => by
      obtain ⟨v, hv, hd⟩ := h.default e he
      exact ⟨v, (h2 e he).trans hv, hd⟩ }

/-- A definition all of whose parts have a meaning, which the evaluation finds, gives the signature
written. -/
theorem fromFunctionDef_written {R : Runtime} {means : Expr → Except PyErr Obj} {d : FunctionDef} {c : Fn}
    {m parent : Path} {role : Role} (hp : d.args.posonlyargs = []) (ha : Parsed d.args)
    (hm : ∀ e ∈ partsOf d, ∃ v, means e = .ok v ∧ R.ev m parent e = .ok v)
    (hdec : ∀ x ∈ d.decorators, Identified R m parent x)
    (hmod : ∃ kinds, R.stubs.nodesKinds.lookup m = some kinds)
    (hrole : HasRole R d c m parent role) (hne : role ≠ .function → formals d.args ≠ []) :
    ∃ p, fromFunctionDef R d c m parent = .ok (.plain p) ∧ Written means role d p := by
  have he : Evaluable (R.ev m parent) d := by
    refine ⟨fun x hx e h => ?_, fun e h => ?_⟩
    · have hf := formals_parts hp hx
      have : e ∈ partsOf d := List.mem_append_left _ (h.elim (hf.1 e) (hf.2 e))
      obtain ⟨v, -, hv⟩ := hm e this
      exact ⟨v, hv⟩
    · obtain ⟨v, -, hv⟩ := hm e (List.mem_append_right _ (by simp [h]))
      exact ⟨v, hv⟩
  have same : ∀ e ∈ partsOf d, means e = R.ev m parent e := fun e h => by
    obtain ⟨v, h1, h2⟩ := hm e h
    rw [h1, h2]
  obtain ⟨p, hs, -⟩ := Props.C26_legal_partial R d c m parent role hp ha he hdec hmod hrole hne
  obtain ⟨p', full, role', h1, h2, h3, h4⟩ := Props.C25_defaults R d c m parent _ hp ha hs
  cases h1
  cases hasRole_unique hrole h2
  obtain ⟨hr1, hr2⟩ := Props.C81_definition_partial R d c m parent p hs
  refine ⟨p, hs, ⟨full, h3.imp fun x hx p _ h => ?_, h4⟩, fun hc hn => ?_, fun hn => ?_⟩
  · have hf := formals_parts hp hx
    exact h.congr (fun e h => same e (List.mem_append_left _ (hf.1 e h)))
      fun e h => same e (List.mem_append_left _ (hf.2 e h))
  · exact hr2 ((hasRole_constructor hrole).1 hc) hn
  · obtain ⟨h5, h6⟩ := hr1 fun ⟨hc, hi⟩ => hn ⟨(hasRole_constructor hrole).2 hc, hi⟩
    exact ⟨h5, fun e h => (same e (List.mem_append_right _ (by simp [h]))).trans (h6 e h)⟩

theorem madeOf_some {ss : List PlainSig} (h : ss ≠ []) : ∃ s, MadeOf ss s := by
  cases ss with
  | nil => exact absurd rfl h
  | cons p ss =>
    cases ss with
    | nil => exact ⟨.plain p, h, fun q hq => by cases hq; rfl, fun hl => by simp at hl⟩
    | cons q ss => exact ⟨.overloaded (p :: q :: ss), h, fun _ hq => by simp at hq, fun _ => rfl⟩

/-- The same for several definitions. -/
theorem givenBy_written {R : Runtime} {means : Expr → Except PyErr Obj} {c : Fn} {q : QPath}
    (hmod : ∃ kinds, R.stubs.nodesKinds.lookup q.1 = some kinds) : ∀ {ds : List FunctionDef},
    (∀ d ∈ ds, d.args.posonlyargs = [] ∧ Parsed d.args) →
    (∀ d ∈ ds, ∀ e ∈ partsOf d, ∃ v, means e = .ok v ∧ R.ev q.1 q.2.dropLast e = .ok v) →
    (∀ d ∈ ds, ∀ x ∈ d.decorators, Identified R q.1 q.2.dropLast x) →
    (∀ d ∈ ds, ∀ role, HasRole R d c q.1 q.2.dropLast role → role ≠ .function → formals d.args ≠ []) →
    (∀ d ∈ ds, fromFunctionDef R d c q.1 q.2.dropLast ≠ .error .signatureNotFound) ∧
    ∃ ss, Pointwise (fun f p => fromFunctionDef R f c q.1 q.2.dropLast = .ok (.plain p)) ds ss ∧
      Pointwise (fun d p => ∃ r, HasRole R d c q.1 q.2.dropLast r ∧ Written means r d p) ds ss
  | [], _, _, _, _ => ⟨fun _ h => (by cases h), [], trivial, trivial⟩
  | d :: ds, hp, hm, hdec, hne => by
    obtain ⟨role, hrole⟩ := hasRole_some R d c q.1 q.2.dropLast
    obtain ⟨p, h1, h2⟩ := fromFunctionDef_written (hp d (by simp)).1 (hp d (by simp)).2 (hm d (by simp))
      (hdec d (by simp)) hmod hrole (hne d (by simp) role hrole)
    obtain ⟨h3, ss, h4, h5⟩ := givenBy_written hmod (fun d h => hp d (.tail _ h)) (fun d h => hm d (.tail _ h))
      (fun d h => hdec d (.tail _ h)) (fun d h => hne d (.tail _ h))
    refine ⟨fun d' hd' => ?_, p :: ss, ⟨h1, h4⟩, ⟨role, hrole, h2⟩, h5⟩
    rcases List.mem_cons.1 hd' with rfl | h
    · rw [h1]; intro h; cases h
    · exact h3 d' h

/-! ### Binding the first parameter -/

theorem expects_first {first : Param} {ps : List Param} {returns : Obj}
    (hk : first.kind = .positionalOnly) (x : Obj) :
    (PlainSig.mk (first :: ps) returns).expects [x] [] = true := by
  unfold PlainSig.expects byKind
  simp [hk, keys]

theorem bind_first {first : Param} {ps : List Param} {returns : Obj} (hk : first.kind = .positionalOnly)
    (hs : ConstructiblePlain ⟨first :: ps, returns⟩) (x : Obj) :
    (PlainSig.mk (first :: ps) returns).bind [x] [] = .ok ⟨ps, returns⟩ := by
  have hp : isPositionable first = true := by simp [isPositionable, hk]
  have h1 : ∀ v, bindPositionals (first :: ps) [x] [] v = .ok ps := by
    intro v
    have hd : ∀ l : List Param, l.drop (l.takeWhile isPositionable).length = l.dropWhile isPositionable := by
      intro l
      induction l with
      | nil => rfl
      | cons y l ih =>
        cases hy : isPositionable y with
        | true => simpa [List.takeWhile_cons, List.dropWhile_cons, hy] using ih
        | false => simp [List.takeWhile_cons, List.dropWhile_cons, hy]
    simp [bindPositionals, List.takeWhile_cons, hp, checkPositionals, keys, hd]
  have h2 : ∀ v, bindKeywords ps [] v = .ok ps := by
    intro v
    simp [bindKeywords, keys]
  have h3 : (PlainSig.mk (first :: ps) returns).bind [x] [] = PlainSig.new ps returns := by
    unfold PlainSig.bind
    rw [h1]
    dsimp only
    rw [h2]
  rcases Props.C03_bind_legal _ hs [x] [] with ⟨t, ht, -⟩ | ⟨tag, ht⟩
  · rw [h3] at ht ⊢
    rw [ht, (new_ok_iff.1 ht).2]
  · rw [h3] at ht
    obtain ⟨_, h⟩ := plainNew_error ht
    cases h

theorem Spec.Pointwise.of_right {α β : Type} {r : α → β → Prop} : ∀ {as : List α} {bs : List β},
    Pointwise r as bs → ∀ b ∈ bs, ∃ a ∈ as, r a b
  | [], [], _, _, h => (by cases h)
  | a :: as, b :: bs, h, c, hc => by
    rcases List.mem_cons.1 hc with rfl | hc
    · exact ⟨a, .head _, h.1⟩
    · obtain ⟨x, hx, hr⟩ := Spec.Pointwise.of_right h.2 c hc
      exact ⟨x, .tail _ hx, hr⟩

theorem Spec.Pointwise.and {α β : Type} {r t : α → β → Prop} : ∀ {as : List α} {bs : List β},
    Pointwise r as bs → Pointwise t as bs → Pointwise (fun a b => r a b ∧ t a b) as bs
  | [], [], _, _ => trivial
  | _ :: _, _ :: _, h, h' => ⟨⟨h.1, h'.1⟩, Spec.Pointwise.and h.2 h'.2⟩

/-- Signatures whose first parameters are positional only are bound by leaving these out. -/
theorem bind_firsts {ds : List FunctionDef} {P : FunctionDef → PlainSig → Prop} {ss : List PlainSig} {s : Sig}
    (hP : ∀ d p, P d p → ConstructiblePlain p ∧
      ∃ first rest, p.parameters = first :: rest ∧ first.kind = .positionalOnly)
    (h : Pointwise P ds ss) (hm : MadeOf ss s) (x : Obj) :
    ∃ ss' s', Pointwise (fun d p' => ∃ first, P d ⟨first :: p'.parameters, p'.returns⟩) ds ss' ∧
      MadeOf ss' s' ∧ s.bind [x] [] = .ok s' := by
  let tail := fun p : PlainSig => (⟨p.parameters.tail, p.returns⟩ : PlainSig)
  have one : ∀ d p, P d p → p.expects [x] [] = true ∧ p.bind [x] [] = .ok (tail p) ∧
      ∃ first, P d ⟨first :: (tail p).parameters, (tail p).returns⟩ := by
    intro d p hp
    obtain ⟨hc, first, rest, h1, h2⟩ := hP d p hp
    obtain ⟨ps, returns⟩ := p
    cases h1
    exact ⟨expects_first h2 x, bind_first h2 hc x, first, hp⟩
  have all : ∀ p ∈ ss, p.expects [x] [] = true ∧ p.bind [x] [] = .ok (tail p) := by
    intro p hp
    obtain ⟨d, -, hd⟩ := h.of_right p hp
    exact ⟨(one d p hd).1, (one d p hd).2.1⟩
  have hpt : Pointwise (fun d p' => ∃ first, P d ⟨first :: p'.parameters, p'.returns⟩) ds (ss.map tail) := by
    clear all hm
    induction ds generalizing ss with
    | nil => cases ss with
      | nil => trivial
      | cons p ss => cases h
    | cons d ds ih => cases ss with
      | nil => cases h
      | cons p ss => exact ⟨(one d p h.1).2.2, ih h.2⟩
  obtain ⟨s', hs'⟩ := madeOf_some (ss := ss.map tail) (by simpa using hm.1)
  refine ⟨ss.map tail, s', hpt, hs', ?_⟩
  by_cases hl : 2 ≤ ss.length
  · rw [hm.2.2 hl, Sig.bind, List.filter_eq_self.2 fun p hp => (all p hp).1,
      mapExcept_ok _ tail ss fun p hp => (all p hp).2]
    dsimp only
    rw [if_neg (by simp [List.isEmpty_iff]; exact hm.1)]
    exact fromSignatures_madeOf.2 hs'
  · match ss, hm, hl, hs', all with
    | [p], hm, _, hs', all =>
      rw [hm.2.1 p rfl, Sig.bind, (all p (by simp)).2, hs'.2.1 _ rfl]
    | [], hm, _, _, _ => exact absurd rfl hm.1
    | _ :: _ :: _, _, hl, _, _ => simp at hl

end Paradigm
