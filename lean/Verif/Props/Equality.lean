import Verif.Lemmas.Hashing
import Verif.Lemmas.Frame
import Verif.Props.Overloads

/-!
# C19–C21: equality, hashing, pickling
-/

namespace Paradigm.Props

open Spec

/-! ### C19 -/

/-- **C19**, full statement (parameters and signatures). -/
def C19_statement : Prop :=
  ((∀ p : Param, p.eq p = true) ∧ (∀ p q : Param, p.eq q = true → q.eq p = true) ∧
    ∀ p q r : Param, p.eq q = true → q.eq r = true → p.eq r = true) ∧
  ((∀ s : Sig, s.eq s = true) ∧ (∀ s t : Sig, s.eq t = true → t.eq s = true) ∧
    ∀ s t u : Sig, s.eq t = true → t.eq u = true → s.eq u = true)

/-- `list`, `typing.List` (whose origin is `list`), `typing.List[int]` and `list[int]`. -/
def listCls : Obj := .cls 11
def typingList : Obj := .special 1 11
def listOfInt : Obj := .alias (some "List") (.cls 11) [int_]
def pepListOfInt : Obj := .pep585 11 [int_]
def intOrStr : Obj := .alias none (.form unionForm) [int_, .cls 12]
def strOrInt : Obj := .alias none (.form unionForm) [.cls 12, int_]

/-- A required parameter `a` with the given annotation. -/
def withAnn (a : Obj) : Param := .required a .positionalOnly "a"

/-- **C19** reflexivity is violated: a parameter whose default is `nan` differs from itself. -/
theorem C19_refl_refuted :
    ¬ ∀ p : Param, p.eq p = true := fun h => by
  have := h (.optional int_ (some (.atom (.nan 0))) .positionalOnly "a")
  simp [Param.eq, Obj.areEqual, Obj.pyEq, Atom.eq] at this

/-- **C19** symmetry is violated: annotation `list` equals `typing.List`, not conversely. -/
theorem C19_symm_refuted :
    (withAnn listCls).eq (withAnn typingList) = true ∧
    (withAnn typingList).eq (withAnn listCls) = false := by
  simp [withAnn, listCls, typingList, Param.eq, Obj.areEqual, Obj.originOrSelf, Obj.getArgs,
    Obj.pyEq]

/-- **C19** symmetry is also violated by subscripted aliases: `typing.List[int]` equals the builtin
generic alias `list[int]` (same origin, equal arguments), not conversely. -/
theorem C19_symm_refuted_nested :
    (withAnn listOfInt).eq (withAnn pepListOfInt) = true ∧
    (withAnn pepListOfInt).eq (withAnn listOfInt) = false := by
  simp [withAnn, listOfInt, pepListOfInt, Param.eq, Obj.areEqual, Obj.originOrSelf, Obj.getArgs,
    Obj.pyEq, Obj.areEquals, int_, unionForm, literalForm]

/-- **C19** is violated by the code (reflexivity and symmetry, see above). -/
theorem C19_refuted : ¬ C19_statement := by
  intro h
  have := h.1.2.1 _ _ C19_symm_refuted.1
  rw [C19_symm_refuted.2] at this
  cases this

/-- **C19**, what holds: reflexivity for values without `nan`. -/
theorem C19_refl_partial :
    (∀ p : Param, paramAll noNan p = true → p.eq p = true) ∧
    (∀ s : Sig, sigAll noNan s = true → s.eq s = true) := by
  refine ⟨Param.eq_refl, fun s h => ?_⟩
  cases s with
  | plain s => exact PlainSig.eq_refl s h
  | overloaded ss =>
    rw [Sig.eq, listEq_iff]
    simp only [sigAll, List.all_eq_true] at h
    exact Pairwise2.refl fun s hs => PlainSig.eq_refl s (h s hs)

/-- **C19**, what holds: symmetry and transitivity for regular values (no `nan`, no unsubscripted
`typing` alias, no builtin generic alias, no empty `Literal`). -/
theorem C19_equivalence_partial :
    ((∀ p q : Param, paramAll regular p = true → paramAll regular q = true →
        p.eq q = true → q.eq p = true) ∧
      ∀ p q r : Param, paramAll regular p = true → paramAll regular q = true →
        paramAll regular r = true → p.eq q = true → q.eq r = true → p.eq r = true) ∧
    ((∀ s t : Sig, sigAll regular s = true → sigAll regular t = true →
        s.eq t = true → t.eq s = true) ∧
      ∀ s t u : Sig, sigAll regular s = true → sigAll regular t = true →
        sigAll regular u = true → s.eq t = true → t.eq u = true → s.eq u = true) := by
  refine ⟨⟨Param.eq_symm, Param.eq_trans⟩, fun s t hs ht h => ?_, fun s t u hs ht hu h h' => ?_⟩
  · cases s with
    | plain s => cases t with
      | plain t => exact PlainSig.eq_symm s t hs ht h
      | overloaded ts => simp [Sig.eq] at h
    | overloaded ss => cases t with
      | plain t => simp [Sig.eq] at h
      | overloaded ts =>
        rw [Sig.eq, listEq_iff] at h ⊢
        simp only [sigAll, List.all_eq_true] at hs ht
        exact Pairwise2.symm (fun a ha b hb => PlainSig.eq_symm a b (hs a ha) (ht b hb)) h
  · cases s with
    | plain s => cases t with
      | plain t => cases u with
        | plain u => exact PlainSig.eq_trans s t u hs ht hu h h'
        | overloaded us => simp [Sig.eq] at h'
      | overloaded ts => simp [Sig.eq] at h
    | overloaded ss => cases t with
      | plain t => simp [Sig.eq] at h
      | overloaded ts => cases u with
        | plain u => simp [Sig.eq] at h'
        | overloaded us =>
          rw [Sig.eq, listEq_iff] at h h' ⊢
          simp only [sigAll, List.all_eq_true] at hs ht hu
          exact Pairwise2.trans (fun a ha b hb c hc => PlainSig.eq_trans a b c (hs a ha) (ht b hb)
            (hu c hc)) h h'

example : paramAll regular (withAnn intOrStr) = true ∧
    (withAnn intOrStr).eq (withAnn strOrInt) = true := by
  simp [paramAll, regular, regulars, withAnn, intOrStr, strOrInt, Param.annotation, Param.default?,
    Param.eq, Obj.areEqual, Obj.originOrSelf, Obj.getArgs, Obj.areAllAny, Obj.areAny, int_,
    unionForm]

/-! ### C20 -/

/-- **C20**, full statement. -/
def C20_statement : Prop :=
  ∀ (H : PyHash),
    (∀ p q : Param, p.eq q = true → ∀ u v, H.param p = some u → H.param q = some v → u = v) ∧
    (∀ s t : Sig, s.eq t = true → ∀ u v, H.sig s = some u → H.sig t = some v → u = v)

/-- A runtime hash that hashes type variables by identity, as CPython does. -/
def idHash : PyHash where
  obj a := some (match a with
    | .typeVar i .. => i
    | _ => 0)
  str _ := 0
  kind _ := 0
  tuple l := l.foldl (· + ·) 0
  obj_eq := by
    intro a b x y h hx hy
    cases a <;> cases b <;> simp_all [Obj.pyEq]

/-- **C20** is violated by the code: two distinct type variables `T` make equal parameters with
different hashes. -/
theorem C20_refuted : ¬ C20_statement := by
  intro h
  have := (h idHash).1 (withAnn (.typeVar 1 "T" .none false false []))
    (withAnn (.typeVar 2 "T" .none false false []))
    (by simp [withAnn, Param.eq, Obj.areEqual, Obj.pyEq, Atom.eq, Obj.none, Obj.areEquals]) 1 2
    (by decide) (by decide)
  cases this

/-- **C20**, what holds: for every runtime hash, on values without type variables, parameter
specifications, new types, argument-less class aliases and `bool`s inside `Literal`. -/
theorem C20_equal_hash_partial (H : PyHash) :
    (∀ p q : Param, paramAll hashRegular p = true → paramAll hashRegular q = true →
      p.eq q = true → ∀ u v, H.param p = some u → H.param q = some v → u = v) ∧
    (∀ s t : Sig, sigAll hashRegular s = true → sigAll hashRegular t = true →
      s.eq t = true → ∀ u v, H.sig s = some u → H.sig t = some v → u = v) := by
  refine ⟨fun p q hp hq h => param_hash_eq H hp hq h, fun s t hs ht h u v hu hv => ?_⟩
  cases s with
  | plain s => cases t with
    | plain t => exact plain_hash_eq H hs ht h u v hu hv
    | overloaded ts => simp [Sig.eq] at h
  | overloaded ss => cases t with
    | plain t => simp [Sig.eq] at h
    | overloaded ts =>
      rw [Sig.eq, listEq_iff] at h
      simp only [sigAll, List.all_eq_true] at hs ht
      exact ofTuple_congr H _ _ u v (Pairwise2.map (fun a ha b hb he =>
        plain_hash_eq H (hs a ha) (ht b hb) he) h) hu hv

example : paramAll hashRegular (withAnn intOrStr) = true ∧
    paramAll hashRegular (withAnn strOrInt) = true ∧ withAnn intOrStr ≠ withAnn strOrInt := by
  simp [paramAll, hashRegular, hashRegulars, withAnn, intOrStr, strOrInt, Param.annotation,
    Param.default?, int_, unionForm, literalForm]

/-! ### C21 -/

theorem param_roundTrip (p : Param) (h : ConstructibleParam p) :
    Param.unpickle p.isOptional p.newArgs = .ok p := by
  rw [validParam_iff] at h
  cases p with
  | required a k n =>
    cases k <;> simp [ValidParam] at h <;> rfl
  | optional a d k n =>
    simp only [ValidParam] at h
    cases d with
    | none => cases k <;> rfl
    | some d =>
      have hd := h.2 d rfl
      have hk : k ≠ .variadicPositional ∧ k ≠ .variadicKeyword := by
        constructor <;> (intro hk; have := h.1 (by simp [hk]); simp at this)
      cases k <;> simp at hk <;>
        simp [Param.unpickle, Param.isOptional, Param.newArgs, OptionalParameter.new, validateKind,
          hd]

theorem plain_roundTrip (s : PlainSig) (h : ConstructiblePlain s) : s.roundTrip = .ok s := by
  unfold PlainSig.roundTrip
  have := mapExcept_ok (fun p : Param => Param.unpickle p.isOptional p.newArgs) id s.parameters
    (fun p hp => param_roundTrip p (h.1 p hp))
  rw [this, List.map_id]
  exact h.2

/-- **C21.** -/
theorem C21_pickle_roundtrip :
    (∀ p : Param, ConstructibleParam p → Param.unpickle p.isOptional p.newArgs = .ok p) ∧
    (∀ s : Sig, Constructible s → s.roundTrip = .ok s) := by
  refine ⟨param_roundTrip, fun s h => ?_⟩
  cases s with
  | plain s => simp [Sig.roundTrip, plain_roundTrip s h]
  | overloaded ss =>
    have hm := mapExcept_ok PlainSig.roundTrip id ss (fun s hs => plain_roundTrip s (h.1 s hs))
    rw [List.map_id] at hm
    rw [Sig.roundTrip, hm]
    have h2 := two_le_of_constructible h
    simp only
    rw [overloaded_new_plain, if_neg (by omega)]

example : Constructible ovl ∧ ConstructibleParam pB := ⟨ovl_ok, sigI_ok.1 pB (by simp [sigI])⟩

end Paradigm.Props
