import Verif.Spec.Foreign
import Verif.Lemmas.Catalog
import Verif.Props.AsRead
import Verif.Props.Exact
import Verif.Props.SessionAnswers

/-!
# C111: callables of modules without stubs
-/

namespace Paradigm.Props

open Spec PyCall

theorem paramFromRaw_default {raw : RawParam} {p : Param} (h : paramFromRaw raw = .ok p)
    (hv : Variadic raw.kind → raw.default = none) : KeepsDefault raw p := by
  obtain ⟨q, hq, _, _, _, hdef⟩ := paramFromRaw_eq raw hv
  rw [h] at hq
  cases hq
  refine ⟨fun hm => ?_, hdef⟩
  unfold paramFromRaw at h
  rw [hm] at h
  have hnv : ¬ Variadic raw.kind := fun hk => by rw [hv hk] at hm; cases hm
  simp only [] at h
  rw [optional_new_default _ _ _ _ hnv] at h
  cases h
  rfl

theorem describes_same {raws : List RawParam} {qs ps : List Param} (h : Pointwise Describes raws qs)
    (h' : Pointwise Describes raws ps) :
    Pointwise (fun p q : Param => p.name = q.name ∧ p.kind = q.kind ∧ p.isRequired = q.isRequired) qs ps := by
  refine (h.flip.comp h').imp fun p _ q _ h => ?_
  obtain ⟨r, h, h'⟩ := h
  refine ⟨h.name.trans h'.name.symm, h.kind.trans h'.kind.symm, ?_⟩
  rw [isRequired_eq, isRequired_eq]
  congr 1
  rw [Bool.eq_iff_iff, h.optional, h'.optional]

theorem kwCollides_same {qs ps : List Param} (h : Pointwise (fun p q : Param => p.name = q.name ∧
    p.kind = q.kind ∧ p.isRequired = q.isRequired) qs ps) {n : Nat} {names : List String}
    (hc : KwCollides qs n names) : KwCollides ps n names := by
  obtain ⟨⟨v, hv, hvk⟩, p, hp, hk, hn⟩ := hc
  refine ⟨?_, ?_⟩
  · obtain ⟨w, hw, _, h2, _⟩ := h.exists_right hv
    exact ⟨w, hw, h2 ▸ hvk⟩
  · have hf : Pointwise (fun p q : Param => p.name = q.name ∧ p.kind = q.kind ∧
        p.isRequired = q.isRequired) (filledBy qs n) (filledBy ps n) :=
      (h.filter fun a b h => by unfold isPositional; rw [h.2.1]).take n
    obtain ⟨q, hq, h1, h2, _⟩ := hf.exists_right hp
    refine ⟨q, hq, ?_, h1 ▸ hn⟩
    unfold acceptsKeyword at hk ⊢
    rw [← h2]
    exact hk

theorem collides_same {qs ps : List Param} (h : Pointwise (fun p q : Param => p.name = q.name ∧
    p.kind = q.kind ∧ p.isRequired = q.isRequired) qs ps) {n : Nat} {names : List String}
    (hc : Collides qs n names) : Collides ps n names := by
  obtain ⟨⟨v, hv, hvk⟩, p, hp, hn⟩ := hc
  obtain ⟨w, hw, _, h2, _⟩ := h.exists_right hv
  have hf : Pointwise (fun p q : Param => p.name = q.name ∧ p.kind = q.kind ∧
      p.isRequired = q.isRequired) (filledBy qs n) (filledBy ps n) :=
    (h.filter fun a b h => by unfold isPositional; rw [h.2.1]).take n
  obtain ⟨q, hq, h1, _⟩ := hf.exists_right hp
  exact ⟨⟨w, hw, h2 ▸ hvk⟩, q, hq, h1 ▸ hn⟩

theorem collides_of_kwCollides {ps : List Param} {n : Nat} {names : List String} :
    KwCollides ps n names → Collides ps n names :=
  fun ⟨h, p, hp, _, hn⟩ => ⟨h, p, hp, hn⟩

/-- **C24**, exactly: the conversion of a valid `inspect` signature succeeds exactly if there are not several
`*args` or `**kwargs`; it preserves names, kinds, annotations, the defaults other than the marker and the
result; and Python accepts exactly the calls for which `all_set` holds and no keyword repeats the name of a
parameter filled positionally. -/
theorem C24_exact (raw : RawSig) (hv : InspectValid raw) :
    ((∃ s, fromRawSignature raw = .ok s) ↔ OneOfEach raw) ∧
    ∀ s, fromRawSignature raw = .ok s → ∃ p : PlainSig, s = .plain p ∧ ConstructiblePlain p ∧
      Pointwise (fun r q => Describes r q ∧ q.annotation = r.annotation.getD (.form anyForm) ∧
        KeepsDefault r q) raw.parameters p.parameters ∧
      p.returns = raw.returns.getD (.form anyForm) ∧
      ∀ ps, Pointwise Describes raw.parameters ps → ∀ args kwargs, (keys kwargs).Nodup →
        (Accepts ps args kwargs ↔
          p.allSet args kwargs = true ∧ ¬ KwCollides ps args.length (keys kwargs)) := by
  have htot : ∀ p ∈ raw.parameters, ∃ q, paramFromRaw p = .ok q := fun p hp => by
    obtain ⟨q, hq, _⟩ := paramFromRaw_eq p (hv.variadicNoDefault p hp)
    exact ⟨q, hq⟩
  obtain ⟨qs, hqs⟩ := mapExcept_total htot
  have hpt := mapExcept_pointwise.1 hqs
  have hall : Pointwise (fun r q => (Describes r q ∧ q.annotation = r.annotation.getD (.form anyForm) ∧
      KeepsDefault r q) ∧ ValidParam q) raw.parameters qs :=
    hpt.imp fun r hr p _ h => by
      have hk := paramFromRaw_default h (hv.variadicNoDefault r hr)
      obtain ⟨q, hq, hd, ha, hval, _⟩ := paramFromRaw_eq r (hv.variadicNoDefault r hr)
      rw [h] at hq; cases hq
      exact ⟨⟨hd, ha, hk⟩, hval⟩
  have hdesc : Pointwise Describes raw.parameters qs := hall.imp fun _ _ _ _ h => h.1.1
  have hfrom : fromRawSignature raw =
      (PlainSig.new qs (raw.returns.getD anyObj) >>= fun p => pure (.plain p)) := by
    simp only [fromRawSignature, hqs, bind, Except.bind]
  have hwf : WellFormed qs ↔ OneOfEach raw := by
    constructor
    · intro hw
      have h1 := hw.oneVarPositional
      have h2 := hw.oneVarKeyword
      rw [← hdesc.countP (f := fun p : RawParam => p.kind == .variadicPositional)
        fun _ _ h => by rw [h.kind]] at h1
      rw [← hdesc.countP (f := fun p : RawParam => p.kind == .variadicKeyword)
        fun _ _ h => by rw [h.kind]] at h2
      exact ⟨h1, h2⟩
    · rintro ⟨h1, h2⟩
      exact describes_wellFormed hv h1 h2 hdesc
  have hiff : ∀ s, fromRawSignature raw = .ok s ↔
      WellFormed qs ∧ s = .plain ⟨qs, raw.returns.getD anyObj⟩ := by
    intro s
    rw [hfrom, except_bind_ok]
    constructor
    · rintro ⟨p, hp, h⟩
      obtain ⟨h1, rfl⟩ := new_ok_iff.1 hp
      cases h
      exact ⟨(validate_ok_iff qs).1 h1, rfl⟩
    · rintro ⟨h1, rfl⟩
      exact ⟨_, new_ok_iff.2 ⟨(validate_ok_iff qs).2 h1, rfl⟩, rfl⟩
  refine ⟨⟨fun ⟨s, hs⟩ => hwf.1 ((hiff s).1 hs).1, fun h => ⟨_, (hiff _).2 ⟨hwf.2 h, rfl⟩⟩⟩, fun s hs => ?_⟩
  obtain ⟨hw, rfl⟩ := (hiff s).1 hs
  have hcon : ConstructiblePlain ⟨qs, raw.returns.getD anyObj⟩ := by
    refine (constructiblePlain_iff _).2 ⟨fun p hp => ?_, hw⟩
    obtain ⟨r, _, hr⟩ := hall.exists_left hp
    exact hr.2
  refine ⟨_, rfl, hcon, hall.imp fun _ _ _ _ h => h.1, rfl, fun ps hps args kwargs hnd => ?_⟩
  obtain ⟨h1, h2⟩ := hwf.1 hw
  have hwp := describes_wellFormed hv h1 h2 hps
  have hsame := describes_same hdesc hps
  constructor
  · intro ha
    exact ⟨C06_accepts_implies_allSet ⟨qs, _⟩ hcon args kwargs hnd ((accepts_congr hw hwp hsame hnd).2 ha),
      accepts_not_collides hwp hnd ha⟩
  · rintro ⟨ha, hc⟩
    exact allSet_narrower hw hwp (hsame.imp fun _ _ _ _ h => ⟨h.1, .inl h.2.1, by simp [h.2.2]⟩) hnd hc ha

theorem foreign_no_paths {R : Runtime} {f : Fn} (hd : R.depth ≠ 0) (h : Foreign R f) :
    resolveQualifiedPaths R f = .ok [] := by
  have key : ∀ m qualname, qualifiedPathFrom f.named = .ok (pathFromString m, pathFromString qualname) →
      R.index.lookup (pathFromString m) = none → R.stubs.definitions.lookup (pathFromString m) = none →
      resolveQualifiedPaths R f = .ok [] := by
    intro m qualname hq hi hs
    refine resolveQualifiedPaths_none (paths := [(pathFromString m, pathFromString qualname)]) ?_ ?_
    · unfold candidatePaths
      rw [hq]
      have h1 := pathFromString_ne_nil m
      have h2 := pathFromString_ne_nil qualname
      simp [bind, Except.bind, hi, h1, h2]
    · intro q hq
      cases List.mem_singleton.1 hq
      obtain ⟨n, hn⟩ := Nat.exists_eq_succ_of_ne_zero hd
      unfold Runtime.resolve
      rw [hn, resolve, show R.stubs.toTables.definitions.lookup _ = none from hs]
  have key0 : ∀ object, qualifiedPathFrom f.named = .ok ([], object) → R.index.lookup [] = none →
      resolveQualifiedPaths R f = .ok [] := by
    intro object hq hi
    refine resolveQualifiedPaths_none (paths := []) ?_ (by simp)
    unfold candidatePaths
    rw [hq]
    simp [bind, Except.bind, hi]
  rcases h with ⟨m, hm, hi, hs⟩ | ⟨hm, hi⟩
  · generalize hn : f.named = x at hm
    cases hm <;> exact key _ _ (by rw [hn]; rfl) hi hs
  · generalize hn : f.named = x at hm
    cases hm <;> exact key0 _ (by rw [hn]; rfl) hi

section

variable (R : Runtime) (E : Evaluator) (cs : List Callable) (s : EvalState Obj) (i : Nat)

theorem foreign_session {c : Callable} {f : Fn} {report : Except PyErr RawSig} {returns : Option Obj}
    (hd : R.depth ≠ 0) (hr : ReportedAs c f report returns) (hf : Foreign R f) (t : EvalState Obj) :
    fromCallableS R E c t = (report >>= fun raw =>
      fromRawSignature { raw with returns := returns.or raw.returns }, t) := by
  have hp := foreign_no_paths hd hf
  have hfn : fromFnS R E f t = (.error .signatureNotFound, t) := by
    unfold fromFnS toQualifiedPaths
    rw [hp]; rfl
  have hin : ∀ self, fromInstanceS R E self (.ok f) t = (.error .signatureNotFound, t) := by
    intro self
    have : fromInstanceS R E self (.ok f) =
      (fromFnS R E f >>= fun signature => Ev.lift (signature.bind [self] [])) := rfl
    rw [this, Ev.bind_error hfn]
  cases hr with
  | alone _ _ _ h =>
    have he : fromCallableS R E c = catchNotFound (fromFnS R E f) (Ev.lift (fromInspect report)) := by
      cases h <;> rfl
    rw [he, catchNotFound, hfn]
    rfl
  | cls l =>
    have hc : fromClassS R E (.ofClass l) t = (.error .signatureNotFound, t) := by
      unfold fromClassS
      rw [hp]; rfl
    rw [fromCallableS, catchNotFound, hc]
    rfl
  | method obj self =>
    rw [fromCallableS, catchNotFound, hin]
    rfl
  | builtin qualname obj self =>
    rw [fromCallableS, catchNotFound, hin]
    rfl
  | methodWrapper self =>
    rw [fromCallableS, catchNotFound, hin]
    rfl

variable (c : Callable) (f : Fn) (returns : Option Obj)

/-- **C111**, errors: what `inspect` raises is raised. -/
theorem C111_error (e : PyErr) (hd : R.depth ≠ 0) (hc : cs[i]? = some c)
    (hr : ReportedAs c f (.error e) returns) (hf : Foreign R f) :
    (session R E cs s)[i]? = some (.error e) := by
  obtain ⟨t, ht⟩ := session_at s hc
  rw [ht, foreign_session R E hd hr hf t]
  rfl

/-- **C111**, exactly which callables of modules without stubs get a signature, and exactly which calls
Python accepts of them, whatever was asked before. -/
theorem C111_exact (raw : RawSig) (hd : R.depth ≠ 0) (hc : cs[i]? = some c)
    (hr : ReportedAs c f (.ok raw) returns) (hf : Foreign R f) (hv : InspectValid raw) :
    ((∃ sig, (session R E cs s)[i]? = some (.ok sig)) ↔ OneOfEach raw) ∧
    ∀ sig, (session R E cs s)[i]? = some (.ok sig) → ∃ p : PlainSig, sig = .plain p ∧ ConstructiblePlain p ∧
      Pointwise (fun r q => Describes r q ∧ q.annotation = r.annotation.getD (.form anyForm) ∧
        KeepsDefault r q) raw.parameters p.parameters ∧
      p.returns = (returns.or raw.returns).getD (.form anyForm) ∧
      ∀ ps, Pointwise Describes raw.parameters ps → ∀ args kwargs, (keys kwargs).Nodup →
        (Accepts ps args kwargs ↔
          p.allSet args kwargs = true ∧ ¬ KwCollides ps args.length (keys kwargs)) := by
  obtain ⟨t, ht⟩ := session_at s hc
  rw [ht, foreign_session R E hd hr hf t]
  obtain ⟨h1, h2⟩ := C24_exact { raw with returns := returns.or raw.returns }
    ⟨hv.distinct, hv.ordered, hv.optionalsLast, hv.variadicNoDefault⟩
  refine ⟨Iff.trans (exists_congr fun sig => ?_) h1, fun sig h => h2 sig (Option.some.inj h)⟩
  exact ⟨fun h => Option.some.inj h, fun h => congrArg some h⟩

/-- **C111**, partials of them: `functools.partial(c, *a, **k)` gets a signature exactly if `c` does, `*a, **k`
can be completed to a call that Python accepts and, in the presence of `**kwargs`, no keyword repeats the name
of a parameter filled positionally; and Python accepts exactly the calls for which `all_set` of it holds and no
keyword repeats the name of a parameter filled positionally, now or before. -/
theorem C111_partials (raw : RawSig) (hd : R.depth ≠ 0) (hr : ReportedAs c f (.ok raw) returns)
    (hf : Foreign R f) (hv : InspectValid raw) (a : List Obj) (k : Kwargs) (hk : (keys k).Nodup)
    (hc : cs[i]? = some (.partial_ c a k)) :
    (∀ ps, Pointwise Describes raw.parameters ps → ((∃ sig, (session R E cs s)[i]? = some (.ok sig)) ↔
      OneOfEach raw ∧ (∃ (more : List Obj) (moreKw : Kwargs), (keys (k ++ moreKw)).Nodup ∧
        Accepts ps (a ++ more) (k ++ moreKw)) ∧ ¬ Collides ps a.length (keys k))) ∧
    ∀ sig, (session R E cs s)[i]? = some (.ok sig) → ∃ p : PlainSig, sig = .plain p ∧ ConstructiblePlain p ∧
      ∀ ps, Pointwise Describes raw.parameters ps → ∀ args kwargs, (keys kwargs).Nodup →
        (Accepts ps (a ++ args) (merge k kwargs) ↔
          p.allSet args kwargs = true ∧ ¬ KwCollides p.parameters args.length (keys kwargs) ∧
          ¬ KwCollides ps a.length (keys kwargs)) := by
  obtain ⟨t, ht⟩ := session_at s hc
  obtain ⟨h1, h2⟩ := C24_exact { raw with returns := returns.or raw.returns }
    ⟨hv.distinct, hv.ordered, hv.optionalsLast, hv.variadicNoDefault⟩
  have hs := foreign_session R E hd hr hf t
  have hres : (fromCallableS R E (.partial_ c a k) t).1 =
      (fromRawSignature { raw with returns := returns.or raw.returns } >>= fun u => u.bind a k) := by
    have hdef : fromCallableS R E (.partial_ c a k) =
      (fromCallableS R E c >>= fun u => Ev.lift (u.bind a k)) := rfl
    rw [hdef]
    cases hu : fromRawSignature { raw with returns := returns.or raw.returns } with
    | error e => rw [Ev.bind_error (hs.trans (by rw [← hu]; rfl))]; rfl
    | ok u => rw [Ev.bind_ok (hs.trans (by rw [← hu]; rfl))]; rfl
  rw [ht, hres]
  have key : ∀ sig, (some (fromRawSignature { raw with returns := returns.or raw.returns } >>=
      fun u => u.bind a k) = some (.ok sig)) ↔ ∃ u p : PlainSig,
      fromRawSignature { raw with returns := returns.or raw.returns } = .ok (.plain u) ∧
      u.bind a k = .ok p ∧ sig = .plain p := by
    intro sig
    rw [Option.some.injEq, except_bind_ok]
    constructor
    · rintro ⟨u, hu, hb⟩
      obtain ⟨u, rfl, _⟩ := h2 u hu
      cases hp : u.bind a k with
      | error e => simp [Sig.bind, hp, bind, Except.bind] at hb
      | ok p =>
        refine ⟨u, p, hu, hp, ?_⟩
        simp [Sig.bind, hp, bind, Except.bind, pure, Except.pure] at hb
        exact hb.symm
    · rintro ⟨u, p, hu, hp, rfl⟩
      refine ⟨_, hu, ?_⟩
      simp [Sig.bind, hp, bind, Except.bind, pure, Except.pure]
  constructor
  · intro ps hps
    have hexp : ∀ u : PlainSig, fromRawSignature { raw with returns := returns.or raw.returns } = .ok (.plain u) →
        (ConstructiblePlain u ∧ ((∃ (more : List Obj) (moreKw : Kwargs), (keys (k ++ moreKw)).Nodup ∧
          Accepts ps (a ++ more) (k ++ moreKw)) ↔ u.expects a k = true ∧
            ¬ KwCollides u.parameters a.length (keys k)) ∧
          (Collides ps a.length (keys k) ↔ Collides u.parameters a.length (keys k))) := by
      intro u hu
      obtain ⟨_, he, hcon, hsame, _⟩ := h2 _ hu
      cases he
      have hd : Pointwise Describes raw.parameters u.parameters := hsame.imp fun _ _ _ _ h => h.1
      obtain ⟨ho1, ho2⟩ := h1.1 ⟨_, hu⟩
      have hpsame := describes_same hps hd
      refine ⟨hcon, ?_, collides_same hpsame, collides_same (describes_same hd hps)⟩
      rw [← C08_completable_iff u hcon a k hk]
      refine exists_congr fun more => exists_congr fun moreKw => and_congr_right fun hn => ?_
      exact accepts_congr (describes_wellFormed hv ho1 ho2 hps) (describes_wellFormed hv ho1 ho2 hd) hpsame hn
    constructor
    · rintro ⟨sig, hsig⟩
      obtain ⟨u, p, hu, hp, rfl⟩ := (key sig).1 hsig
      obtain ⟨hcon, hx, hcol⟩ := hexp u hu
      obtain ⟨h3, h4⟩ := (C05_bind_iff u hcon a k).1 ⟨p, hp⟩
      exact ⟨h1.1 ⟨_, hu⟩, hx.2 ⟨h3, fun h => h4 (collides_of_kwCollides h)⟩, fun h => h4 (hcol.1 h)⟩
    · rintro ⟨ho, hx, h4⟩
      obtain ⟨u, hu⟩ := h1.2 ho
      obtain ⟨u, rfl, _⟩ := h2 u hu
      obtain ⟨hcon, hx', hcol⟩ := hexp u hu
      obtain ⟨p, hp⟩ := (C05_bind_iff u hcon a k).2 ⟨(hx'.1 hx).1, fun h => h4 (hcol.2 h)⟩
      exact ⟨_, (key _).2 ⟨u, p, hu, hp, rfl⟩⟩
  · intro sig hsig
    obtain ⟨u, p, hu, hp, rfl⟩ := (key sig).1 hsig
    obtain ⟨_, he, hcon, hsame, _, hacc⟩ := h2 _ hu
    cases he
    have hpc : ConstructiblePlain p := by
      rcases C03_bind_legal u hcon a k with ⟨_, h3, h4, _⟩ | ⟨_, h3⟩ <;> rw [hp] at h3 <;> cases h3
      exact h4
    refine ⟨p, rfl, hpc, fun ps hps args kwargs hnd => ?_⟩
    have hm := keys_merge_nodup k kwargs hk hnd
    have hd : Pointwise Describes raw.parameters u.parameters := hsame.imp fun _ _ _ _ h => h.1
    obtain ⟨ho1, ho2⟩ := h1.1 ⟨_, hu⟩
    have hpsame := describes_same hps hd
    rw [accepts_congr (describes_wellFormed hv ho1 ho2 hps) (describes_wellFormed hv ho1 ho2 hd) hpsame hm,
      C09_combined_iff u p hcon a k hk hp args kwargs hnd, C06_accepts_iff p hpc args kwargs hnd, and_assoc]
    refine and_congr_right fun _ => and_congr_right fun _ => not_congr ?_
    exact ⟨kwCollides_same (describes_same hd hps), kwCollides_same hpsame⟩

end

/-! ### Samples -/

/-- `def f(a, b=1, *args, c, **kw)` of the module `mine`. -/
def mineF : Callable := .function ⟨.text "mine", "f", .atom .none⟩ (.ok rawF)

/-- The class `mine.C` with the same parameters. -/
def mineC : Callable := .cls ⟨.text "mine", "C", .atom .none⟩ (.ok rawF)

theorem rawF_valid : InspectValid rawF := by
  refine ⟨by decide, by simp [rawF, rank], by simp [rawF], ?_⟩
  intro p hp h
  simp only [rawF, List.mem_cons, List.not_mem_nil, or_false] at hp
  rcases hp with rfl | rfl | rfl | rfl | rfl <;> simp_all [Variadic]

theorem mine_foreign (qualname : String) (obj : Obj) :
    Foreign readRuntime { named := .function (.text "mine") qualname, obj } ∧
    Foreign readRuntime { named := .cls (.text "mine") qualname, obj } :=
  ⟨.inl ⟨"mine", .function _ _, rfl, rfl⟩, .inl ⟨"mine", .cls _ _, rfl, rfl⟩⟩

/-- The hypotheses hold for `mine.f` and `mine.C`: both get a signature, and `f(1, c=2)` and `f(1, c=2, a=3)`
are told apart from what Python accepts exactly as said. -/
example : (∃ sig, (session readRuntime (readRuntime.evaluator sessionPython (fun _ => "") 9)
      [.other, mineF, mineC] (initialEval (.form 99)))[1]? = some (.ok sig)) ∧
    (∃ sig, (session readRuntime (readRuntime.evaluator sessionPython (fun _ => "") 9)
      [.other, mineF, mineC] (initialEval (.form 99)))[2]? = some (.ok sig)) ∧
    sigF.allSet [one] [("c", two)] = true ∧
    sigF.allSet [one] [("c", two), ("a", two)] = true ∧
    ¬ KwCollides sigF.parameters 1 ["c"] ∧ KwCollides sigF.parameters 1 ["c", "a"] := by
  refine ⟨?_, ?_, by decide, by decide, ?_, ?_⟩
  · exact (C111_exact readRuntime _ [.other, mineF, mineC] _ 1 mineF _ none rawF (by decide) rfl
      (.alone _ _ _ (.function _ _)) (mine_foreign _ _).1 rawF_valid).1.2 ⟨by decide, by decide⟩
  · exact (C111_exact readRuntime _ [.other, mineF, mineC] _ 2 mineC _ _ rawF (by decide) rfl
      (.cls _ _) (mine_foreign _ _).2 rawF_valid).1.2 ⟨by decide, by decide⟩
  · rintro ⟨_, p, hp, _, hn⟩
    cases List.mem_singleton.1 hp
    simp [pA, Param.name] at hn
  · exact ⟨⟨pKw, by simp [sigF], rfl⟩, pA, List.mem_singleton.2 rfl, rfl, by simp [pA, Param.name]⟩

/-- The hypotheses hold for `functools.partial(mine.f, 1, c=2)`: it gets a signature. -/
example : ∃ sig, (session readRuntime (readRuntime.evaluator sessionPython (fun _ => "") 9)
    [mineF, .partial_ mineF [one] [("c", two)]] (initialEval (.form 99)))[1]? = some (.ok sig) := by
  refine ((C111_partials readRuntime _ [mineF, .partial_ mineF [one] [("c", two)]] _ 1 mineF _ none rawF
    (by decide) (.alone _ _ _ (.function _ _)) (mine_foreign _ _).1 rawF_valid [one] [("c", two)] (by decide)
    rfl).1 sigF.parameters ?_).2 ⟨⟨by decide, by decide⟩, ⟨[], [], by decide, _, rfl⟩, ?_⟩
  · obtain ⟨p, he, _, hd, _⟩ := (C24_exact rawF rawF_valid).2 (.plain sigF) rfl
    cases he
    exact hd.imp fun _ _ _ _ h => h.1
  · rintro ⟨_, p, hp, hn⟩
    cases List.mem_singleton.1 hp
    simp [pA, Param.name, keys] at hn

end Paradigm.Props
