import Verif.Lemmas.Quiet
import Verif.Lemmas.Legal
import Verif.Spec.Shapes

/-!
# Lemmas: signatures that differ in annotations and defaults only
-/

namespace Paradigm

open Spec Props

/-! ### Without annotations and defaults -/

/-- The parameter without its annotation and default. -/
def bareParam : Param → Param
  | .required _ k n => .required anyObj k n
  | .optional _ _ k n => .optional anyObj none k n

@[simp] theorem bareParam_name (p : Param) : (bareParam p).name = p.name := by cases p <;> rfl
@[simp] theorem bareParam_kind (p : Param) : (bareParam p).kind = p.kind := by cases p <;> rfl
@[simp] theorem bareParam_isOptional (p : Param) : (bareParam p).isOptional = p.isOptional := by
  cases p <;> rfl
@[simp] theorem bareParam_isRequired (p : Param) : (bareParam p).isRequired = p.isRequired := by
  cases p <;> rfl

theorem alikeParameter_iff (p q : Param) : AlikeParameter p q ↔ bareParam p = bareParam q := by
  constructor
  · rintro ⟨h1, h2, h3⟩
    cases p <;> cases q <;> simp_all [bareParam, Param.name, Param.kind, Param.isOptional]
  · intro h
    have h1 := congrArg Param.name h
    have h2 := congrArg Param.kind h
    have h3 := congrArg Param.isOptional h
    simp only [bareParam_name, bareParam_kind, bareParam_isOptional] at h1 h2 h3
    exact ⟨h1, h2, h3⟩

theorem pointwise_map_iff {α β : Type} {r : α → α → Prop} {f : α → β} (h : ∀ a b, r a b ↔ f a = f b) :
    ∀ {as bs : List α}, Pointwise r as bs ↔ as.map f = bs.map f
  | [], [] => by simp [Pointwise]
  | [], _ :: _ => by simp [Pointwise]
  | _ :: _, [] => by simp [Pointwise]
  | a :: as, b :: bs => by
    have ih := pointwise_map_iff h (as := as) (bs := bs)
    simp only [Pointwise, h, ih, List.map_cons, List.cons.injEq]

/-- The parameters without their annotations and defaults. -/
def barePlain (s : PlainSig) : List Param := s.parameters.map bareParam

theorem alikePlain_iff (s t : PlainSig) : AlikePlain s t ↔ barePlain s = barePlain t :=
  pointwise_map_iff alikeParameter_iff

/-- The shape of a signature: whether it is plain, and its parameters. -/
def bareSig : Sig → Bool × List (List Param)
  | .plain s => (true, [barePlain s])
  | .overloaded ss => (false, ss.map barePlain)

theorem alike_iff {s t : Sig} : Alike s t ↔ bareSig s = bareSig t := by
  cases s <;> cases t
  · simp [Alike, bareSig, alikePlain_iff]
  · simp [Alike, bareSig]
  · simp [Alike, bareSig]
  · simp only [Alike, bareSig, Prod.mk.injEq, true_and]
    exact pointwise_map_iff alikePlain_iff

theorem _root_.Paradigm.Spec.Alike.rfl (s : Sig) : Alike s s := alike_iff.2 (Eq.refl _)

theorem _root_.Paradigm.Spec.Alike.symm {s t : Sig} (h : Alike s t) : Alike t s := alike_iff.2 (alike_iff.1 h).symm

theorem _root_.Paradigm.Spec.Alike.trans {s t u : Sig} (h : Alike s t) (h' : Alike t u) : Alike s u :=
  alike_iff.2 ((alike_iff.1 h).trans (alike_iff.1 h'))

theorem _root_.Paradigm.Spec.Alike.flatten {s t : Sig} (h : Alike s t) :
    (flattenSignature s).map barePlain = (flattenSignature t).map barePlain := by
  have := alike_iff.1 h
  cases s <;> cases t <;> simp_all [bareSig, flattenSignature]

/-! ### Questions about calls -/

theorem byKind_bare (ps : List Param) (k : Kind) : byKind (ps.map bareParam) k = (byKind ps k).map bareParam := by
  unfold byKind
  rw [List.filter_map]
  congr 1
  exact List.filter_congr fun p _ => by simp

theorem dictSet_map {α β γ : Type} [BEq α] (f : β → γ) (d : List (α × β)) (k : α) (v : β) :
    dictSet (d.map fun x => (x.1, f x.2)) k (f v) = (dictSet d k v).map fun x => (x.1, f x.2) := by
  induction d with
  | nil => rfl
  | cons x d ih =>
    simp only [List.map_cons, dictSet]
    split
    · rfl
    · rw [ih]; rfl

theorem byName_bare (ps : List Param) :
    byName (ps.map bareParam) = (byName ps).map fun x => (x.1, bareParam x.2) := by
  unfold byName
  have : ∀ (d : List (String × Param)), (ps.map bareParam).foldl (fun d p => dictSet d p.name p)
      (d.map fun x => (x.1, bareParam x.2)) =
      (ps.foldl (fun d p => dictSet d p.name p) d).map fun x => (x.1, bareParam x.2) := by
    induction ps with
    | nil => intro d; rfl
    | cons p ps ih =>
      intro d
      simp only [List.map_cons, List.foldl_cons, bareParam_name]
      rw [dictSet_map, ih]
  exact this []

theorem allOptional_bare (ps : List Param) : allOptional (ps.map bareParam) = allOptional ps := by
  unfold allOptional
  rw [List.all_map]
  congr 1
  funext p
  simp

theorem isEmpty_bare (ps : List Param) : (ps.map bareParam).isEmpty = ps.isEmpty := by cases ps <;> rfl

theorem keys_bare (d : List (String × Param)) :
    keys (d.map fun x => (x.1, bareParam x.2)) = keys d := by
  unfold keys
  rw [List.map_map]
  rfl

theorem allSet_bare (s : PlainSig) (a : List Obj) (k : Kwargs) :
    PlainSig.allSet ⟨barePlain s, anyObj⟩ a k = s.allSet a k := by
  simp only [PlainSig.allSet, barePlain, byKind_bare, isEmpty_bare, ← List.map_append, List.length_map,
    ← List.map_drop, byName_bare, keys_bare, allOptional_bare]
  split
  · rfl
  · split
    · rfl
    · congr 1
      unfold allOptional
      rw [List.filter_map, List.map_map, List.all_map, List.all_map]
      congr 1
      funext x
      exact bareParam_isOptional _

theorem expects_bare (s : PlainSig) (a : List Obj) (k : Kwargs) :
    PlainSig.expects ⟨barePlain s, anyObj⟩ a k = s.expects a k := by
  simp only [PlainSig.expects, barePlain, byKind_bare, isEmpty_bare, ← List.map_append, List.length_map,
    ← List.map_drop, byName_bare, keys_bare]

theorem any_bare {f : PlainSig → Bool} {g : List Param → Bool} (hf : ∀ s, f s = g (barePlain s))
    {ss ts : List PlainSig} (h : ss.map barePlain = ts.map barePlain) : ss.any f = ts.any f := by
  have : ∀ l : List PlainSig, l.any f = (l.map barePlain).any g := by
    intro l
    rw [List.any_map]
    congr 1
    funext s
    exact hf s
  rw [this, this, h]

theorem allSet_members (s : Sig) (a : List Obj) (k : Kwargs) :
    s.allSet a k = (flattenSignature s).any fun p => p.allSet a k := by
  cases s <;> simp [Sig.allSet, flattenSignature]

theorem expects_members (s : Sig) (a : List Obj) (k : Kwargs) :
    s.expects a k = (flattenSignature s).any fun p => p.expects a k := by
  cases s <;> simp [Sig.expects, flattenSignature]

theorem _root_.Paradigm.Spec.Alike.allSet {s t : Sig} (h : Alike s t) (a : List Obj) (k : Kwargs) : s.allSet a k = t.allSet a k := by
  rw [allSet_members, allSet_members]
  exact any_bare (g := fun ps => PlainSig.allSet ⟨ps, anyObj⟩ a k) (fun s => (allSet_bare s a k).symm) h.flatten

theorem _root_.Paradigm.Spec.Alike.expects {s t : Sig} (h : Alike s t) (a : List Obj) (k : Kwargs) :
    s.expects a k = t.expects a k := by
  rw [expects_members, expects_members]
  exact any_bare (g := fun ps => PlainSig.expects ⟨ps, anyObj⟩ a k) (fun s => (expects_bare s a k).symm)
    h.flatten

/-! ### Construction -/

theorem validateRest_bare : ∀ (ps : List Param) (prior : Param) (ns : List String) (ks : List Kind),
    PlainSig.validateRest (bareParam prior) ns ks (ps.map bareParam) = PlainSig.validateRest prior ns ks ps
  | [], _, _, _ => rfl
  | p :: ps, prior, ns, ks => by
    simp only [List.map_cons, PlainSig.validateRest, bareParam_name, bareParam_kind, bareParam_isRequired,
      bareParam_isOptional, validateRest_bare ps]

theorem validate_bare (ps : List Param) : PlainSig.validate (ps.map bareParam) = PlainSig.validate ps := by
  cases ps with
  | nil => rfl
  | cons p ps =>
    simp only [List.map_cons, PlainSig.validate, bareParam_name, bareParam_kind, validateRest_bare]

/-- Both raise the same error, or both return, and what they return is related. -/
def Agree {α β : Type} (S : α → β → Prop) : Except PyErr α → Except PyErr β → Prop
  | .ok a, .ok b => S a b
  | .error e, .error e' => e = e'
  | _, _ => False

theorem Agree.bind {α β γ δ : Type} {S : α → β → Prop} {T : γ → δ → Prop} {x : Except PyErr α}
    {y : Except PyErr β} {f : α → Except PyErr γ} {g : β → Except PyErr δ} (h : Agree S x y)
    (hf : ∀ a b, S a b → Agree T (f a) (g b)) : Agree T (x >>= f) (y >>= g) := by
  cases x <;> cases y
  · exact h
  · exact h.elim
  · exact h.elim
  · exact hf _ _ h

theorem Agree.mapExcept {α β γ δ : Type} {S : α → β → Prop} {T : γ → δ → Prop} {f : α → Except PyErr γ}
    {g : β → Except PyErr δ} : ∀ {as : List α} {bs : List β}, Pointwise S as bs →
    (∀ a b, a ∈ as → S a b → Agree T (f a) (g b)) → Agree (Pointwise T) (mapExcept f as) (mapExcept g bs)
  | [], bs, h, _ => by rw [h.nil_left]; exact trivial
  | a :: as, bs, h, hf => by
    obtain ⟨b, bs, rfl, hab, h⟩ := h.cons_left
    have h1 := hf a b (.head _) hab
    have h2 := Agree.mapExcept h fun a b ha => hf a b (.tail _ ha)
    rw [Paradigm.mapExcept, Paradigm.mapExcept]
    cases hx : f a <;> cases hy : g b <;> rw [hx, hy] at h1
    · exact h1
    · exact h1.elim
    · exact h1.elim
    · cases hu : Paradigm.mapExcept f as <;> cases hv : Paradigm.mapExcept g bs <;> rw [hu, hv] at h2
      · exact h2
      · exact h2.elim
      · exact h2.elim
      · exact ⟨h1, h2⟩

theorem new_alike {ps qs : List Param} {r r' : Obj} (h : Pointwise AlikeParameter ps qs) :
    Agree AlikePlain (PlainSig.new ps r) (PlainSig.new qs r') := by
  have h' := (pointwise_map_iff alikeParameter_iff).1 h
  unfold PlainSig.new
  rw [← validate_bare ps, ← validate_bare qs, h']
  cases PlainSig.validate (qs.map bareParam) with
  | error e => exact rfl
  | ok _ => exact h

theorem checkPositionals_bare (k : Kwargs) : ∀ ps : List Param,
    checkPositionals k (ps.map bareParam) = checkPositionals k ps
  | [] => rfl
  | p :: ps => by
    simp only [List.map_cons, checkPositionals, bareParam_name, bareParam_kind, checkPositionals_bare k ps]

theorem isPositionable_bare (p : Param) : isPositionable (bareParam p) = isPositionable p := by
  simp [isPositionable]

theorem isKeywordable_bare (p : Param) : isKeywordable (bareParam p) = isKeywordable p := by
  simp [isKeywordable]

theorem takeWhile_bare (ps : List Param) :
    (ps.map bareParam).takeWhile isPositionable = (ps.takeWhile isPositionable).map bareParam := by
  rw [List.takeWhile_map]
  congr 2
  funext p
  exact isPositionable_bare p

theorem bindPositionals_bare (ps : List Param) (a : List Obj) (k : Kwargs) (v : Bool) :
    bindPositionals (ps.map bareParam) a k v = (bindPositionals ps a k v).map (List.map bareParam) := by
  simp only [bindPositionals, takeWhile_bare, List.length_map, ← List.map_take, ← List.map_drop,
    checkPositionals_bare, ← List.map_append]
  split
  · rfl
  · split <;> rfl

theorem bindPositionals_alike {ps qs : List Param} (h : Pointwise AlikeParameter ps qs) (a : List Obj)
    (k : Kwargs) (v : Bool) :
    Agree (Pointwise AlikeParameter) (bindPositionals ps a k v) (bindPositionals qs a k v) := by
  have h' := (pointwise_map_iff alikeParameter_iff).1 h
  have h1 := bindPositionals_bare ps a k v
  rw [h', bindPositionals_bare] at h1
  cases hx : bindPositionals ps a k v <;> cases hy : bindPositionals qs a k v <;> rw [hx, hy] at h1
  · injection h1 with h1; exact h1.symm
  · cases h1
  · cases h1
  · injection h1 with h1; exact (pointwise_map_iff alikeParameter_iff).2 h1.symm

theorem optionalNew_keyword (a : Obj) (n : String) (d : Obj) :
    ∃ d', OptionalParameter.new a (.kind .keywordOnly) n d = .ok (.optional a d' .keywordOnly n) := by
  simp [OptionalParameter.new, validateKind]

theorem lookup_of_keys {k : Kwargs} {n : String} (h : (keys k).contains n = true) :
    ∃ v, k.lookup n = some v := by
  induction k with
  | nil => simp [keys] at h
  | cons x k ih =>
    obtain ⟨m, v⟩ := x
    rw [List.lookup_cons]
    by_cases hm : n == m
    · exact ⟨v, by rw [hm]⟩
    · have hm : (n == m) = false := by simpa using hm
      rw [hm]
      refine ih ?_
      simp only [keys, List.map_cons, List.contains_cons, hm, Bool.false_or] at h
      exact h

theorem rebindKeyword_shape (k : Kwargs) (ns : List String) (hns : ∀ n, ns.contains n = true → (keys k).contains n = true)
    (p : Param) : ∃ q, rebindKeyword k ns p = .ok q ∧ q.name = p.name ∧
      q.kind = (if isKeywordable p then .keywordOnly else p.kind) ∧
      q.isOptional = (p.isOptional || (isKeywordable p && ns.contains p.name)) := by
  unfold rebindKeyword
  cases hk : isKeywordable p with
  | false => exact ⟨p, by simp, rfl, by simp, by simp⟩
  | true =>
    simp only [if_true, Bool.true_and]
    cases ho : (p.isOptional || ns.contains p.name) with
    | false =>
      simp only [Bool.false_eq_true, if_false]
      exact ⟨_, rfl, rfl, rfl, rfl⟩
    | true =>
      simp only [if_true]
      cases p.default? with
      | some d =>
        obtain ⟨d', hd⟩ := optionalNew_keyword p.annotation p.name d
        exact ⟨_, hd, rfl, rfl, rfl⟩
      | none =>
        simp only
        cases hc : ns.contains p.name with
        | true =>
          obtain ⟨v, hv⟩ := lookup_of_keys (hns _ hc)
          simp only [if_true, hv]
          obtain ⟨d', hd⟩ := optionalNew_keyword p.annotation p.name v
          exact ⟨_, hd, rfl, rfl, rfl⟩
        | false =>
          simp only [Bool.false_eq_true, if_false]
          obtain ⟨d', hd⟩ := optionalNew_keyword p.annotation p.name Obj.noDefault
          exact ⟨_, hd, rfl, rfl, rfl⟩

theorem rebindKeyword_alike {k : Kwargs} {ns : List String}
    (hns : ∀ n, ns.contains n = true → (keys k).contains n = true) {p q : Param} (h : AlikeParameter p q) :
    Agree AlikeParameter (rebindKeyword k ns p) (rebindKeyword k ns q) := by
  obtain ⟨p', hp, h1, h2, h3⟩ := rebindKeyword_shape k ns hns p
  obtain ⟨q', hq, g1, g2, g3⟩ := rebindKeyword_shape k ns hns q
  have hk : isKeywordable p = isKeywordable q := by simp [isKeywordable, h.kind]
  rw [hp, hq]
  exact ⟨by rw [h1, g1, h.name], by rw [h2, g2, hk, h.kind], by rw [h3, g3, hk, h.name, h.optional]⟩

theorem findIdx?_alike {f : Param → Bool} (hf : ∀ p q, AlikeParameter p q → f p = f q) :
    ∀ {ps qs : List Param}, Pointwise AlikeParameter ps qs → ps.findIdx? f = qs.findIdx? f
  | [], qs, h => by rw [h.nil_left]
  | p :: ps, qs, h => by
    obtain ⟨q, qs, rfl, hpq, h⟩ := h.cons_left
    rw [List.findIdx?_cons, List.findIdx?_cons, hf p q hpq, findIdx?_alike hf h]

theorem bindKeywords_alike {ps qs : List Param} (h : Pointwise AlikeParameter ps qs) (k : Kwargs) (v : Bool) :
    Agree (Pointwise AlikeParameter) (bindKeywords ps k v) (bindKeywords qs k v) := by
  have hnames : (ps.filter isKeywordable).map Param.name = (qs.filter isKeywordable).map Param.name :=
    (h.filter fun p q hpq => by simp [isKeywordable, hpq.kind]).map_eq fun p q hpq => hpq.name
  unfold bindKeywords
  rw [hnames]
  dsimp only
  split
  · exact rfl
  · split
    · exact h
    · rw [findIdx?_alike (fun p q hpq => by rw [hpq.name]) h]
      split
      · exact rfl
      · rename_i idx _
        have h1 := Agree.mapExcept (T := AlikeParameter)
          (f := rebindKeyword k ((keys k).filter fun n => !((keys k).filter fun n =>
            !((qs.filter isKeywordable).map Param.name).contains n).contains n))
          (g := rebindKeyword k ((keys k).filter fun n => !((keys k).filter fun n =>
            !((qs.filter isKeywordable).map Param.name).contains n).contains n))
          (Pointwise.filter (f := fun p => !(p.kind == .variadicPositional))
            (g := fun p => !(p.kind == .variadicPositional)) (h.drop idx)
            fun p q hpq => by rw [hpq.kind])
          (fun p q _ hpq => rebindKeyword_alike (fun n hn => by
            rw [List.contains_iff_mem] at hn ⊢
            exact (List.mem_filter.1 hn).1) hpq)
        revert h1
        generalize mapExcept _ ((ps.drop idx).filter _) = x
        generalize mapExcept _ ((qs.drop idx).filter _) = y
        intro h1
        cases x <;> cases y
        · exact h1
        · exact h1.elim
        · exact h1.elim
        · exact (h.take idx).append h1

theorem bind_alikePlain {s t : PlainSig} (h : AlikePlain s t) (a : List Obj) (k : Kwargs) :
    Agree AlikePlain (s.bind a k) (t.bind a k) := by
  have hk : ∀ kind, (byKind s.parameters kind).isEmpty = (byKind t.parameters kind).isEmpty := by
    intro kind
    have h1 := isEmpty_bare (byKind s.parameters kind)
    rw [← byKind_bare, (pointwise_map_iff alikeParameter_iff).1 h, byKind_bare, isEmpty_bare] at h1
    exact h1.symm
  unfold PlainSig.bind
  rw [hk, hk]
  have h1 := bindPositionals_alike h a k (!(byKind t.parameters .variadicPositional).isEmpty)
  revert h1
  generalize bindPositionals s.parameters a k _ = x
  generalize bindPositionals t.parameters a k _ = y
  intro h1
  cases x <;> cases y
  · exact h1
  · exact h1.elim
  · exact h1.elim
  · rename_i ps qs
    have h2 := bindKeywords_alike h1 k (!(byKind t.parameters .variadicKeyword).isEmpty)
    dsimp only
    revert h2
    generalize bindKeywords ps k _ = x
    generalize bindKeywords qs k _ = y
    intro h2
    cases x <;> cases y
    · exact h2
    · exact h2.elim
    · exact h2.elim
    · exact new_alike h2

theorem collapse_alike {ss ts : List PlainSig} (h : Pointwise AlikePlain ss ts) :
    Agree Alike (fromSignatures (ss.map .plain)) (fromSignatures (ts.map .plain)) := by
  rw [fromSignatures_eq, fromSignatures_eq]
  have hm : ∀ l : List PlainSig, members (l.map .plain) = l := by
    intro l
    induction l with
    | nil => rfl
    | cons s l ih => rw [List.map_cons, members, ih]
  rw [hm, hm]
  match ss, ts, h with
  | [], [], _ => exact rfl
  | [s], [t], h => exact h.1
  | s :: s' :: ss, t :: t' :: ts, h => exact h

theorem fromSignatures_flat (l : List Sig) :
    fromSignatures l = fromSignatures (((l.map flattenSignature).flatten).map .plain) := by
  have : (((l.map flattenSignature).flatten).map Sig.plain).map flattenSignature =
      ((l.map flattenSignature).flatten).map fun s => [s] := by
    rw [List.map_map]; rfl
  have hflat : ∀ xs : List PlainSig, (xs.map fun s => [s]).flatten = xs := by
    intro xs
    induction xs with
    | nil => rfl
    | cons x xs ih => simpa using ih
  unfold fromSignatures
  rw [this, hflat]

theorem flatten_alike : ∀ {l l' : List Sig}, Pointwise Alike l l' →
    Pointwise AlikePlain ((l.map flattenSignature).flatten) ((l'.map flattenSignature).flatten)
  | [], l', h => by rw [h.nil_left]; trivial
  | s :: l, l', h => by
    obtain ⟨t, l', rfl, hst, h⟩ := h.cons_left
    rw [List.map_cons, List.map_cons, List.flatten_cons, List.flatten_cons]
    exact ((pointwise_map_iff alikePlain_iff).2 hst.flatten).append (flatten_alike h)

theorem fromSignatures_alike {l l' : List Sig} (h : Pointwise Alike l l') :
    Agree Alike (fromSignatures l) (fromSignatures l') := by
  rw [fromSignatures_flat l, fromSignatures_flat l']
  exact collapse_alike (flatten_alike h)

/-- Binding gives signatures alike, or the same error. -/
theorem _root_.Paradigm.Spec.Alike.bind {s t : Sig} (h : Alike s t) (a : List Obj) (k : Kwargs) :
    Agree Alike (s.bind a k) (t.bind a k) := by
  cases s with
  | plain s =>
    cases t with
    | overloaded ts => exact h.elim
    | plain t =>
      have := bind_alikePlain h a k
      rw [Sig.bind, Sig.bind]
      cases hx : s.bind a k <;> cases hy : t.bind a k <;> rw [hx, hy] at this
      · exact this
      · exact this.elim
      · exact this.elim
      · exact this
  | overloaded ss =>
    cases t with
    | plain t => exact h.elim
    | overloaded ts =>
      have h : Pointwise AlikePlain ss ts := h
      rw [Sig.bind, Sig.bind]
      have h1 := Agree.mapExcept (T := AlikePlain) (f := fun s : PlainSig => s.bind a k)
        (g := fun s : PlainSig => s.bind a k)
        (Pointwise.filter (f := fun s : PlainSig => s.expects a k) (g := fun s : PlainSig => s.expects a k) h
          fun s t hst => by
            rw [← expects_bare s, ← expects_bare t, (alikePlain_iff _ _).1 hst])
        (fun s t _ hst => bind_alikePlain hst a k)
      revert h1
      generalize Paradigm.mapExcept _ (ss.filter _) = x
      generalize Paradigm.mapExcept _ (ts.filter _) = y
      intro h1
      cases x <;> cases y
      · exact h1
      · exact h1.elim
      · exact h1.elim
      · rename_i us vs
        dsimp only
        have hl := Spec.Pointwise.length h1
        have : us.isEmpty = vs.isEmpty := by
          cases us <;> cases vs <;> simp at hl ⊢
        rw [this]
        split
        · exact rfl
        · exact collapse_alike h1

end Paradigm
