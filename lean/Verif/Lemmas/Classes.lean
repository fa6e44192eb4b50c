import Verif.Lemmas.Resolving
import Verif.Spec.Classes

/-!
# Lemmas about the stub parser: bases and type parameters of classes
-/

namespace Paradigm

open Spec

/-! ### Moments -/

/-- No module is forgotten. -/
def Onward (s t : ParseState) : Prop := ∀ x ∈ s.visited, x ∈ t.visited

theorem Onward.refl (s : ParseState) : Onward s s := fun _ h => h

theorem Onward.trans {s t u : ParseState} (h : Onward s t) (h' : Onward t u) : Onward s u :=
  fun x hx => h' x (h x hx)

theorem Spec.Moment.widen {s t s' t' : ParseState} {m : Path} {u : ParseState} (h : Moment s t m u)
    (hs : Onward s' s) (ht : Onward t t') : Moment s' t' m u :=
  ⟨hs.trans h.after, Onward.trans h.before ht, h.read⟩

theorem Spec.FoundBetween.widen {E : StubFiles} {s t s' t' : ParseState} {m parent path : Path}
    {q : QPath} (h : FoundBetween E s t m parent path q) (hs : Onward s' s) (ht : Onward t t') :
    FoundBetween E s' t' m parent path q := by
  obtain ⟨k, u, v, hu, hv, h⟩ := h
  exact ⟨k, u, v, hu.widen hs ht, hv.widen hs ht, h⟩

theorem Spec.TakenFor.widen {E : StubFiles} {s t s' t' : ParseState} {m parent path : Path}
    {q : QPath} (h : TakenFor E s t m parent path q) (hs : Onward s' s) (ht : Onward t t') :
    TakenFor E s' t' m parent path q := by
  rcases h with h | ⟨hq, k, u, v, hu, hv, h⟩
  · exact .inl (h.widen hs ht)
  · exact .inr ⟨hq, k, u, v, hu.widen hs ht, hv.widen hs ht, h⟩

theorem Spec.SeenTypeVariable.widen {E : StubFiles} {s t s' t' : ParseState} {q : QPath}
    (h : SeenTypeVariable E s t q) (hs : Onward s' s) (ht : Onward t t') :
    SeenTypeVariable E s' t' q := by
  obtain ⟨u, node, func, callable, hu, h1, h2, h3, h4⟩ := h
  exact ⟨u, node, func, callable, hu.widen hs ht, h1, h2, h3, h4.widen hs ht⟩

theorem Spec.SeenOther.widen {E : StubFiles} {s t s' t' : ParseState} {q : QPath}
    (h : SeenOther E s t q) (hs : Onward s' s) (ht : Onward t t') : SeenOther E s' t' q := by
  obtain ⟨u, hu, h⟩ := h
  refine ⟨u, hu.widen hs ht, fun node func callable h1 h2 h3 => ?_⟩
  obtain ⟨r, hr, hne⟩ := h node func callable h1 h2 h3
  exact ⟨r, hr.widen hs ht, hne⟩

theorem Spec.RealBases.mono {R R' : Path → QPath → Prop} (hR : ∀ path q, R path q → R' path q)
    {bs rs : List Expr} (h : RealBases R bs rs) : RealBases R' bs rs := by
  induction h with
  | nil => exact .nil
  | kept h _ ih =>
    refine .kept (fun path hp => ?_) ih
    obtain ⟨q, hq, hn⟩ := h path hp
    exact ⟨q, hR _ _ hq, hn⟩
  | dropped h hq hn _ ih => exact .dropped h (hR _ _ hq) hn ih

theorem Spec.Selected.mono {α : Type} {T N T' N' : α → Prop} (hT : ∀ x, T x → T' x)
    (hN : ∀ x, N x → N' x) {xs ys : List α} (h : Selected T N xs ys) : Selected T' N' xs ys := by
  induction h with
  | nil => exact .nil
  | take h _ ih => exact .take (hT _ h) ih
  | skip h _ ih => exact .skip (hN _ h) ih

theorem Spec.Selected.append {α : Type} {T N : α → Prop} {xs ys xs' ys' : List α}
    (h : Selected T N xs ys) (h' : Selected T N xs' ys') : Selected T N (xs ++ xs') (ys ++ ys') := by
  induction h with
  | nil => exact h'
  | take h _ ih => exact .take h ih
  | skip h _ ih => exact .skip h ih

theorem selected_filter {α : Type} {T N : α → Prop} (f : α → Bool) :
    ∀ xs : List α, (∀ x, f x = true → T x) → (∀ x, f x = false → N x) →
      Selected T N xs (xs.filter f)
  | [], _, _ => .nil
  | x :: xs, hT, hN => by
    cases hf : f x with
    | true =>
      rw [List.filter_cons_of_pos hf]
      exact .take (hT x hf) (selected_filter f xs hT hN)
    | false =>
      rw [List.filter_cons_of_neg (by rw [hf]; simp)]
      exact .skip (hN x hf) (selected_filter f xs hT hN)

theorem dedup_firstOccurrences {α : Type} [BEq α] [LawfulBEq α] :
    ∀ xs : List α, FirstOccurrences xs (dedup xs)
  | [] => .nil
  | x :: xs => by
    rw [dedup]
    exact .cons (dedup_firstOccurrences xs) _
      (selected_filter _ _ (fun y h => by simpa using h) (fun y h => by simpa using h))

/-! ### What does not touch the classes of a module -/

/-- The bases and parameters of the classes of a visited module are kept. -/
structure ClassesKept (m : Path) (K : Path → Prop) (s t : ParseState) : Prop where
  onward : Onward s t
  bases : m ∈ s.visited → ∀ p, ¬ K p → t.classesBases.lookup (m, p) = s.classesBases.lookup (m, p)
  generics : m ∈ s.visited → ∀ p, ¬ K p → t.generics.lookup (m, p) = s.generics.lookup (m, p)

theorem classesKept_preorder (m : Path) (K : Path → Prop) : Preorder' (ClassesKept m K) where
  refl s := ⟨Onward.refl s, fun _ _ _ => rfl, fun _ _ _ => rfl⟩
  trans h h' := ⟨h.onward.trans h'.onward,
    fun x p hp => (h'.bases (h.onward _ x) p hp).trans (h.bases x p hp),
    fun x p hp => (h'.generics (h.onward _ x) p hp).trans (h.generics x p hp)⟩

theorem Ext.classesKept {K' : Path → Prop} {s t : ParseState} (h : Ext K' s t) {m : Path}
    (hm : ¬ K' m) (K : Path → Prop) : ClassesKept m K s t :=
  ⟨h.visited, fun hv p _ => (h.same m hv hm).classesBases p,
    fun hv p _ => (h.same m hv hm).generics p⟩

theorem ClassesKept.widen {m : Path} {K K' : Path → Prop} {s t : ParseState}
    (h : ClassesKept m K s t) (hK : ∀ p, K p → K' p) : ClassesKept m K' s t :=
  ⟨h.onward, fun hv p hp => h.bases hv p fun k => hp (hK p k),
    fun hv p hp => h.generics hv p fun k => hp (hK p k)⟩

theorem ext_onward {K : Path → Prop} {α : Type} {x : P α} (h : Pres (Ext K) x) {s t : ParseState}
    {r : Except PyErr α} (e : x s = (r, t)) : Onward s t := (h.of_eq e).visited

/-! ### Names -/

theorem Spec.Moment.first {s t : ParseState} {m : Path} (h : Onward s t) (hm : m ∈ s.visited) :
    Moment s t m s := ⟨Onward.refl s, h, hm⟩

theorem Spec.Moment.last {s t : ParseState} {m : Path} (h : Onward s t) (hm : m ∈ s.visited) :
    Moment s t m t := ⟨h, Onward.refl t, h m hm⟩

theorem resolveP_onward (E : StubFiles) (n : Nat) {m parent path : Path} {s t : ParseState}
    {r : Except PyErr QPath} (h : resolveP E n m parent path s = (r, t)) : Onward s t :=
  ext_onward ((parsing_ext E n).2.1 m parent path) h

theorem parseScope_onward (E : StubFiles) (n : Nat) {m : Path} {s t : ParseState}
    {r : Except PyErr Scope} (h : parseScope E n m s = (r, t)) : Onward s t :=
  ext_onward ((parsing_ext E n).2.2 m) h

/-- A module that was read is known as visited. -/
theorem parseScope_visited (E : StubFiles) (n : Nat) {m : Path} {s t : ParseState} {scope : Scope}
    (h : parseScope E n m s = (.ok scope, t)) : m ∈ t.visited := by
  cases n with
  | zero => rw [parseScope] at h; cases congrArg Prod.fst h
  | succ n =>
    by_cases hv : m ∈ s.visited
    · exact parseScope_onward E (n + 1) h m hv
    · cases hs : E.source m with
      | none => rw [parse_missing E n hv hs] at h; cases congrArg Prod.fst h
      | some body =>
        rw [parse_source E n hv hs] at h
        obtain ⟨_, u, h1, h2⟩ := bind_ok h
        have hu := Pres.each (ext_preorder _) body (fun x _ => (parsing_ext E n).1
          { module := m, parent := [] } x)
        have hiu := item_state ParseState.definitions m u
        rw [h2] at hiu
        cases hiu
        exact ext_onward hu h1 m List.mem_cons_self

theorem found {E : StubFiles} {n : Nat} {m parent path : Path} {s t : ParseState} {q : QPath}
    (hm : m ∈ s.visited) (h : resolveP E n m parent path s = (.ok q, t)) :
    FoundBetween E s t m parent path q :=
  have ho := resolveP_onward E n h
  ⟨n, s, t, .first ho hm, .last ho hm, h⟩

theorem toQualified_taken {E : StubFiles} {n : Nat} {c : Place} {path : Path} {s t : ParseState}
    {q : QPath} (hm : c.module ∈ s.visited)
    (h : toQualified (resolveP E n) c path s = (.ok q, t)) :
    TakenFor E s t c.module c.parent path q ∧ ClassesKept c.module (fun _ => False) s t := by
  unfold toQualified P.orNotFound at h
  cases hr : resolveP E n c.module c.parent path s with
  | mk r u =>
    have ho := resolveP_onward E n hr
    have hk := (((parsing_ext E n).2.1 c.module c.parent path).of_eq hr).classesKept
      (m := c.module) id (fun _ => False)
    rw [hr] at h
    cases r with
    | ok q' =>
      cases h
      exact ⟨.inl (found hm hr), hk⟩
    | error e =>
      cases e
      case objectNotFound =>
        cases h
        exact ⟨.inr ⟨rfl, n, s, u, ⟨Onward.refl s, ho, hm⟩, ⟨ho, fun _ h => h, ho _ hm⟩, hr⟩,
          hk.onward, hk.bases, hk.generics⟩
      all_goals cases congrArg Prod.fst h

theorem toQualified_kept {E : StubFiles} {n : Nat} {c : Place} (path : Path) :
    Pres (ClassesKept c.module (fun _ => False)) (toQualified (resolveP E n) c path) :=
  toQualified_pres (classesKept_preorder _ _)
    (fun m p o => ((parsing_ext E n).2.1 m p o).mono fun _ _ h => h.classesKept id _)
    (fun _ _ => ⟨fun _ h => h, fun _ _ _ => rfl, fun _ _ _ => rfl⟩) path

theorem isTypeVar_kept {E : StubFiles} {n : Nat} {c : Place} (path : Path) :
    Pres (ClassesKept c.module (fun _ => False)) (isTypeVar (parseScope E n) (resolveP E n) c path) :=
  isTypeVar_pres (classesKept_preorder _ _)
    (fun m => ((parsing_ext E n).2.2 m).mono fun _ _ h => h.classesKept id _)
    (fun m p o => ((parsing_ext E n).2.1 m p o).mono fun _ _ h => h.classesKept id _)
    (fun _ _ => ⟨fun _ h => h, fun _ _ _ => rfl, fun _ _ _ => rfl⟩) path

/-! ### Type variables -/

theorem item_of_ok {α β : Type} [BEq α] {d : ParseState → Dict α β} {k : α} {s t : ParseState} {v : β}
    (h : P.item d k s = (.ok v, t)) : (d s).lookup k = some v ∧ t = s := by
  unfold P.item at h
  split at h
  · cases congrArg Prod.fst h
  · next hl => cases h; exact ⟨hl, rfl⟩

theorem assignedCall_iff {node : Stmt} {func : Expr} :
    assignedCall node = some func ↔ AssignsCall node func := by
  constructor
  · intro h
    unfold assignedCall at h
    split at h
    · cases h; exact .annotated
    · cases h; exact .plain
    · cases h
  · intro h
    cases h <;> rfl

/-- Type variables are recognised by their definition. -/
theorem isTypeVar_seen {E : StubFiles} {n : Nat} {c : Place} {path : Path} {s t : ParseState}
    {b : Bool} (hm : c.module ∈ s.visited)
    (h : isTypeVar (parseScope E n) (resolveP E n) c path s = (.ok b, t)) :
    Onward s t ∧ ∃ q, TakenFor E s t c.module c.parent path q ∧
      if b then SeenTypeVariable E s t q else SeenOther E s t q := by
  have hst : Onward s t := ((isTypeVar_kept path).of_eq h).onward
  refine ⟨hst, ?_⟩
  obtain ⟨q, u, h1, h'⟩ := bind_ok h
  clear h
  obtain ⟨scope, w, h2, h''⟩ := bind_ok h'
  clear h'
  obtain ⟨nodes, w', h3, h⟩ := bind_ok h''
  clear h''
  obtain ⟨hn, hw'⟩ := item_of_ok h3
  rw [hw'] at h
  clear h3 hw' w'
  obtain ⟨hq, hk⟩ := toQualified_taken hm h1
  have huw := parseScope_onward E n h2
  have hw := parseScope_visited E n h2
  have hsw := hk.onward.trans huw
  have hnodes : nodesAt w q.1 q.2 = (nodes.lookup q.2).getD [] := by
    unfold nodesAt
    rw [hn, Option.getD_some]
  have other : (pure false : P Bool) w = (.ok b, t) → (∀ node, nodesAt w q.1 q.2 ≠ [node]) →
      ∃ q, TakenFor E s t c.module c.parent path q ∧
        if b then SeenTypeVariable E s t q else SeenOther E s t q := by
    intro h hne
    have hb : false = b := Except.ok.inj (congrArg Prod.fst h)
    have ht : w = t := congrArg Prod.snd h
    subst hb ht
    refine ⟨q, hq.widen (Onward.refl _) huw, ?_⟩
    rw [if_neg (by simp)]
    exact ⟨w, ⟨hsw, Onward.refl _, hw⟩, fun node func callable h1 _ _ => absurd h1 (hne node)⟩
  cases hl : nodes.lookup q.2 with
  | none =>
    rw [hl] at h hnodes
    exact other h fun node h => by rw [hnodes] at h; cases h
  | some l =>
    rw [hl] at h hnodes
    rw [Option.getD_some] at hnodes
    match l, h, hnodes with
    | [], h, hnodes => exact other h fun node h => by rw [hnodes] at h; cases h
    | _ :: _ :: _, h, hnodes => exact other h fun node h => by rw [hnodes] at h; cases h
    | [node], h, hnodes =>
      have single : ∀ node', nodesAt w q.1 q.2 = [node'] → node' = node := by
        intro node' h
        rw [hnodes] at h
        cases h
        rfl
      cases hcall : (assignedCall node).bind toMaybePath with
      | none =>
        dsimp only at h
        rw [hcall] at h
        have hb : false = b := Except.ok.inj (congrArg Prod.fst h)
        have ht : w = t := congrArg Prod.snd h
        subst hb ht
        refine ⟨q, hq.widen (Onward.refl _) huw, ?_⟩
        rw [if_neg (by simp)]
        refine ⟨w, ⟨hsw, Onward.refl _, hw⟩, fun node' func callable h1 h2 h3 => ?_⟩
        rw [single node' h1] at h2
        rw [assignedCall_iff.2 h2, Option.bind_some, toMaybePath_eq, h3] at hcall
        cases hcall
      | some callable =>
        dsimp only at h
        rw [hcall] at h
        obtain ⟨r, x, h4, h5⟩ := bind_ok h
        have hb : (r == typeVarPath) = b := Except.ok.inj (congrArg Prod.fst h5)
        have ht : x = t := congrArg Prod.snd h5
        subst ht
        have hwx := resolveP_onward E n h4
        refine ⟨q, hq.widen (Onward.refl _) (huw.trans hwx), ?_⟩
        have hf : FoundBetween E s x q.1 [] callable r := (found hw h4).widen hsw (Onward.refl _)
        cases hc : assignedCall node with
        | none => rw [hc] at hcall; cases hcall
        | some func =>
          rw [hc, Option.bind_some, toMaybePath_eq] at hcall
          by_cases hr : r = typeVarPath
          · have : b = true := by rw [← hb, hr]; rfl
            subst this
            rw [if_pos rfl]
            subst hr
            exact ⟨w, node, func, callable, ⟨hsw, hwx, hw⟩, hnodes, assignedCall_iff.1 hc, hcall, hf⟩
          · have : b = false := by
              rw [← hb]
              exact beq_eq_false_iff_ne.2 hr
            subst this
            rw [if_neg (by simp)]
            refine ⟨w, ⟨hsw, hwx, hw⟩, fun node' func' callable' h1 h2 h3 => ?_⟩
            rw [single node' h1] at h2
            rw [assignedCall_iff.2 h2] at hc
            cases hc
            rw [h3] at hcall
            cases hcall
            exact ⟨r, hf, hr⟩

/-- The name was taken for a type variable on the way from `s` to `t`. -/
def TakenForVariable (E : StubFiles) (s t : ParseState) (m parent path : Path) : Prop :=
  ∃ q, TakenFor E s t m parent path q ∧ SeenTypeVariable E s t q

/-- The name was taken for something else. -/
def TakenForOther (E : StubFiles) (s t : ParseState) (m parent path : Path) : Prop :=
  ∃ q, TakenFor E s t m parent path q ∧ SeenOther E s t q

/-- Type variables and others among names. -/
def Sifted (E : StubFiles) (s t : ParseState) (c : Place) (xs ys : List Path) : Prop :=
  Selected (TakenForVariable E s t c.module c.parent) (TakenForOther E s t c.module c.parent) xs ys

theorem Sifted.widen {E : StubFiles} {s t s' t' : ParseState} {c : Place} {xs ys : List Path}
    (h : Sifted E s t c xs ys) (hs : Onward s' s) (ht : Onward t t') : Sifted E s' t' c xs ys :=
  Selected.mono (fun _ ⟨q, h1, h2⟩ => ⟨q, h1.widen hs ht, h2.widen hs ht⟩)
    (fun _ ⟨q, h1, h2⟩ => ⟨q, h1.widen hs ht, h2.widen hs ht⟩) h

theorem filter_sifted {E : StubFiles} {n : Nat} {c : Place} : ∀ (xs ys : List Path)
    (s t : ParseState), c.module ∈ s.visited →
    P.filter (isTypeVar (parseScope E n) (resolveP E n) c) xs s = (.ok ys, t) →
    Sifted E s t c xs ys
  | [], ys, s, t, _, h => by
    have : [] = ys := Except.ok.inj (congrArg Prod.fst h)
    subst this
    exact .nil
  | x :: xs, ys, s, t, hm, h => by
    obtain ⟨b, u, h1, h2⟩ := bind_ok (x := isTypeVar (parseScope E n) (resolveP E n) c x) h
    obtain ⟨zs, v, h3, h4⟩ := bind_ok (x := P.filter (isTypeVar (parseScope E n) (resolveP E n) c) xs)
      h2
    have ht : v = t := congrArg Prod.snd h4
    have hys : (if b then x :: zs else zs) = ys := Except.ok.inj (congrArg Prod.fst h4)
    subst ht hys
    obtain ⟨hsu, q, hq, hb⟩ := isTypeVar_seen hm h1
    have huv : Onward u v := (Pres.of_eq (Pres.filter (classesKept_preorder _ _) xs
      fun x _ => isTypeVar_kept x) h3).onward
    have ih := (filter_sifted xs zs u v (hsu _ hm) h3).widen hsu (Onward.refl v)
    cases b with
    | true =>
      exact .take ⟨q, hq.widen (Onward.refl _) huv, SeenTypeVariable.widen hb (Onward.refl _) huv⟩ ih
    | false =>
      exact .skip ⟨q, hq.widen (Onward.refl _) huv, SeenOther.widen hb (Onward.refl _) huv⟩ ih

/-! ### Bases -/

/-- No type parameters of a class of the module are changed. -/
structure GenericsKept (m : Path) (s t : ParseState) : Prop where
  onward : Onward s t
  same : ∀ p, t.generics.lookup (m, p) = s.generics.lookup (m, p)

theorem ClassesKept.genericsKept {m : Path} {s t : ParseState}
    (h : ClassesKept m (fun _ => False) s t) (hm : m ∈ s.visited) : GenericsKept m s t :=
  ⟨h.onward, fun p => h.generics hm p id⟩

theorem GenericsKept.trans {m : Path} {s t u : ParseState} (h : GenericsKept m s t)
    (h' : GenericsKept m t u) : GenericsKept m s u :=
  ⟨h.onward.trans h'.onward, fun p => (h'.same p).trans (h.same p)⟩

/-- The names among the type arguments of a base, as they are collected. -/
def argNames (base : Expr) : List Path := (collectTypeArgs base).filterMap dotted

theorem addBase_lookup {cls : QPath} {base : Expr} {s : ParseState} {l : List Expr}
    (h : s.classesBases.lookup cls = some l) :
    (addBase cls base s).classesBases.lookup cls = some (l ++ [base]) := by
  unfold addBase
  rw [lookup_dictUpdate_self, h, Option.getD_some]

theorem visitBase_records {E : StubFiles} {n : Nat} {c : Place} {name : String} {body : List Stmt}
    {base : Expr} {s t : ParseState} {tvs : List Path} {l : List Expr}
    (hm : c.module ∈ s.visited)
    (hl : s.classesBases.lookup (c.module, c.parent ++ [name]) = some l)
    (h : visitBase (parseScope E n) (resolveP E n) c name body base s = (.ok tvs, t)) :
    GenericsKept c.module s t ∧ (∃ l', t.classesBases.lookup (c.module, c.parent ++ [name]) = some (l ++ l') ∧
      RealBases (TakenFor E s t c.module c.parent) [base] l') ∧ Sifted E s t c (argNames base) tvs := by
  have plain : ∀ path, dotted base = some path → base.isSubscript = false →
      (∀ q, NoBase base q ↔ q = (["typing"], ["Protocol"]) ∨ q = (["typing"], ["NamedTuple"])) →
      (P.lift (toPath base) >>= fun path => toQualified (resolveP E n) c path >>= fun q =>
        if q == namedTuplePath then
          P.lift (namedTupleConstructor name body) >>= fun constructor =>
          P.update (addNode c [name] (.functionDef constructor)) >>= fun _ =>
          P.update (addSuperclass c.module (c.parent ++ [name]) q) >>= fun _ =>
          (pure [] : P (List Path))
        else if q == protocolPath then pure []
        else if q == genericPath then P.fail .assertionError
        else
          P.update (addBase (c.module, c.parent ++ [name]) base) >>= fun _ =>
          pure []) s = (.ok tvs, t) →
      GenericsKept c.module s t ∧ (∃ l', t.classesBases.lookup (c.module, c.parent ++ [name]) = some (l ++ l') ∧
        RealBases (TakenFor E s t c.module c.parent) [base] l') ∧ tvs = [] := by
    intro path hp hns hnb h
    obtain ⟨path', u, h1, h2⟩ := bind_ok h
    obtain ⟨hpath, hu⟩ := lift_ok h1
    rw [toPath_ok hpath] at hp
    cases hp
    rw [hu] at h2
    obtain ⟨q, v, h3, h4⟩ := bind_ok h2
    obtain ⟨hq, hk⟩ := toQualified_taken hm h3
    have hlv : v.classesBases.lookup (c.module, c.parent ++ [name]) = some l :=
      (hk.bases hm _ id).trans hl
    have hbn : baseName base = some path := by
      cases base
      case subscript => cases hns
      all_goals exact toPath_ok hpath
    by_cases e1 : q = namedTuplePath
    · subst e1
      rw [if_pos (by decide)] at h4
      obtain ⟨f, w, h5, h6⟩ := bind_ok h4
      obtain ⟨_, hw⟩ := lift_ok h5
      rw [hw] at h6
      have ht : addSuperclass c.module (c.parent ++ [name]) namedTuplePath
        (addNode c [name] (.functionDef f) v) = t := congrArg Prod.snd h6
      have htv : [] = tvs := Except.ok.inj (congrArg Prod.fst h6)
      subst ht
      exact ⟨⟨hk.onward, fun p => hk.generics hm p id⟩, ⟨[], by rw [List.append_nil]; exact hlv,
        .dropped hbn (hq.widen (Onward.refl s) fun _ h => h) ((hnb _).2 (.inr rfl)) .nil⟩, htv.symm⟩
    · rw [if_neg (by simpa using e1)] at h4
      by_cases e2 : q = protocolPath
      · subst e2
        rw [if_pos (by decide)] at h4
        have ht : v = t := congrArg Prod.snd h4
        have htv : [] = tvs := Except.ok.inj (congrArg Prod.fst h4)
        subst ht
        exact ⟨⟨hk.onward, fun p => hk.generics hm p id⟩, ⟨[], by rw [List.append_nil]; exact hlv,
          .dropped hbn hq ((hnb _).2 (.inl rfl)) .nil⟩, htv.symm⟩
      · rw [if_neg (by simpa using e2)] at h4
        by_cases e3 : q = genericPath
        · subst e3
          rw [if_pos (by decide)] at h4
          cases congrArg Prod.fst h4
        · rw [if_neg (by simpa using e3)] at h4
          have ht : addBase (c.module, c.parent ++ [name]) base v = t := congrArg Prod.snd h4
          have htv : [] = tvs := Except.ok.inj (congrArg Prod.fst h4)
          subst ht
          refine ⟨⟨hk.onward, fun p => hk.generics hm p id⟩, ⟨[base], addBase_lookup hlv, .kept (fun path' h => ?_) .nil⟩, htv.symm⟩
          rw [hbn] at h
          cases h
          refine ⟨q, hq.widen (Onward.refl s) fun _ h => h, fun hn => ?_⟩
          rcases (hnb q).1 hn with h | h
          · exact e2 h
          · exact e1 h
  cases base with
  | subscript value slice load =>
    dsimp only [visitBase] at h
    obtain ⟨typeVars, u, h1, h2⟩ := bind_ok h
    clear h
    have hkf : ClassesKept c.module (fun _ => False) s u :=
      Pres.of_eq (Pres.filter (classesKept_preorder _ _) _ fun x _ => isTypeVar_kept x) h1
    have hsift := filter_sifted _ _ _ _ hm h1
    have hargs : (collectTypeArgs (.subscript value slice load)).filterMap toMaybePath
        = argNames (.subscript value slice load) := by
      unfold argNames
      congr 1
      funext e
      exact toMaybePath_eq e
    rw [hargs] at hsift
    have hlu : u.classesBases.lookup (c.module, c.parent ++ [name]) = some l :=
      (hkf.bases hm _ id).trans hl
    rw [toMaybePath_eq] at h2
    cases hv : dotted value with
    | none =>
      rw [hv] at h2
      have ht : addBase (c.module, c.parent ++ [name]) (.subscript value slice load) u = t :=
        congrArg Prod.snd h2
      have htv : typeVars = tvs := Except.ok.inj (congrArg Prod.fst h2)
      subst ht htv
      refine ⟨⟨hkf.onward, fun p => hkf.generics hm p id⟩, ⟨[_], addBase_lookup hlu, .kept (fun path h => ?_) .nil⟩,
        hsift.widen (Onward.refl s) fun _ h => h⟩
      rw [show baseName (.subscript value slice load) = dotted value from rfl, hv] at h
      cases h
    | some origin =>
      rw [hv] at h2
      obtain ⟨q, v, h3, h4⟩ := bind_ok h2
      have huv := resolveP_onward E n h3
      have hq : TakenFor E s v c.module c.parent origin q :=
        .inl ((found (hkf.onward _ hm) h3).widen hkf.onward (Onward.refl v))
      have hkv := (((parsing_ext E n).2.1 c.module c.parent origin).of_eq h3).classesKept
        (m := c.module) id (fun _ => False)
      have hlv : v.classesBases.lookup (c.module, c.parent ++ [name]) = some l :=
        (hkv.bases (hkf.onward _ hm) _ id).trans hlu
      have hgv := (hkf.genericsKept hm).trans (hkv.genericsKept (hkf.onward _ hm))
      by_cases e : q = genericPath ∨ q = protocolPath
      · rw [if_pos (by simpa using e)] at h4
        have ht : v = t := congrArg Prod.snd h4
        have htv : typeVars = tvs := Except.ok.inj (congrArg Prod.fst h4)
        subst ht htv
        exact ⟨⟨hgv.onward, hgv.same⟩, ⟨[], by rw [List.append_nil]; exact hlv, .dropped hv hq e .nil⟩,
          hsift.widen (Onward.refl s) huv⟩
      · rw [if_neg (by simpa using e)] at h4
        have ht : addBase (c.module, c.parent ++ [name]) (.subscript value slice load) v = t :=
          congrArg Prod.snd h4
        have htv : typeVars = tvs := Except.ok.inj (congrArg Prod.fst h4)
        subst ht htv
        refine ⟨⟨hgv.onward, hgv.same⟩, ⟨[_], addBase_lookup hlv, .kept (fun path h => ?_) .nil⟩,
          hsift.widen (Onward.refl s) huv⟩
        rw [show baseName (.subscript value slice load) = dotted value from rfl, hv] at h
        cases h
        exact ⟨q, hq.widen (Onward.refl s) fun _ h => h, e⟩
  | name id load =>
    obtain ⟨h1, h2, h3⟩ := plain _ rfl rfl (fun _ => Iff.rfl) h
    exact ⟨h1, h2, by rw [h3]; exact .nil⟩
  | «attribute» value attr load =>
    cases hd : dotted (Expr.attribute value attr load) with
    | none =>
      obtain ⟨_, _, h1, _⟩ := bind_ok h
      rw [toPath_ok (lift_ok h1).1] at hd
      cases hd
    | some path =>
      obtain ⟨h1, h2, h3⟩ := plain _ hd rfl (fun _ => Iff.rfl) h
      exact ⟨h1, h2, by rw [h3]; exact .nil⟩
  | tuple elts load => obtain ⟨_, _, h1, _⟩ := bind_ok h; cases (lift_ok h1).1
  | list elts => obtain ⟨_, _, h1, _⟩ := bind_ok h; cases (lift_ok h1).1
  | call func args keywords => obtain ⟨_, _, h1, _⟩ := bind_ok h; cases (lift_ok h1).1
  | constant value => obtain ⟨_, _, h1, _⟩ := bind_ok h; cases (lift_ok h1).1
  | binOp left op right => obtain ⟨_, _, h1, _⟩ := bind_ok h; cases (lift_ok h1).1
  | other tag children => obtain ⟨_, _, h1, _⟩ := bind_ok h; cases (lift_ok h1).1

theorem Spec.RealBases.append {R : Path → QPath → Prop} {bs rs bs' rs' : List Expr}
    (h : RealBases R bs rs) (h' : RealBases R bs' rs') : RealBases R (bs ++ bs') (rs ++ rs') := by
  induction h with
  | nil => exact h'
  | kept h _ ih => exact .kept h ih
  | dropped h hq hn _ ih => exact .dropped h hq hn ih

theorem map_records {E : StubFiles} {n : Nat} {c : Place} {name : String} {body : List Stmt} :
    ∀ (bases : List Expr) (s t : ParseState) (tvs : List (List Path)) (l : List Expr),
    c.module ∈ s.visited → s.classesBases.lookup (c.module, c.parent ++ [name]) = some l →
    P.map (visitBase (parseScope E n) (resolveP E n) c name body) bases s = (.ok tvs, t) →
    GenericsKept c.module s t ∧ (∃ l', t.classesBases.lookup (c.module, c.parent ++ [name]) = some (l ++ l') ∧
      RealBases (TakenFor E s t c.module c.parent) bases l') ∧
    Sifted E s t c (bases.flatMap argNames) tvs.flatten
  | [], s, t, tvs, l, hm, hl, h => by
    have ht : s = t := congrArg Prod.snd h
    have htv : [] = tvs := Except.ok.inj (congrArg Prod.fst h)
    subst ht htv
    exact ⟨⟨Onward.refl s, fun _ => rfl⟩, ⟨[], by rw [List.append_nil]; exact hl, .nil⟩, .nil⟩
  | base :: bases, s, t, tvs, l, hm, hl, h => by
    obtain ⟨tv, u, h1, h2⟩ := bind_ok
      (x := visitBase (parseScope E n) (resolveP E n) c name body base) h
    obtain ⟨tvs', v, h3, h4⟩ := bind_ok
      (x := P.map (visitBase (parseScope E n) (resolveP E n) c name body) bases) h2
    have ht : v = t := congrArg Prod.snd h4
    have htv : tv :: tvs' = tvs := Except.ok.inj (congrArg Prod.fst h4)
    subst ht htv
    obtain ⟨gsu, ⟨l1, hl1, hr1⟩, hs1⟩ := visitBase_records hm hl h1
    obtain ⟨guv, ⟨l2, hl2, hr2⟩, hs2⟩ := map_records bases u v tvs' _ (gsu.onward _ hm) hl1 h3
    have hsu := gsu.onward
    have huv := guv.onward
    refine ⟨gsu.trans guv, ⟨l1 ++ l2, by rw [hl2, List.append_assoc], ?_⟩, ?_⟩
    · exact (hr1.mono fun _ _ h => h.widen (Onward.refl s) huv).append
        (hr2.mono fun _ _ h => h.widen hsu (Onward.refl v))
    · rw [List.flatMap_cons, List.flatten_cons]
      exact Selected.append (hs1.widen (Onward.refl s) huv) (hs2.widen hsu (Onward.refl v))

/-- The head of a class statement records the real bases, and the type variables among the
arguments of the bases if there are any. -/
theorem classHead_records {E : StubFiles} {n : Nat} {c : Place} {name : String} {bases : List Expr}
    {body : List Stmt} {s t : ParseState} (hm : c.module ∈ s.visited)
    (h : visitClassHead (parseScope E n) (resolveP E n) c name bases body s = (.ok (), t)) :
    Onward s t ∧
    (∃ rs, t.classesBases.lookup (c.module, c.parent ++ [name]) = some rs ∧
      RealBases (TakenFor E s t c.module c.parent) bases rs) ∧
    ∃ vars, Sifted E s t c (bases.flatMap argNames) vars ∧
      t.generics.lookup (c.module, c.parent ++ [name]) =
        if vars = [] then s.generics.lookup (c.module, c.parent ++ [name]) else some (dedup vars) := by
  rw [visitClassHead_eq] at h
  obtain ⟨_, u, h1, h2⟩ := bind_ok h
  obtain ⟨tvs, v, h3, h4⟩ := bind_ok h2
  have hu : _ = u := congrArg Prod.snd h1
  have hsu : Onward s u := hu ▸ fun _ h => h
  have hgu : ∀ p, u.generics.lookup (c.module, p) = s.generics.lookup (c.module, p) :=
    fun p => hu ▸ rfl
  have hl : u.classesBases.lookup (c.module, c.parent ++ [name]) = some [] := by
    rw [← hu]
    exact lookup_dictSet_self _ _ _
  obtain ⟨g, ⟨rs, hrs, hreal⟩, hsift⟩ := map_records bases u v tvs [] (hsu _ hm) hl h3
  have hnil : dedup tvs.flatten = [] ↔ tvs.flatten = [] := by
    cases tvs.flatten <;> simp [dedup]
  by_cases e : tvs.flatten = []
  · rw [if_pos (by rw [List.isEmpty_iff]; exact hnil.2 e)] at h4
    have ht : v = t := congrArg Prod.snd h4
    subst ht
    refine ⟨hsu.trans g.onward, ⟨rs, hrs, hreal.mono fun _ _ h => h.widen hsu (Onward.refl v)⟩,
      tvs.flatten, hsift.widen hsu (Onward.refl v), ?_⟩
    rw [if_pos e, g.same, hgu]
  · rw [if_neg (by rw [List.isEmpty_iff]; exact fun h => e (hnil.1 h))] at h4
    have ht : _ = t := congrArg Prod.snd h4
    subst ht
    refine ⟨hsu.trans g.onward, ⟨rs, hrs, hreal.mono fun _ _ h => h.widen hsu fun _ h => h⟩,
      tvs.flatten, hsift.widen hsu fun _ h => h, ?_⟩
    rw [if_neg e]
    exact lookup_dictSet_self _ _ _

/-! ### Modules -/

/-- A longer path. -/
def Below (parent p : Path) : Prop := ∃ x xs, p = parent ++ x :: xs

theorem classes_rels (E : StubFiles) : Rels E
    (fun c s t => Ext (· = c.module) s t ∧ ClassesKept c.module (Below c.parent) s t)
    (fun c name s t => Ext (· = c.module) s t ∧ ClassesKept c.module (· = c.parent ++ [name]) s t)
    (Ext (fun _ => False)) where
  preV c := ⟨fun s => ⟨(ext_preorder _).refl s, (classesKept_preorder _ _).refl s⟩,
    fun h h' => ⟨(ext_preorder _).trans h.1 h'.1, (classesKept_preorder _ _).trans h.2 h'.2⟩⟩
  preW c name := ⟨fun s => ⟨(ext_preorder _).refl s, (classesKept_preorder _ _).refl s⟩,
    fun h h' => ⟨(ext_preorder _).trans h.1 h'.1, (classesKept_preorder _ _).trans h.2 h'.2⟩⟩
  preR := (ext_rels E).preR
  RV c s t h := ⟨(ext_rels E).RV c s t h, h.classesKept id _⟩
  RW c name s t h := ⟨(ext_rels E).RW c name s t h, h.classesKept id _⟩
  updates c := {
    definition := fun path s => ⟨(ext_updates c).definition path s,
      fun _ h => h, fun _ _ _ => rfl, fun _ _ _ => rfl⟩
    reference := fun path q s => ⟨(ext_updates c).reference path q s,
      fun _ h => h, fun _ _ _ => rfl, fun _ _ _ => rfl⟩
    submodule := fun m s => ⟨(ext_updates c).submodule m s,
      fun _ h => h, fun _ _ _ => rfl, fun _ _ _ => rfl⟩
    node := fun path node kind s => ⟨(ext_updates c).node path node kind s,
      fun _ h => h, fun _ _ _ => rfl, fun _ _ _ => rfl⟩ }
  definition c name path s := ⟨(ext_updates c).definition path s,
    fun _ h => h, fun _ _ _ => rfl, fun _ _ _ => rfl⟩
  baseUpdates c name := {
    base := fun b s => ⟨(ext_baseUpdates c name).base b s, fun _ h => h,
      fun _ p hp => by
        unfold addBase
        have hne : ((c.module, p) : QPath) ≠ (c.module, c.parent ++ [name]) :=
          fun h => hp (congrArg Prod.snd h)
        dsimp only
        rw [lookup_dictUpdate_ne _ _ _ hne],
      fun _ _ _ => rfl⟩
    tuple := fun f q s => ⟨(ext_baseUpdates c name).tuple f q s, fun _ h => h,
      fun _ _ _ => rfl, fun _ _ _ => rfl⟩
    clear := fun s => ⟨(ext_baseUpdates c name).clear s, fun _ h => h,
      fun _ p hp => lookup_dictSet_ne _ _ fun (h : ((c.module, p) : QPath) = _) =>
        hp (congrArg Prod.snd h), fun _ _ _ => rfl⟩
    generics := fun ps s => ⟨(ext_baseUpdates c name).generics ps s, fun _ h => h,
      fun _ _ _ => rfl, fun _ p hp => lookup_dictSet_ne _ _ fun (h : ((c.module, p) : QPath) = _) =>
        hp (congrArg Prod.snd h)⟩ }
  head c name s t h := ⟨(ext_rels E).head c name s t h.1,
    fun x hx => h.2.onward x hx,
    fun hv p hp => h.2.bases hv p fun e => hp ⟨name, [], e⟩,
    fun hv p hp => h.2.generics hv p fun e => hp ⟨name, [], e⟩⟩
  child c name s t h := ⟨h.1, h.2.widen fun p ⟨x, xs, e⟩ => ⟨name, x :: xs, by
    rw [e, List.append_assoc]; rfl⟩⟩
  asked := (ext_rels E).asked
  started m s t hm hex h := (ext_rels E).started m s t hm hex h.1

theorem classesKept_updates (c : Place) : Updates (ClassesKept c.module (fun _ => False)) c where
  definition _ _ := ⟨fun _ h => h, fun _ _ _ => rfl, fun _ _ _ => rfl⟩
  reference _ _ _ := ⟨fun _ h => h, fun _ _ _ => rfl, fun _ _ _ => rfl⟩
  submodule _ _ := ⟨fun _ h => h, fun _ _ _ => rfl, fun _ _ _ => rfl⟩
  node _ _ _ _ := ⟨fun _ h => h, fun _ _ _ => rfl, fun _ _ _ => rfl⟩

/-- What the tables say about the bases of the class at `p` once the class statements `l` of the
module are dealt with. -/
def BasesRecorded (E : StubFiles) (s t : ParseState) (m : Path) (l : List (Path × List Expr))
    (p : Path) : Prop :=
  match lastAt l p with
  | none => t.classesBases.lookup (m, p) = s.classesBases.lookup (m, p)
  | some bases => ∃ rs, t.classesBases.lookup (m, p) = some rs ∧
      RealBases (TakenFor E s t m p.dropLast) bases rs

theorem lastAt_append {α : Type} (l l' : List (Path × α)) (p : Path) :
    lastAt (l ++ l') p = (lastAt l' p).or (lastAt l p) := by
  unfold lastAt
  rw [List.filter_append, List.map_append, List.getLast?_append]

theorem BasesRecorded.append {E : StubFiles} {s t u : ParseState} {m : Path}
    {l l' : List (Path × List Expr)} {p : Path} (hsu : Onward s u) (hut : Onward u t)
    (h : BasesRecorded E s u m l p) (h' : BasesRecorded E u t m l' p) :
    BasesRecorded E s t m (l ++ l') p := by
  unfold BasesRecorded at *
  rw [lastAt_append]
  cases hl' : lastAt l' p with
  | some bases =>
    rw [hl'] at h'
    obtain ⟨rs, h1, h2⟩ := h'
    exact ⟨rs, h1, h2.mono fun _ _ h => h.widen hsu (Onward.refl t)⟩
  | none =>
    rw [hl'] at h'
    dsimp only at h'
    rw [Option.none_or]
    cases hl : lastAt l p with
    | none => rw [hl] at h; exact h'.trans h
    | some bases =>
      rw [hl] at h
      obtain ⟨rs, h1, h2⟩ := h
      exact ⟨rs, h'.trans h1, h2.mono fun _ _ h => h.widen (Onward.refl s) hut⟩

theorem BasesRecorded.kept {E : StubFiles} {s t : ParseState} {m : Path} (hm : m ∈ s.visited)
    (h : ClassesKept m (fun _ => False) s t) (p : Path) : BasesRecorded E s t m [] p :=
  h.bases hm p id

theorem classDefsAll_eq (o : Expr → Bool) (parent : Path) : ∀ body : List Stmt,
    classDefsAll o parent body = body.flatMap (classDefs o parent)
  | [] => rfl
  | x :: xs => by rw [classDefsAll, List.flatMap_cons, classDefsAll_eq o parent xs]

theorem visit_classes {E : StubFiles} {o : Expr → Bool} (ho : Decides E o) : ∀ (n : Nat) (c : Place)
    (node : Stmt) (s t : ParseState), c.module ∈ s.visited → visit E n c node s = (.ok (), t) →
    ∀ p, BasesRecorded E s t c.module (classDefs o c.parent node) p
  | 0, c, node, s, t, _, h => by rw [visit] at h; cases congrArg Prod.fst h
  | n + 1, c, node, s, t, hm, h => by
    intro p
    have onward : ∀ (c : Place) node {s t : ParseState} {r}, visit E n c node s = (r, t) →
        Onward s t := fun c node _ _ _ h => ext_onward ((parsing_ext E n).1 c node) h
    have many : ∀ (c : Place) (body : List Stmt) (s t : ParseState), c.module ∈ s.visited →
        P.each (visit E n c) body s = (.ok (), t) →
        Onward s t ∧ BasesRecorded E s t c.module (classDefsAll o c.parent body) p := by
      intro c body
      induction body with
      | nil =>
        intro s t hm h
        have : s = t := congrArg Prod.snd h
        subst this
        exact ⟨Onward.refl s, rfl⟩
      | cons node body ih =>
        intro s t hm h
        obtain ⟨u, h1, h2⟩ := each_cons_ok h
        have hsu := onward c node h1
        obtain ⟨hut, h3⟩ := ih u t (hsu _ hm) h2
        exact ⟨hsu.trans hut, (visit_classes ho n c node s u hm h1 p).append hsu hut h3⟩
    have hR := classesKept_preorder c.module (fun _ => False)
    have hr : ∀ m q ob, Pres (ClassesKept c.module (fun _ => False)) (resolveP E n m q ob) :=
      fun m q ob => ((parsing_ext E n).2.1 m q ob).mono fun _ _ h => h.classesKept id _
    have hU := classesKept_updates c
    cases node with
    | annAssign target annotation value =>
      rw [visit] at h
      exact .kept hm ((visitAnnAssign_pres hR hr hU _ _ _).of_eq h) p
    | assign targets value =>
      rw [visit] at h
      exact .kept hm ((visitAssign_pres hR hr hU _ _ _).of_eq h) p
    | functionDef f =>
      rw [visit] at h
      have : _ = t := congrArg Prod.snd h
      subst this
      rfl
    | import_ names =>
      rw [visit] at h
      exact .kept hm ((visitImport_pres hR hU names).of_eq h) p
    | importFrom module names level =>
      rw [visit] at h
      exact .kept hm ((visitImportFrom_pres hR E hU module names level).of_eq h) p
    | ifStmt test body orelse =>
      rw [visit] at h
      obtain ⟨b, u, h1, h2⟩ := bind_ok h
      have hb := evaluateTest_ok ho h1
      have hk := (evaluateTest_pres hR hr E c test).of_eq h1
      rw [classDefs]
      cases b with
      | true =>
        rw [if_pos hb.symm]
        rw [if_pos rfl] at h2
        have := many c body u t (hk.onward _ hm) h2
        exact BasesRecorded.append (l := []) hk.onward this.1 (.kept hm hk p) this.2
      | false =>
        rw [if_neg (by rw [← hb]; simp)]
        rw [if_neg (by simp)] at h2
        have := many c orelse u t (hk.onward _ hm) h2
        exact BasesRecorded.append (l := []) hk.onward this.1 (.kept hm hk p) this.2
    | other tag body =>
      rw [visit] at h
      exact (many c body s t hm h).2
    | classDef name bases decorators body =>
      rw [visit] at h
      obtain ⟨_, u, h1, h2⟩ := bind_ok h
      obtain ⟨hsu, ⟨rs, hrs, hreal⟩, _⟩ := classHead_records hm h1
      obtain ⟨hut, hbody⟩ := many { module := c.module, parent := c.parent ++ [name] } body u t
        (hsu _ hm) h2
      rw [classDefs]
      refine BasesRecorded.append (l := [(c.parent ++ [name], bases)]) hsu hut ?_ hbody
      by_cases e : p = c.parent ++ [name]
      · subst e
        have : lastAt [(c.parent ++ [name], bases)] (c.parent ++ [name]) = some bases := by
          simp [lastAt]
        unfold BasesRecorded
        rw [this]
        exact ⟨rs, hrs, by rw [List.dropLast_concat]; exact hreal⟩
      · have : lastAt [(c.parent ++ [name], bases)] p = none := by
          have : ¬ c.parent ++ [name] = p := fun h => e h.symm
          simp [lastAt, this]
        unfold BasesRecorded
        rw [this]
        have H := classes_rels E
        have hW := (H.preW c name)
        rw [visitClassHead_eq] at h1
        exact (Pres.of_eq (classTail_pres hW (fun m => ((parsing_rels H n).2.2 m).mono (H.RW c name))
          (fun m q ob => ((parsing_rels H n).2.1 m q ob).mono (H.RW c name)) (H.definition c name) name
          bases body (H.baseUpdates c name)) h1).2.bases hm p e

theorem parse_classes {E : StubFiles} {o : Expr → Bool} (ho : Decides E o) {n : Nat} {m : Path}
    {s t : ParseState} {scope : Scope} {body : List Stmt} (hm : m ∉ s.visited)
    (hsrc : E.source m = some body) (h : parseScope E n m s = (.ok scope, t)) {p : Path}
    {bases : List Expr} (hp : lastAt (classDefsAll o [] body) p = some bases) :
    ∃ rs, t.classesBases.lookup (m, p) = some rs ∧
      RealBases (TakenFor E s t m p.dropLast) bases rs := by
  cases n with
  | zero => rw [parseScope] at h; cases congrArg Prod.fst h
  | succ n =>
    rw [parse_source E n hm hsrc] at h
    obtain ⟨_, u, h1, h2⟩ := bind_ok h
    have htu := item_state ParseState.definitions m u
    rw [h2] at htu
    cases htu
    have key := visit_classes ho (n + 1) { module := m, parent := [] } (.other "" body)
      (started m s) t List.mem_cons_self (by rw [visit]; exact h1) p
    unfold BasesRecorded at key
    rw [classDefs, hp] at key
    obtain ⟨rs, h3, h4⟩ := key
    exact ⟨rs, h3, h4.mono fun _ _ h => h.widen (fun _ h => List.mem_cons_of_mem _ h) (Onward.refl t)⟩

end Paradigm
