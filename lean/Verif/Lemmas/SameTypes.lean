import Verif.Lemmas.Equality
import Verif.Spec.SameTypes

/-!
# What `are_equal` and `==` say about annotations
-/

namespace Paradigm

open Spec

/-- The values in the annotation satisfy `ok`, and nothing has an empty list of arguments. -/
structure CleanAnnotation (ok : Atom → Prop) (a : Obj) : Prop where
  values : ∀ x, Inside (.atom x) a → ok x
  arguments : ∀ x o, Inside x a → ¬ Subscripted x o []

namespace CleanAnnotation

variable {ok : Atom → Prop}

theorem of_inside {a b : Obj} (h : CleanAnnotation ok a) (hi : ∀ x, Inside x b → Inside x a) : CleanAnnotation ok b :=
  ⟨fun x hx => h.values x (hi _ hx), fun x o hx => h.arguments x o (hi _ hx)⟩

theorem argument {a y : Obj} {o : Origin} {as : List Obj} (h : CleanAnnotation ok a) (hs : Subscripted a o as)
    (hy : y ∈ as) : CleanAnnotation ok y :=
  h.of_inside fun _ hx => .argument hx hs hy

theorem nonempty {a : Obj} {o : Origin} {as : List Obj} (h : CleanAnnotation ok a) (hs : Subscripted a o as) :
    as ≠ [] := by
  rintro rfl
  exact h.arguments _ _ (.self _) hs

theorem atom {x : Atom} (h : CleanAnnotation ok (.atom x)) : ok x := h.values x (.self _)

end CleanAnnotation

theorem sameValue_of_eq {ok : Atom → Prop} (hok : ∀ i b, ok (.int i) → ok (.bool b) → False) {x y : Atom}
    (hx : ok x) (hy : ok y) (h : x.eq y = true) : SameValue x y := by
  cases x <;> cases y <;> simp only [Atom.eq, beq_iff_eq, Bool.false_eq_true] at h
  case bool.int => exact absurd hx fun hx => hok _ _ hy hx
  case int.bool => exact absurd hy fun hy => hok _ _ hx hy
  case opaque.opaque => subst h; exact .opaque ..
  all_goals first | exact .same _ | (subst h; exact .same _)

theorem sameType_of_nan {a b : Obj} (h : Obj.isNanWith a b = true) : SameType a b := by
  unfold Obj.isNanWith at h
  split at h
  · simp only [beq_iff_eq] at h
    subst h
    exact .value (.same _)
  · cases h

theorem pyEqs_zip : ∀ {as bs : List Obj}, Obj.pyEqs as bs = true → as.length = bs.length ∧
    ∀ p ∈ as.zip bs, (Obj.isNanWith p.1 p.2 || p.1.pyEq p.2) = true
  | [], [], _ => ⟨rfl, fun p hp => by cases hp⟩
  | [], b :: bs, h => by simp [Obj.pyEqs] at h
  | a :: as, [], h => by simp [Obj.pyEqs] at h
  | a :: as, b :: bs, h => by
    simp only [Obj.pyEqs, Bool.and_eq_true] at h
    obtain ⟨h1, h2⟩ := pyEqs_zip h.2
    refine ⟨by simp [h1], fun p hp => ?_⟩
    rw [List.zip_cons_cons] at hp
    rcases List.mem_cons.1 hp with rfl | hp
    · exact h.1
    · exact h2 p hp

theorem areEquals_zip : ∀ {as bs : List Obj}, Obj.areEquals as bs = true →
    ∀ p ∈ as.zip bs, p.1.areEqual p.2 = true
  | [], _, _, p, hp => by cases hp
  | a :: as, [], _, p, hp => by cases hp
  | a :: as, b :: bs, h, p, hp => by
    simp only [Obj.areEquals, Bool.and_eq_true] at h
    rw [List.zip_cons_cons] at hp
    rcases List.mem_cons.1 hp with rfl | hp
    · exact h.1
    · exact areEquals_zip h.2 p hp

theorem mem_zip {as bs : List Obj} {p : Obj × Obj} (h : p ∈ as.zip bs) : p.1 ∈ as ∧ p.2 ∈ bs :=
  List.of_mem_zip (a := p.1) (b := p.2) h

/-- Functions that pick partners. -/
theorem picked {as bs : List Obj} {r : Obj → Obj → Prop} (h1 : ∀ x ∈ as, ∃ y ∈ bs, r x y)
    (h2 : ∀ y ∈ bs, ∃ x ∈ as, r x y) : ∃ f g : Obj → Obj, (∀ x ∈ as, f x ∈ bs) ∧ (∀ y ∈ bs, g y ∈ as) ∧
      (∀ x ∈ as, r x (f x)) ∧ ∀ y ∈ bs, r (g y) y := by
  classical
  refine ⟨fun x => if h : x ∈ as then (h1 x h).choose else x,
    fun y => if h : y ∈ bs then (h2 y h).choose else y, fun x h => ?_, fun y h => ?_, fun x h => ?_,
    fun y h => ?_⟩
  · simp only [dif_pos h]; exact (h1 x h).choose_spec.1
  · simp only [dif_pos h]; exact (h2 y h).choose_spec.1
  · simp only [dif_pos h]; exact (h1 x h).choose_spec.2
  · simp only [dif_pos h]; exact (h2 y h).choose_spec.2

theorem union_of {a b : Obj} {o o' : Origin} {as bs : List Obj} (ha : Subscripted a o as)
    (hb : Subscripted b o' bs) (ho : UnionOrigin o) (ho' : UnionOrigin o')
    (h1 : ∀ x ∈ as, ∃ y ∈ bs, SameType x y) (h2 : ∀ y ∈ bs, ∃ x ∈ as, SameType x y) : SameType a b := by
  obtain ⟨f, g, p, q, r, s⟩ := picked h1 h2
  exact .union f g ha hb ho ho' p q r s

theorem literal_of {a b : Obj} {as bs : List Obj} (ha : Subscripted a (.form literalForm) as)
    (hb : Subscripted b (.form literalForm) bs)
    (h1 : ∀ x ∈ as, ∃ y ∈ bs, SameType x y) (h2 : ∀ y ∈ bs, ∃ x ∈ as, SameType x y) : SameType a b := by
  obtain ⟨f, g, p, q, r, s⟩ := picked h1 h2
  exact .literal f g ha hb p q r s

theorem unionLike_origin {o : Origin} (h : o.isUnionLike = true) : UnionOrigin o := by
  cases o with
  | form i => simp only [Origin.isUnionLike, beq_iff_eq] at h; subst h; exact .inl rfl
  | cls i => simp only [Origin.isUnionLike, beq_iff_eq] at h; subst h; exact .inr rfl

section

variable {ok : Atom → Prop} (hok : ∀ i b, ok (.int i) → ok (.bool b) → False)

include hok

/-- Annotations that are equal for Python describe the same types. -/
theorem sameType_of_pyEq : ∀ (a b : Obj), CleanAnnotation ok a → CleanAnnotation ok b → a.pyEq b = true → SameType a b := by
  intro a
  induction h : sizeOf a using Nat.strongRecOn generalizing a with
  | ind n ih =>
    subst h
    intro b ha hb hab
    have near : ∀ x y, sizeOf x < sizeOf a → CleanAnnotation ok x → CleanAnnotation ok y →
        (Obj.isNanWith x y || x.pyEq y) = true → SameType x y := by
      intro x y hlt hx hy hxy
      rcases Bool.or_eq_true .. ▸ hxy with h | h
      · exact sameType_of_nan h
      · exact ih _ hlt x rfl y hx hy h
    cases a with
    | atom x => cases b with
      | atom y => rw [Obj.pyEq] at hab; exact .value (sameValue_of_eq hok ha.atom hb.atom hab)
      | _ => simp [Obj.pyEq] at hab
    | cls i => cases b with
      | cls j => simp only [Obj.pyEq, beq_iff_eq] at hab; subst hab; exact .bare (.cls i) (.cls i)
      | _ => simp [Obj.pyEq] at hab
    | form i => cases b with
      | form j => simp only [Obj.pyEq, beq_iff_eq] at hab; subst hab; exact .bare (.form i) (.form i)
      | _ => simp [Obj.pyEq] at hab
    | special i o => cases b with
      | special j o' => simp only [Obj.pyEq, beq_iff_eq] at hab; subst hab; exact .sameSpecial
      | _ => simp [Obj.pyEq] at hab
    | alias nm o as => cases b with
      | alias nm' o' bs =>
        have sa := Subscripted.alias nm o as
        have sb := Subscripted.alias nm' o' bs
        have lt : ∀ x ∈ as, sizeOf x < sizeOf (Obj.alias nm o as) := fun x hx => by
          have := sizeOf_mem hx; simp only [Obj.alias.sizeOf_spec]; omega
        have key : ∀ x ∈ as, ∀ y ∈ bs, (Obj.isNanWith x y || x.pyEq y) = true → SameType x y :=
          fun x hx y hy => near x y (lt x hx) (ha.argument sa hx) (hb.argument sb hy)
        rw [Obj.pyEq] at hab
        split at hab
        · next hu =>
          simp only [Bool.and_eq_true] at hu
          simp only [Bool.and_eq_true, pyAllAny_iff, List.all_eq_true, pyAny_iff] at hab
          refine union_of sa sb (unionLike_origin hu.1) (unionLike_origin hu.2) (fun x hx => ?_)
            fun y hy => ?_
          · obtain ⟨y, hy, h⟩ := hab.1 x hx
            exact ⟨y, hy, key x hx y hy h⟩
          · obtain ⟨x, hx, h⟩ := hab.2 y hy
            exact ⟨x, hx, key x hx y hy h⟩
        · split at hab
          · next hl =>
            simp only [Bool.and_eq_true, beq_iff_eq] at hl
            obtain ⟨rfl, rfl⟩ := hl
            simp only [Bool.and_eq_true, pyAllAnyTag_iff, List.all_eq_true, pyAnyTag_iff] at hab
            refine literal_of sa sb (fun x hx => ?_) fun y hy => ?_
            · obtain ⟨y, hy, _, h⟩ := hab.1 x hx
              exact ⟨y, hy, key x hx y hy h⟩
            · obtain ⟨x, hx, _, h⟩ := hab.2 y hy
              exact ⟨x, hx, key x hx y hy h⟩
          · simp only [Bool.and_eq_true, beq_iff_eq] at hab
            obtain ⟨rfl, hab⟩ := hab
            obtain ⟨h1, h2⟩ := pyEqs_zip hab
            exact .generic sa sb h1 fun p hp =>
              key _ (mem_zip hp).1 _ (mem_zip hp).2 (h2 p hp)
      | _ => simp [Obj.pyEq] at hab
    | pep585 o as => cases b with
      | pep585 o' bs =>
        rw [Obj.pyEq] at hab
        simp only [Bool.and_eq_true, beq_iff_eq] at hab
        obtain ⟨rfl, hab⟩ := hab
        obtain ⟨h1, h2⟩ := pyEqs_zip hab
        refine .generic (.pep585 o as) (.pep585 o bs) h1 fun p hp => near _ _ ?_
          (ha.argument (.pep585 o as) (mem_zip hp).1) (hb.argument (.pep585 o bs) (mem_zip hp).2) (h2 p hp)
        have := sizeOf_mem (mem_zip hp).1
        simp only [Obj.pep585.sizeOf_spec]; omega
      | _ => simp [Obj.pyEq] at hab
    | typeVar i => cases b with
      | typeVar j => simp only [Obj.pyEq, beq_iff_eq] at hab; subst hab; exact .sameTypeVar
      | _ => simp [Obj.pyEq] at hab
    | paramSpec i => cases b with
      | paramSpec j => simp only [Obj.pyEq, beq_iff_eq] at hab; subst hab; exact .sameParamSpec
      | _ => simp [Obj.pyEq] at hab
    | newType i => cases b with
      | newType j => simp only [Obj.pyEq, beq_iff_eq] at hab; subst hab; exact .sameNewType
      | _ => simp [Obj.pyEq] at hab
    | paramArgs o => cases b with
      | paramArgs o' =>
        rw [Obj.pyEq] at hab
        exact .paramArgs (ih _ (by simp only [Obj.paramArgs.sizeOf_spec]; omega) o rfl o'
          (ha.of_inside fun _ => .argsOrigin) (hb.of_inside fun _ => .argsOrigin) hab)
      | _ => simp [Obj.pyEq] at hab
    | paramKwargs o => cases b with
      | paramKwargs o' =>
        rw [Obj.pyEq] at hab
        exact .paramKwargs (ih _ (by simp only [Obj.paramKwargs.sizeOf_spec]; omega) o rfl o'
          (ha.of_inside fun _ => .kwargsOrigin) (hb.of_inside fun _ => .kwargsOrigin) hab)
      | _ => simp [Obj.pyEq] at hab
    | list as => cases b with
      | list bs =>
        rw [Obj.pyEq] at hab
        obtain ⟨h1, h2⟩ := pyEqs_zip hab
        refine .list h1 fun p hp => near _ _ ?_ (ha.of_inside fun _ hx => .element hx (mem_zip hp).1)
          (hb.of_inside fun _ hx => .element hx (mem_zip hp).2) (h2 p hp)
        have := sizeOf_mem (mem_zip hp).1
        simp only [Obj.list.sizeOf_spec]; omega
      | _ => simp [Obj.pyEq] at hab
    | tuple as => cases b with
      | tuple bs =>
        rw [Obj.pyEq] at hab
        obtain ⟨h1, h2⟩ := pyEqs_zip hab
        refine .tuple h1 fun p hp => near _ _ ?_ (ha.of_inside fun _ hx => .item hx (mem_zip hp).1)
          (hb.of_inside fun _ hx => .item hx (mem_zip hp).2) (h2 p hp)
        have := sizeOf_mem (mem_zip hp).1
        simp only [Obj.tuple.sizeOf_spec]; omega
      | _ => simp [Obj.pyEq] at hab

/-- So do annotations that are equal for `are_equal`. -/
theorem sameType_of_areEqual :
    ∀ (a b : Obj), CleanAnnotation ok a → CleanAnnotation ok b → a.areEqual b = true → SameType a b := by
  intro a
  induction h : sizeOf a using Nat.strongRecOn generalizing a with
  | ind n ih =>
    subst h
    intro b ha hb hab
    cases a with
    | atom x => rw [Obj.areEqual] at hab; exact sameType_of_pyEq hok _ _ ha hb hab
    | form i => rw [Obj.areEqual] at hab; exact sameType_of_pyEq hok _ _ ha hb hab
    | special i o => rw [Obj.areEqual] at hab; exact sameType_of_pyEq hok _ _ ha hb hab
    | pep585 o as => rw [Obj.areEqual] at hab; exact sameType_of_pyEq hok _ _ ha hb hab
    | cls i =>
      rw [Obj.areEqual] at hab
      simp only [Bool.and_eq_true, beq_iff_eq] at hab
      obtain ⟨h1, h2⟩ := hab
      have h2 : b.getArgs = [] := List.eq_nil_of_length_eq_zero h2
      cases b <;> simp only [Obj.originOrSelf, Option.some.injEq, Origin.cls.injEq, reduceCtorEq] at h1
      case cls => subst h1; exact .bare (.cls _) (.cls _)
      case special => subst h1; exact .bare (.cls _) (.special ..)
      case alias => exact absurd h2 (hb.nonempty (.alias ..))
      case pep585 => exact absurd h2 (hb.nonempty (.pep585 ..))
    | alias nm o as =>
      have sa := Subscripted.alias nm o as
      rw [Obj.areEqual] at hab
      simp only [Bool.and_eq_true, beq_iff_eq] at hab
      obtain ⟨⟨h1, h2⟩, hab⟩ := hab
      obtain ⟨bs, sb, hargs⟩ : ∃ bs, Subscripted b o bs ∧ b.getArgs = bs := by
        have hne : as ≠ [] := ha.nonempty sa
        cases b <;> simp only [Obj.originOrSelf, Option.some.injEq, reduceCtorEq] at h1
        case alias => subst h1; exact ⟨_, .alias .., rfl⟩
        case pep585 => subst h1; exact ⟨_, .pep585 .., rfl⟩
        all_goals exact absurd (List.eq_nil_of_length_eq_zero h2) hne
      rw [hargs] at h2 hab
      have key : ∀ x ∈ as, ∀ y ∈ bs, x.areEqual y = true → SameType x y := fun x hx y hy =>
        ih _ (by have := sizeOf_mem hx; simp only [Obj.alias.sizeOf_spec]; omega) x rfl y
          (ha.argument sa hx) (hb.argument sb hy)
      split at hab
      · next ho =>
        simp only [Bool.and_eq_true, areAllAny_iff, List.all_eq_true, areAny_iff] at hab
        have g1 : ∀ x ∈ as, ∃ y ∈ bs, SameType x y := fun x hx => by
          obtain ⟨y, hy, h⟩ := hab.1 x hx
          exact ⟨y, hy, key x hx y hy h⟩
        have g2 : ∀ y ∈ bs, ∃ x ∈ as, SameType x y := fun y hy => by
          obtain ⟨x, hx, h⟩ := hab.2 y hy
          exact ⟨x, hx, key x hx y hy h⟩
        simp only [Bool.or_eq_true, beq_iff_eq] at ho
        rcases ho with rfl | rfl
        · exact union_of sa sb (.inl rfl) (.inl rfl) g1 g2
        · exact literal_of sa sb g1 g2
      · exact .generic sa sb h2 fun p hp =>
          key _ (mem_zip hp).1 _ (mem_zip hp).2 (areEquals_zip hab p hp)
    | typeVar i nm bd c v cs => cases b with
      | typeVar j nm' bd' c' v' cs' =>
        simp only [Obj.areEqual, Bool.and_eq_true, beq_iff_eq] at hab
        obtain ⟨⟨⟨⟨⟨rfl, h1⟩, rfl⟩, rfl⟩, h2⟩, h3⟩ := hab
        refine .typeVar (ih _ (by simp only [Obj.typeVar.sizeOf_spec]; omega) _ rfl _
          (ha.of_inside fun _ => .bound) (hb.of_inside fun _ => .bound) h1) h2 fun p hp => ?_
        refine ih _ ?_ _ rfl _ (ha.of_inside fun _ hx => .constraint hx (mem_zip hp).1)
          (hb.of_inside fun _ hx => .constraint hx (mem_zip hp).2) (areEquals_zip h3 p hp)
        have := sizeOf_mem (mem_zip hp).1
        simp only [Obj.typeVar.sizeOf_spec]; omega
      | _ => simp [Obj.areEqual] at hab
    | paramSpec i nm bd c v => cases b with
      | paramSpec j nm' bd' c' v' =>
        simp only [Obj.areEqual, Bool.and_eq_true, beq_iff_eq] at hab
        obtain ⟨⟨⟨rfl, h1⟩, rfl⟩, rfl⟩ := hab
        exact .paramSpec (ih _ (by simp only [Obj.paramSpec.sizeOf_spec]; omega) _ rfl _
          (ha.of_inside fun _ => .specBound) (hb.of_inside fun _ => .specBound) h1)
      | _ => simp [Obj.areEqual] at hab
    | newType i q s => cases b with
      | newType j q' s' =>
        simp only [Obj.areEqual, Bool.and_eq_true, beq_iff_eq] at hab
        obtain ⟨rfl, h1⟩ := hab
        exact .newType (ih _ (by simp only [Obj.newType.sizeOf_spec]; omega) _ rfl _
          (ha.of_inside fun _ => .supertype) (hb.of_inside fun _ => .supertype) h1)
      | _ => simp [Obj.areEqual] at hab
    | paramArgs o => cases b with
      | paramArgs o' =>
        rw [Obj.areEqual] at hab
        exact .paramArgs (ih _ (by simp only [Obj.paramArgs.sizeOf_spec]; omega) o rfl o'
          (ha.of_inside fun _ => .argsOrigin) (hb.of_inside fun _ => .argsOrigin) hab)
      | _ => simp [Obj.areEqual] at hab
    | paramKwargs o => cases b with
      | paramKwargs o' =>
        rw [Obj.areEqual] at hab
        exact .paramKwargs (ih _ (by simp only [Obj.paramKwargs.sizeOf_spec]; omega) o rfl o'
          (ha.of_inside fun _ => .kwargsOrigin) (hb.of_inside fun _ => .kwargsOrigin) hab)
      | _ => simp [Obj.areEqual] at hab
    | list as => cases b with
      | list bs =>
        simp only [Obj.areEqual, Bool.and_eq_true, beq_iff_eq] at hab
        refine .list hab.1 fun p hp => ih _ ?_ _ rfl _ (ha.of_inside fun _ hx => .element hx (mem_zip hp).1)
          (hb.of_inside fun _ hx => .element hx (mem_zip hp).2) (areEquals_zip hab.2 p hp)
        have := sizeOf_mem (mem_zip hp).1
        simp only [Obj.list.sizeOf_spec]; omega
      | _ => simp [Obj.areEqual] at hab
    | tuple as => cases b with
      | tuple bs =>
        simp only [Obj.areEqual, Bool.and_eq_true, beq_iff_eq] at hab
        refine .tuple hab.1 fun p hp => ih _ ?_ _ rfl _ (ha.of_inside fun _ hx => .item hx (mem_zip hp).1)
          (hb.of_inside fun _ hx => .item hx (mem_zip hp).2) (areEquals_zip hab.2 p hp)
        have := sizeOf_mem (mem_zip hp).1
        simp only [Obj.tuple.sizeOf_spec]; omega
      | _ => simp [Obj.areEqual] at hab

end

end Paradigm
