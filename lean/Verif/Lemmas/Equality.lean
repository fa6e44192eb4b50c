import Verif.Spec.Values

/-! Lemmas about `annotated.are_equal`. -/

namespace Paradigm

open Spec

theorem noNans_iff (l : List Obj) : noNans l = true ↔ ∀ x ∈ l, noNan x = true := by
  induction l with
  | nil => simp [noNans]
  | cons a l ih => simp [noNans, ih]

theorem regulars_iff (l : List Obj) : regulars l = true ↔ ∀ x ∈ l, regular x = true := by
  induction l with
  | nil => simp [regulars]
  | cons a l ih => simp [regulars, ih]

theorem areAllAny_iff (as bs : List Obj) :
    Obj.areAllAny as bs = true ↔ ∀ a ∈ as, ∃ b ∈ bs, a.areEqual b = true := by
  induction as with
  | nil => simp [Obj.areAllAny]
  | cons a as ih => simp [Obj.areAllAny, ih, List.any_eq_true]

theorem areAny_iff (as : List Obj) (b : Obj) :
    Obj.areAny as b = true ↔ ∃ a ∈ as, a.areEqual b = true := by
  induction as with
  | nil => simp [Obj.areAny]
  | cons a as ih => simp [Obj.areAny, ih]

/-- Element-wise relation of lists of the same length. -/
def Pairwise2 {α β : Type} (r : α → β → Prop) : List α → List β → Prop
  | [], [] => True
  | a :: as, b :: bs => r a b ∧ Pairwise2 r as bs
  | _, _ => False

theorem areEquals_iff (as bs : List Obj) (h : as.length = bs.length) :
    Obj.areEquals as bs = true ↔ Pairwise2 (fun a b => a.areEqual b = true) as bs := by
  induction as generalizing bs with
  | nil => cases bs with
    | nil => simp [Obj.areEquals, Pairwise2]
    | cons b bs => simp at h
  | cons a as ih => cases bs with
    | nil => simp at h
    | cons b bs => simp [Obj.areEquals, Pairwise2, ih bs (by simpa using h)]

theorem Pairwise2.length {α β : Type} {r : α → β → Prop} {as : List α} {bs : List β}
    (h : Pairwise2 r as bs) : as.length = bs.length := by
  induction as generalizing bs with
  | nil => cases bs with
    | nil => rfl
    | cons b bs => exact h.elim
  | cons a as ih => cases bs with
    | nil => exact h.elim
    | cons b bs => simp [ih h.2]

theorem areEquals_length_iff (as bs : List Obj) :
    (as.length == bs.length) = true ∧ Obj.areEquals as bs = true ↔
      Pairwise2 (fun a b => a.areEqual b = true) as bs := by
  constructor
  · rintro ⟨h1, h2⟩
    exact (areEquals_iff as bs (by simpa using h1)).1 h2
  · intro h
    have := h.length
    exact ⟨by simpa using this, (areEquals_iff as bs this).2 h⟩

theorem Pairwise2.refl {α : Type} {r : α → α → Prop} {as : List α} (h : ∀ a ∈ as, r a a) :
    Pairwise2 r as as := by
  induction as with
  | nil => trivial
  | cons a as ih => exact ⟨h a (by simp), ih (fun x hx => h x (by simp [hx]))⟩

theorem Pairwise2.symm {α : Type} {r : α → α → Prop} {as bs : List α}
    (h : ∀ a ∈ as, ∀ b ∈ bs, r a b → r b a) (hr : Pairwise2 r as bs) : Pairwise2 r bs as := by
  induction as generalizing bs with
  | nil => cases bs with
    | nil => trivial
    | cons b bs => exact hr.elim
  | cons a as ih => cases bs with
    | nil => exact hr.elim
    | cons b bs =>
      exact ⟨h a (by simp) b (by simp) hr.1,
        ih (fun x hx y hy => h x (by simp [hx]) y (by simp [hy])) hr.2⟩

theorem Pairwise2.trans {α : Type} {r : α → α → Prop} {as bs cs : List α}
    (h : ∀ a ∈ as, ∀ b ∈ bs, ∀ c ∈ cs, r a b → r b c → r a c) (h1 : Pairwise2 r as bs)
    (h2 : Pairwise2 r bs cs) : Pairwise2 r as cs := by
  induction as generalizing bs cs with
  | nil => cases bs with
    | nil => exact h2
    | cons b bs => exact h1.elim
  | cons a as ih => cases bs with
    | nil => exact h1.elim
    | cons b bs => cases cs with
      | nil => exact h2.elim
      | cons c cs =>
        exact ⟨h a (by simp) b (by simp) c (by simp) h1.1 h2.1,
          ih (fun x hx y hy z hz => h x (by simp [hx]) y (by simp [hy]) z (by simp [hz])) h1.2 h2.2⟩

theorem Pairwise2.imp {α β : Type} {r s : α → β → Prop} {as : List α} {bs : List β}
    (h : ∀ a ∈ as, ∀ b ∈ bs, r a b → s a b) (hr : Pairwise2 r as bs) : Pairwise2 s as bs := by
  induction as generalizing bs with
  | nil => cases bs with
    | nil => trivial
    | cons b bs => exact hr.elim
  | cons a as ih => cases bs with
    | nil => exact hr.elim
    | cons b bs =>
      exact ⟨h a (by simp) b (by simp) hr.1,
        ih (fun x hx y hy => h x (by simp [hx]) y (by simp [hy])) hr.2⟩

theorem listEq_iff {α : Type} (eq : α → α → Bool) (as bs : List α) :
    listEq eq as bs = true ↔ Pairwise2 (fun a b => eq a b = true) as bs := by
  induction as generalizing bs with
  | nil => cases bs <;> simp [listEq, Pairwise2]
  | cons a as ih => cases bs <;> simp [listEq, Pairwise2, ih]

/-- Both lists cover each other. -/
def Cover (as bs : List Obj) : Prop :=
  (∀ a ∈ as, ∃ b ∈ bs, a.areEqual b = true) ∧ ∀ b ∈ bs, ∃ a ∈ as, a.areEqual b = true

/-- Arguments of two aliases of the same origin. -/
def ArgsRel (o : Origin) (as bs : List Obj) : Prop :=
  as.length = bs.length ∧
    if o = .form unionForm ∨ o = .form literalForm then Cover as bs
    else Pairwise2 (fun a b => a.areEqual b = true) as bs

theorem alias_areEqual (n : Option String) (o : Origin) (as : List Obj) (r : Obj) :
    (Obj.alias n o as).areEqual r = true ↔ r.originOrSelf = some o ∧ ArgsRel o as r.getArgs := by
  rw [Obj.areEqual]
  simp only [Bool.and_eq_true, beq_iff_eq, ArgsRel, and_assoc]
  refine and_congr_right fun _ => and_congr_right fun hl => ?_
  by_cases hu : o = .form unionForm ∨ o = .form literalForm
  · have : ((o == .form unionForm || o == .form literalForm) : Bool) = true := by simpa using hu
    rw [if_pos this, if_pos hu, Bool.and_eq_true, areAllAny_iff, List.all_eq_true]
    simp only [areAny_iff, Cover]
  · have : ¬ ((o == .form unionForm || o == .form literalForm) : Bool) = true := by simpa using hu
    rw [if_neg this, if_neg hu, areEquals_iff _ _ hl]

theorem cls_areEqual (i : Ident) (r : Obj) :
    (Obj.cls i).areEqual r = true ↔ r.originOrSelf = some (.cls i) ∧ r.getArgs = [] := by
  rw [Obj.areEqual]; simp

/-- Classes and subscripted aliases, as origin and arguments. -/
def head? : Obj → Option (Origin × List Obj)
  | .cls i => some (.cls i, [])
  | .alias _ o as => some (o, as)
  | _ => none

theorem argsRel_nil (o : Origin) : ArgsRel o [] [] := by
  refine ⟨rfl, ?_⟩
  split
  · exact ⟨by simp, by simp⟩
  · trivial

theorem head_areEqual {a b : Obj} {o : Origin} {as : List Obj} (ha : head? a = some (o, as))
    (hra : regular a = true) (hrb : regular b = true) :
    a.areEqual b = true ↔ ∃ bs, head? b = some (o, bs) ∧ ArgsRel o as bs := by
  have hne : ∀ i, o = .form i → as ≠ [] := by
    intro i hi
    cases a with
    | cls j => simp [head?] at ha; rw [← ha.1] at hi; simp at hi
    | alias n o' as' =>
      simp only [head?, Option.some.injEq, Prod.mk.injEq] at ha
      obtain ⟨rfl, rfl⟩ := ha
      subst hi
      simp only [regular, Bool.and_eq_true, Bool.not_eq_true', List.isEmpty_eq_false_iff] at hra
      exact hra.2
    | _ => simp [head?] at ha
  have key : a.areEqual b = true ↔ b.originOrSelf = some o ∧ ArgsRel o as b.getArgs := by
    cases a with
    | cls j =>
      simp only [head?, Option.some.injEq, Prod.mk.injEq] at ha
      obtain ⟨rfl, rfl⟩ := ha
      rw [cls_areEqual]
      refine and_congr_right fun _ => ⟨fun h => by rw [h]; exact argsRel_nil _, fun h => ?_⟩
      exact List.eq_nil_of_length_eq_zero h.1.symm
    | alias n o' as' =>
      simp only [head?, Option.some.injEq, Prod.mk.injEq] at ha
      obtain ⟨rfl, rfl⟩ := ha
      exact alias_areEqual _ _ _ _
    | _ => simp [head?] at ha
  rw [key]
  cases b with
  | cls j =>
    simp only [Obj.originOrSelf, Obj.getArgs, head?, Option.some.injEq, Prod.mk.injEq]
    exact ⟨fun h => ⟨_, ⟨h.1, rfl⟩, h.2⟩, fun ⟨_, ⟨h1, h2⟩, h3⟩ => ⟨h1, h2 ▸ h3⟩⟩
  | alias n o' bs' =>
    simp only [Obj.originOrSelf, Obj.getArgs, head?, Option.some.injEq, Prod.mk.injEq]
    exact ⟨fun h => ⟨_, ⟨h.1, rfl⟩, h.2⟩, fun ⟨_, ⟨h1, h2⟩, h3⟩ => ⟨h1, h2 ▸ h3⟩⟩
  | form i =>
    simp only [Obj.originOrSelf, Option.some.injEq, Obj.getArgs, head?, reduceCtorEq, false_and,
      exists_false, iff_false, not_and]
    rintro rfl h
    exact hne i rfl (List.eq_nil_of_length_eq_zero h.1)
  | special => simp [regular] at hrb
  | pep585 => simp [regular] at hrb
  | _ => simp [Obj.originOrSelf, head?]

theorem Atom.eq_refl {a : Atom} (h : noNan (.atom a) = true) : a.eq a = true := by
  cases a <;> simp [Atom.eq, noNan] at *

theorem Atom.eq_symm (a b : Atom) (h : a.eq b = true) : b.eq a = true := by
  cases a <;> cases b <;> simp_all [Atom.eq]

theorem Atom.eq_trans (a b c : Atom) (h : a.eq b = true) (h' : b.eq c = true) :
    a.eq c = true := by
  cases a <;> cases b <;> simp [Atom.eq] at h <;> cases c <;> simp [Atom.eq] at h' ⊢
  case bool.int.bool x i y => subst h; revert h'; cases x <;> cases y <;> simp
  all_goals simp_all

theorem sizeOf_mem {a : Obj} {l : List Obj} (h : a ∈ l) : sizeOf a < sizeOf l :=
  List.sizeOf_lt_of_mem h

theorem head_sizeOf {a : Obj} {o : Origin} {as : List Obj} (h : head? a = some (o, as))
    {x : Obj} (hx : x ∈ as) : sizeOf x < sizeOf a := by
  cases a with
  | cls j => simp [head?] at h; rw [h.2] at hx; simp at hx
  | alias n o' as' =>
    simp only [head?, Option.some.injEq, Prod.mk.injEq] at h
    obtain ⟨rfl, rfl⟩ := h
    have := sizeOf_mem hx
    simp only [Obj.alias.sizeOf_spec]; omega
  | _ => simp [head?] at h

theorem head_regular {a : Obj} {o : Origin} {as : List Obj} (h : head? a = some (o, as))
    (hr : regular a = true) {x : Obj} (hx : x ∈ as) : regular x = true := by
  cases a with
  | cls j => simp [head?] at h; rw [h.2] at hx; simp at hx
  | alias n o' as' =>
    simp only [head?, Option.some.injEq, Prod.mk.injEq] at h
    obtain ⟨rfl, rfl⟩ := h
    simp only [regular, Bool.and_eq_true] at hr
    exact (regulars_iff _).1 hr.1 x hx
  | _ => simp [head?] at h

/-- Symmetry of `are_equal` on regular values. -/
theorem areEqual_symm : ∀ (a b : Obj), regular a = true → regular b = true →
    a.areEqual b = true → b.areEqual a = true := by
  intro a
  induction h : sizeOf a using Nat.strongRecOn generalizing a with
  | ind n ih =>
    subst h
    intro b ha hb hab
    have ihl : ∀ {as bs : List Obj}, (∀ x ∈ as, sizeOf x < sizeOf a ∧ regular x = true) →
        (∀ x ∈ bs, regular x = true) →
        ∀ x ∈ as, ∀ y ∈ bs, x.areEqual y = true → y.areEqual x = true :=
      fun h1 h2 x hx y hy => ih _ (h1 x hx).1 x rfl y (h1 x hx).2 (h2 y hy)
    match hh : head? a with
    | some (o, as) =>
      obtain ⟨bs, hhb, hl, hr⟩ := (head_areEqual hh ha hb).1 hab
      have h1 : ∀ x ∈ as, sizeOf x < sizeOf a ∧ regular x = true :=
        fun x hx => ⟨head_sizeOf hh hx, head_regular hh ha hx⟩
      have h2 : ∀ x ∈ bs, regular x = true := fun x hx => head_regular hhb hb hx
      refine (head_areEqual hhb hb ha).2 ⟨as, hh, hl.symm, ?_⟩
      split at hr <;> rename_i hu
      · rw [if_pos hu]
        refine ⟨fun y hy => ?_, fun x hx => ?_⟩
        · obtain ⟨x, hx, hxy⟩ := hr.2 y hy
          exact ⟨x, hx, ihl h1 h2 x hx y hy hxy⟩
        · obtain ⟨y, hy, hxy⟩ := hr.1 x hx
          exact ⟨y, hy, ihl h1 h2 x hx y hy hxy⟩
      · rw [if_neg hu]
        exact Pairwise2.symm (ihl h1 h2) hr
    | none =>
      cases a with
      | cls j => simp [head?] at hh
      | alias n o as => simp [head?] at hh
      | special => simp [regular] at ha
      | pep585 => simp [regular] at ha
      | atom x =>
        cases b <;> simp [Obj.areEqual, Obj.pyEq] at hab ⊢
        exact Atom.eq_symm _ _ hab
      | form i =>
        cases b <;> simp [Obj.areEqual, Obj.pyEq] at hab ⊢
        exact hab.symm
      | list xs =>
        cases b <;> simp only [Obj.areEqual, Bool.and_eq_true, Bool.false_eq_true] at hab ⊢
        rename_i ys
        rw [areEquals_length_iff] at hab ⊢
        refine Pairwise2.symm (ihl (fun x hx => ⟨?_, ?_⟩) ?_) hab
        · have := sizeOf_mem hx; simp only [Obj.list.sizeOf_spec]; omega
        · exact (regulars_iff _).1 (by simpa [regular] using ha) x hx
        · exact (regulars_iff _).1 (by simpa [regular] using hb)
      | tuple xs =>
        cases b <;> simp only [Obj.areEqual, Bool.and_eq_true, Bool.false_eq_true] at hab ⊢
        rename_i ys
        rw [areEquals_length_iff] at hab ⊢
        refine Pairwise2.symm (ihl (fun x hx => ⟨?_, ?_⟩) ?_) hab
        · have := sizeOf_mem hx; simp only [Obj.tuple.sizeOf_spec]; omega
        · exact (regulars_iff _).1 (by simpa [regular] using ha) x hx
        · exact (regulars_iff _).1 (by simpa [regular] using hb)
      | paramSpec i nm bd c v =>
        cases b <;> simp only [Obj.areEqual, Bool.and_eq_true, Bool.false_eq_true, beq_iff_eq]
          at hab ⊢
        obtain ⟨⟨⟨h1, h2⟩, h3⟩, h4⟩ := hab
        refine ⟨⟨⟨h1.symm, ih _ ?_ bd rfl _ ?_ ?_ h2⟩, h3.symm⟩, h4.symm⟩
        · simp only [Obj.paramSpec.sizeOf_spec]; omega
        · simpa [regular] using ha
        · simpa [regular] using hb
      | paramArgs o =>
        cases b <;> simp only [Obj.areEqual, Bool.false_eq_true] at hab ⊢
        refine ih _ ?_ o rfl _ ?_ ?_ hab
        · simp only [Obj.paramArgs.sizeOf_spec]; omega
        · simpa [regular] using ha
        · simpa [regular] using hb
      | paramKwargs o =>
        cases b <;> simp only [Obj.areEqual, Bool.false_eq_true] at hab ⊢
        refine ih _ ?_ o rfl _ ?_ ?_ hab
        · simp only [Obj.paramKwargs.sizeOf_spec]; omega
        · simpa [regular] using ha
        · simpa [regular] using hb
      | newType i q s =>
        cases b <;> simp only [Obj.areEqual, Bool.and_eq_true, Bool.false_eq_true, beq_iff_eq]
          at hab ⊢
        refine ⟨hab.1.symm, ih _ ?_ s rfl _ ?_ ?_ hab.2⟩
        · simp only [Obj.newType.sizeOf_spec]; omega
        · simpa [regular] using ha
        · simpa [regular] using hb
      | typeVar i nm bd c v cs =>
        cases b <;> simp only [Obj.areEqual, Bool.and_eq_true, Bool.false_eq_true, beq_iff_eq]
          at hab ⊢
        rename_i cs'
        obtain ⟨⟨⟨⟨⟨h1, h2⟩, h3⟩, h4⟩, h5⟩, h6⟩ := hab
        simp only [regular, Bool.and_eq_true] at ha hb
        have h56 := (areEquals_iff _ _ h5).1 h6
        have hs : Pairwise2 (fun a b => a.areEqual b = true) cs' cs := by
          refine Pairwise2.symm (ihl (fun x hx => ⟨?_, ?_⟩) ?_) h56
          · have := sizeOf_mem hx; simp only [Obj.typeVar.sizeOf_spec]; omega
          · exact (regulars_iff _).1 ha.2 x hx
          · exact (regulars_iff _).1 hb.2
        refine ⟨⟨⟨⟨⟨h1.symm, ih _ ?_ bd rfl _ ha.1 hb.1 h2⟩, h3.symm⟩, h4.symm⟩, h5.symm⟩, ?_⟩
        · simp only [Obj.typeVar.sizeOf_spec]; omega
        · exact (areEquals_iff _ _ h5.symm).2 hs

/-- Transitivity of `are_equal` on regular values. -/
theorem areEqual_trans : ∀ (a b c : Obj), regular a = true → regular b = true →
    regular c = true → a.areEqual b = true → b.areEqual c = true → a.areEqual c = true := by
  intro a
  induction h : sizeOf a using Nat.strongRecOn generalizing a with
  | ind n ih =>
    subst h
    intro b c ha hb hc hab hbc
    have ihl : ∀ {as bs cs : List Obj}, (∀ x ∈ as, sizeOf x < sizeOf a ∧ regular x = true) →
        (∀ x ∈ bs, regular x = true) → (∀ x ∈ cs, regular x = true) →
        ∀ x ∈ as, ∀ y ∈ bs, ∀ z ∈ cs, x.areEqual y = true → y.areEqual z = true →
          x.areEqual z = true :=
      fun h1 h2 h3 x hx y hy z hz => ih _ (h1 x hx).1 x rfl y z (h1 x hx).2 (h2 y hy) (h3 z hz)
    match hh : head? a with
    | some (o, as) =>
      obtain ⟨bs, hhb, hl, hr⟩ := (head_areEqual hh ha hb).1 hab
      obtain ⟨cs, hhc, hl', hr'⟩ := (head_areEqual hhb hb hc).1 hbc
      have h1 : ∀ x ∈ as, sizeOf x < sizeOf a ∧ regular x = true :=
        fun x hx => ⟨head_sizeOf hh hx, head_regular hh ha hx⟩
      have h2 : ∀ x ∈ bs, regular x = true := fun x hx => head_regular hhb hb hx
      have h3 : ∀ x ∈ cs, regular x = true := fun x hx => head_regular hhc hc hx
      refine (head_areEqual hh ha hc).2 ⟨cs, hhc, hl.trans hl', ?_⟩
      split at hr <;> rename_i hu
      · rw [if_pos hu] at hr' ⊢
        refine ⟨fun x hx => ?_, fun z hz => ?_⟩
        · obtain ⟨y, hy, hxy⟩ := hr.1 x hx
          obtain ⟨z, hz, hyz⟩ := hr'.1 y hy
          exact ⟨z, hz, ihl h1 h2 h3 x hx y hy z hz hxy hyz⟩
        · obtain ⟨y, hy, hyz⟩ := hr'.2 z hz
          obtain ⟨x, hx, hxy⟩ := hr.2 y hy
          exact ⟨x, hx, ihl h1 h2 h3 x hx y hy z hz hxy hyz⟩
      · rw [if_neg hu] at hr' ⊢
        exact Pairwise2.trans (ihl h1 h2 h3) hr hr'
    | none =>
      cases a with
      | cls j => simp [head?] at hh
      | alias n o as => simp [head?] at hh
      | special => simp [regular] at ha
      | pep585 => simp [regular] at ha
      | atom x =>
        cases b <;> simp [Obj.areEqual, Obj.pyEq] at hab
        cases c <;> simp [Obj.areEqual, Obj.pyEq] at hbc ⊢
        exact Atom.eq_trans _ _ _ hab hbc
      | form i =>
        cases b <;> simp [Obj.areEqual, Obj.pyEq] at hab
        cases c <;> simp [Obj.areEqual, Obj.pyEq] at hbc ⊢
        exact hab.trans hbc
      | list xs =>
        cases b <;> simp only [Obj.areEqual, Bool.and_eq_true, Bool.false_eq_true] at hab
        cases c <;> simp only [Obj.areEqual, Bool.and_eq_true, Bool.false_eq_true] at hbc ⊢
        rw [areEquals_length_iff] at hab hbc ⊢
        refine Pairwise2.trans (ihl (fun x hx => ⟨?_, ?_⟩) ?_ ?_) hab hbc
        · have := sizeOf_mem hx; simp only [Obj.list.sizeOf_spec]; omega
        · exact (regulars_iff _).1 (by simpa [regular] using ha) x hx
        · exact (regulars_iff _).1 (by simpa [regular] using hb)
        · exact (regulars_iff _).1 (by simpa [regular] using hc)
      | tuple xs =>
        cases b <;> simp only [Obj.areEqual, Bool.and_eq_true, Bool.false_eq_true] at hab
        cases c <;> simp only [Obj.areEqual, Bool.and_eq_true, Bool.false_eq_true] at hbc ⊢
        rw [areEquals_length_iff] at hab hbc ⊢
        refine Pairwise2.trans (ihl (fun x hx => ⟨?_, ?_⟩) ?_ ?_) hab hbc
        · have := sizeOf_mem hx; simp only [Obj.tuple.sizeOf_spec]; omega
        · exact (regulars_iff _).1 (by simpa [regular] using ha) x hx
        · exact (regulars_iff _).1 (by simpa [regular] using hb)
        · exact (regulars_iff _).1 (by simpa [regular] using hc)
      | paramSpec i nm bd c' v =>
        cases b <;> simp only [Obj.areEqual, Bool.and_eq_true, Bool.false_eq_true, beq_iff_eq]
          at hab
        cases c <;> simp only [Obj.areEqual, Bool.and_eq_true, Bool.false_eq_true, beq_iff_eq]
          at hbc ⊢
        obtain ⟨⟨⟨h1, h2⟩, h3⟩, h4⟩ := hab
        obtain ⟨⟨⟨g1, g2⟩, g3⟩, g4⟩ := hbc
        refine ⟨⟨⟨h1.trans g1, ih _ ?_ bd rfl _ _ ?_ ?_ ?_ h2 g2⟩, h3.trans g3⟩, h4.trans g4⟩
        · simp only [Obj.paramSpec.sizeOf_spec]; omega
        · simpa [regular] using ha
        · simpa [regular] using hb
        · simpa [regular] using hc
      | paramArgs o =>
        cases b <;> simp only [Obj.areEqual, Bool.false_eq_true] at hab
        cases c <;> simp only [Obj.areEqual, Bool.false_eq_true] at hbc ⊢
        refine ih _ ?_ o rfl _ _ ?_ ?_ ?_ hab hbc
        · simp only [Obj.paramArgs.sizeOf_spec]; omega
        · simpa [regular] using ha
        · simpa [regular] using hb
        · simpa [regular] using hc
      | paramKwargs o =>
        cases b <;> simp only [Obj.areEqual, Bool.false_eq_true] at hab
        cases c <;> simp only [Obj.areEqual, Bool.false_eq_true] at hbc ⊢
        refine ih _ ?_ o rfl _ _ ?_ ?_ ?_ hab hbc
        · simp only [Obj.paramKwargs.sizeOf_spec]; omega
        · simpa [regular] using ha
        · simpa [regular] using hb
        · simpa [regular] using hc
      | newType i q s =>
        cases b <;> simp only [Obj.areEqual, Bool.and_eq_true, Bool.false_eq_true, beq_iff_eq]
          at hab
        cases c <;> simp only [Obj.areEqual, Bool.and_eq_true, Bool.false_eq_true, beq_iff_eq]
          at hbc ⊢
        refine ⟨hab.1.trans hbc.1, ih _ ?_ s rfl _ _ ?_ ?_ ?_ hab.2 hbc.2⟩
        · simp only [Obj.newType.sizeOf_spec]; omega
        · simpa [regular] using ha
        · simpa [regular] using hb
        · simpa [regular] using hc
      | typeVar i nm bd c' v cs =>
        cases b <;> simp only [Obj.areEqual, Bool.and_eq_true, Bool.false_eq_true, beq_iff_eq]
          at hab
        cases c <;> simp only [Obj.areEqual, Bool.and_eq_true, Bool.false_eq_true, beq_iff_eq]
          at hbc ⊢
        obtain ⟨⟨⟨⟨⟨h1, h2⟩, h3⟩, h4⟩, h5⟩, h6⟩ := hab
        obtain ⟨⟨⟨⟨⟨g1, g2⟩, g3⟩, g4⟩, g5⟩, g6⟩ := hbc
        simp only [regular, Bool.and_eq_true] at ha hb hc
        have h56 := (areEquals_iff _ _ h5).1 h6
        have g56 := (areEquals_iff _ _ g5).1 g6
        refine ⟨⟨⟨⟨⟨h1.trans g1, ih _ ?_ bd rfl _ _ ha.1 hb.1 hc.1 h2 g2⟩, h3.trans g3⟩,
          h4.trans g4⟩, h5.trans g5⟩, (areEquals_iff _ _ (h5.trans g5)).2 ?_⟩
        · simp only [Obj.typeVar.sizeOf_spec]; omega
        · refine Pairwise2.trans (ihl (fun x hx => ⟨?_, ?_⟩) ?_ ?_) h56 g56
          · have := sizeOf_mem hx; simp only [Obj.typeVar.sizeOf_spec]; omega
          · exact (regulars_iff _).1 ha.2 x hx
          · exact (regulars_iff _).1 hb.2
          · exact (regulars_iff _).1 hc.2

/-! ### Reflexivity -/

theorem pyEqs_refl {l : List Obj} (h : ∀ x ∈ l, x.pyEq x = true) : Obj.pyEqs l l = true := by
  induction l with
  | nil => simp [Obj.pyEqs]
  | cons a l ih =>
    simp [Obj.pyEqs, h a (by simp), ih (fun x hx => h x (by simp [hx]))]

theorem pyAllAny_iff (as bs : List Obj) : Obj.pyAllAny as bs = true ↔
    ∀ a ∈ as, ∃ b ∈ bs, (Obj.isNanWith a b || a.pyEq b) = true := by
  induction as with
  | nil => simp [Obj.pyAllAny]
  | cons a as ih => simp [Obj.pyAllAny, ih, List.any_eq_true]

theorem pyAny_iff (as : List Obj) (b : Obj) : Obj.pyAny as b = true ↔
    ∃ a ∈ as, (Obj.isNanWith a b || a.pyEq b) = true := by
  induction as with
  | nil => simp [Obj.pyAny]
  | cons a as ih => simp [Obj.pyAny, ih]

theorem pyAllAnyTag_iff (as bs : List Obj) : Obj.pyAllAnyTag as bs = true ↔
    ∀ a ∈ as, ∃ b ∈ bs, a.tag = b.tag ∧ (Obj.isNanWith a b || a.pyEq b) = true := by
  induction as with
  | nil => simp [Obj.pyAllAnyTag]
  | cons a as ih => simp [Obj.pyAllAnyTag, ih, List.any_eq_true]

theorem pyAnyTag_iff (as : List Obj) (b : Obj) : Obj.pyAnyTag as b = true ↔
    ∃ a ∈ as, a.tag = b.tag ∧ (Obj.isNanWith a b || a.pyEq b) = true := by
  induction as with
  | nil => simp [Obj.pyAnyTag]
  | cons a as ih => simp [Obj.pyAnyTag, ih]

theorem pyEq_refl : ∀ a : Obj, noNan a = true → a.pyEq a = true := by
  intro a
  induction h : sizeOf a using Nat.strongRecOn generalizing a with
  | ind n ih =>
    subst h
    intro ha
    cases a with
    | atom x => rw [Obj.pyEq]; exact Atom.eq_refl ha
    | cls i => simp [Obj.pyEq]
    | form i => simp [Obj.pyEq]
    | special i o => simp [Obj.pyEq]
    | alias nm o as =>
      have hx : ∀ x ∈ as, x.pyEq x = true := fun x hx =>
        ih _ (by have := sizeOf_mem hx; simp only [Obj.alias.sizeOf_spec]; omega) x rfl
          ((noNans_iff _).1 (by simpa [noNan] using ha) x hx)
      rw [Obj.pyEq]
      split
      · rw [Bool.and_eq_true, pyAllAny_iff, List.all_eq_true]
        simp only [pyAny_iff]
        exact ⟨fun a h => ⟨a, h, by simp [hx a h]⟩, fun a h => ⟨a, h, by simp [hx a h]⟩⟩
      · split
        · rw [Bool.and_eq_true, pyAllAnyTag_iff, List.all_eq_true]
          simp only [pyAnyTag_iff]
          exact ⟨fun a h => ⟨a, h, rfl, by simp [hx a h]⟩, fun a h => ⟨a, h, rfl, by simp [hx a h]⟩⟩
        · simp [pyEqs_refl hx]
    | pep585 o as =>
      have hx : ∀ x ∈ as, x.pyEq x = true := fun x hx =>
        ih _ (by have := sizeOf_mem hx; simp only [Obj.pep585.sizeOf_spec]; omega) x rfl
          ((noNans_iff _).1 (by simpa [noNan] using ha) x hx)
      simp [Obj.pyEq, pyEqs_refl hx]
    | typeVar => simp [Obj.pyEq]
    | paramSpec => simp [Obj.pyEq]
    | paramArgs o =>
      rw [Obj.pyEq]
      exact ih _ (by simp only [Obj.paramArgs.sizeOf_spec]; omega) o rfl (by simpa [noNan] using ha)
    | paramKwargs o =>
      rw [Obj.pyEq]
      exact ih _ (by simp only [Obj.paramKwargs.sizeOf_spec]; omega) o rfl
        (by simpa [noNan] using ha)
    | newType => simp [Obj.pyEq]
    | list xs =>
      rw [Obj.pyEq]
      exact pyEqs_refl fun x hx =>
        ih _ (by have := sizeOf_mem hx; simp only [Obj.list.sizeOf_spec]; omega) x rfl
          ((noNans_iff _).1 (by simpa [noNan] using ha) x hx)
    | tuple xs =>
      rw [Obj.pyEq]
      exact pyEqs_refl fun x hx =>
        ih _ (by have := sizeOf_mem hx; simp only [Obj.tuple.sizeOf_spec]; omega) x rfl
          ((noNans_iff _).1 (by simpa [noNan] using ha) x hx)

/-- Reflexivity of `are_equal` on values without `nan`. -/
theorem areEqual_refl : ∀ a : Obj, noNan a = true → a.areEqual a = true := by
  intro a
  induction h : sizeOf a using Nat.strongRecOn generalizing a with
  | ind n ih =>
    subst h
    intro ha
    cases a with
    | atom x => rw [Obj.areEqual]; exact pyEq_refl _ ha
    | cls i => rw [cls_areEqual]; exact ⟨rfl, rfl⟩
    | form i => rw [Obj.areEqual]; exact pyEq_refl _ ha
    | special i o => rw [Obj.areEqual]; exact pyEq_refl _ ha
    | pep585 o as => rw [Obj.areEqual]; exact pyEq_refl _ ha
    | alias nm o as =>
      have hx : ∀ x ∈ as, x.areEqual x = true := fun x hx =>
        ih _ (by have := sizeOf_mem hx; simp only [Obj.alias.sizeOf_spec]; omega) x rfl
          ((noNans_iff _).1 (by simpa [noNan] using ha) x hx)
      rw [alias_areEqual]
      refine ⟨rfl, rfl, ?_⟩
      split
      · exact ⟨fun a h => ⟨a, h, hx a h⟩, fun a h => ⟨a, h, hx a h⟩⟩
      · exact Pairwise2.refl hx
    | typeVar i nm b c v cs =>
      simp only [noNan, Bool.and_eq_true] at ha
      have hx : ∀ x ∈ cs, x.areEqual x = true := fun x hx =>
        ih _ (by have := sizeOf_mem hx; simp only [Obj.typeVar.sizeOf_spec]; omega) x rfl
          ((noNans_iff _).1 ha.2 x hx)
      have hb := ih _ (by simp only [Obj.typeVar.sizeOf_spec]; omega) b rfl ha.1
      simp only [Obj.areEqual, BEq.rfl, hb, Bool.and_self, Bool.true_and]
      exact (areEquals_iff _ _ rfl).2 (Pairwise2.refl hx)
    | paramSpec i nm b c v =>
      have hb := ih _ (by simp only [Obj.paramSpec.sizeOf_spec]; omega) b rfl
        (by simpa [noNan] using ha)
      simp [Obj.areEqual, hb]
    | paramArgs o =>
      rw [Obj.areEqual]
      exact ih _ (by simp only [Obj.paramArgs.sizeOf_spec]; omega) o rfl (by simpa [noNan] using ha)
    | paramKwargs o =>
      rw [Obj.areEqual]
      exact ih _ (by simp only [Obj.paramKwargs.sizeOf_spec]; omega) o rfl
        (by simpa [noNan] using ha)
    | newType i q s =>
      have hb := ih _ (by simp only [Obj.newType.sizeOf_spec]; omega) s rfl
        (by simpa [noNan] using ha)
      simp [Obj.areEqual, hb]
    | list xs =>
      rw [Obj.areEqual, Bool.and_eq_true, areEquals_length_iff]
      exact Pairwise2.refl fun x hx =>
        ih _ (by have := sizeOf_mem hx; simp only [Obj.list.sizeOf_spec]; omega) x rfl
          ((noNans_iff _).1 (by simpa [noNan] using ha) x hx)
    | tuple xs =>
      rw [Obj.areEqual, Bool.and_eq_true, areEquals_length_iff]
      exact Pairwise2.refl fun x hx =>
        ih _ (by have := sizeOf_mem hx; simp only [Obj.tuple.sizeOf_spec]; omega) x rfl
          ((noNans_iff _).1 (by simpa [noNan] using ha) x hx)

/-! ### Parameters and signatures -/

theorem paramAll_iff (f : Obj → Bool) (p : Param) : paramAll f p = true ↔
    f p.annotation = true ∧ ∀ d, p.default? = some d → f d = true := by
  unfold paramAll
  cases p.default? <;> simp

theorem Param.eq_iff (p q : Param) : p.eq q = true ↔
    p.isOptional = q.isOptional ∧ p.name = q.name ∧ p.kind = q.kind ∧
    (match p.default?, q.default? with
      | none, none => True
      | some x, some y => x.areEqual y = true
      | _, _ => False) ∧
    p.annotation.areEqual q.annotation = true := by
  cases p with
  | required a k n =>
    cases q with
    | required a' k' n' =>
      simp [Param.eq, Param.isOptional, Param.name, Param.kind, Param.default?, Param.annotation,
        and_assoc]
    | optional a' d' k' n' => simp [Param.eq, Param.isOptional]
  | optional a d k n =>
    cases q with
    | required a' k' n' => simp [Param.eq, Param.isOptional]
    | optional a' d' k' n' =>
      cases d <;> cases d' <;>
      simp [Param.eq, Param.isOptional, Param.name, Param.kind, Param.default?, Param.annotation,
        and_assoc]

theorem Param.eq_refl (p : Param) (h : paramAll noNan p = true) : p.eq p = true := by
  rw [paramAll_iff] at h
  rw [Param.eq_iff]
  refine ⟨rfl, rfl, rfl, ?_, areEqual_refl _ h.1⟩
  cases hd : p.default? with
  | none => trivial
  | some d => exact areEqual_refl _ (h.2 d hd)

theorem Param.eq_symm (p q : Param) (hp : paramAll regular p = true)
    (hq : paramAll regular q = true) (h : p.eq q = true) : q.eq p = true := by
  rw [paramAll_iff] at hp hq
  rw [Param.eq_iff] at h ⊢
  obtain ⟨h1, h2, h3, h4, h5⟩ := h
  refine ⟨h1.symm, h2.symm, h3.symm, ?_, areEqual_symm _ _ hp.1 hq.1 h5⟩
  cases hd : p.default? with
  | none => cases hd' : q.default? <;> simp_all
  | some d =>
    cases hd' : q.default? with
    | none => simp_all
    | some d' =>
      rw [hd, hd'] at h4
      exact areEqual_symm _ _ (hp.2 d hd) (hq.2 d' hd') h4

theorem Param.eq_trans (p q r : Param) (hp : paramAll regular p = true)
    (hq : paramAll regular q = true) (hr : paramAll regular r = true)
    (h : p.eq q = true) (h' : q.eq r = true) : p.eq r = true := by
  rw [paramAll_iff] at hp hq hr
  rw [Param.eq_iff] at h h' ⊢
  obtain ⟨h1, h2, h3, h4, h5⟩ := h
  obtain ⟨g1, g2, g3, g4, g5⟩ := h'
  refine ⟨h1.trans g1, h2.trans g2, h3.trans g3, ?_, areEqual_trans _ _ _ hp.1 hq.1 hr.1 h5 g5⟩
  cases hd : p.default? with
  | none => cases hd' : q.default? <;> cases hd'' : r.default? <;> simp_all
  | some d =>
    cases hd' : q.default? with
    | none => simp_all
    | some d' =>
      cases hd'' : r.default? with
      | none => simp_all
      | some d'' =>
        rw [hd, hd'] at h4
        rw [hd', hd''] at g4
        exact areEqual_trans _ _ _ (hp.2 d hd) (hq.2 d' hd') (hr.2 d'' hd'') h4 g4

theorem plainAll_iff (f : Obj → Bool) (s : PlainSig) : plainAll f s = true ↔
    (∀ p ∈ s.parameters, paramAll f p = true) ∧ f s.returns = true := by
  simp [plainAll]

theorem PlainSig.eq_iff (s t : PlainSig) : s.eq t = true ↔
    Pairwise2 (fun p q => Param.eq p q = true) s.parameters t.parameters ∧
    s.returns.areEqual t.returns = true := by
  simp [PlainSig.eq, listEq_iff]

theorem PlainSig.eq_refl (s : PlainSig) (h : plainAll noNan s = true) : s.eq s = true := by
  rw [plainAll_iff] at h
  rw [PlainSig.eq_iff]
  exact ⟨Pairwise2.refl fun p hp => Param.eq_refl p (h.1 p hp), areEqual_refl _ h.2⟩

theorem PlainSig.eq_symm (s t : PlainSig) (hs : plainAll regular s = true)
    (ht : plainAll regular t = true) (h : s.eq t = true) : t.eq s = true := by
  rw [plainAll_iff] at hs ht
  rw [PlainSig.eq_iff] at h ⊢
  exact ⟨Pairwise2.symm (fun p hp q hq => Param.eq_symm p q (hs.1 p hp) (ht.1 q hq)) h.1,
    areEqual_symm _ _ hs.2 ht.2 h.2⟩

theorem PlainSig.eq_trans (s t u : PlainSig) (hs : plainAll regular s = true)
    (ht : plainAll regular t = true) (hu : plainAll regular u = true)
    (h : s.eq t = true) (h' : t.eq u = true) : s.eq u = true := by
  rw [plainAll_iff] at hs ht hu
  rw [PlainSig.eq_iff] at h h' ⊢
  exact ⟨Pairwise2.trans (fun p hp q hq r hr => Param.eq_trans p q r (hs.1 p hp) (ht.1 q hq) (hu.1 r hr))
    h.1 h'.1, areEqual_trans _ _ _ hs.2 ht.2 hu.2 h.2 h'.2⟩

end Paradigm
