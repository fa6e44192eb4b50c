import Verif.Lemmas.Equality
import Verif.Model.Hashing

namespace Paradigm

open Spec

theorem hashRegulars_iff (l : List Obj) :
    hashRegulars l = true ↔ ∀ x ∈ l, hashRegular x = true := by
  induction l with
  | nil => simp [hashRegulars]
  | cons a l ih => simp [hashRegulars, ih]

theorem hashRegular_regular : ∀ a : Obj, hashRegular a = true → regular a = true := by
  intro a
  induction h : sizeOf a using Nat.strongRecOn generalizing a with
  | ind n ih =>
    subst h
    intro ha
    cases a with
    | atom x => cases x <;> simp_all [hashRegular, regular]
    | cls i => simp [regular]
    | form i => simp [regular]
    | alias nm o as =>
      simp only [hashRegular, Bool.and_eq_true, Bool.not_eq_true'] at ha
      have : regulars as = true := (regulars_iff _).2 fun x hx =>
        ih _ (by have := sizeOf_mem hx; simp only [Obj.alias.sizeOf_spec]; omega) x rfl
          ((hashRegulars_iff _).1 ha.1.1 x hx)
      cases o <;> simp [regular, this, ha.1.2]
    | paramArgs o =>
      exact ih _ (by simp only [Obj.paramArgs.sizeOf_spec]; omega) o rfl
        (by simpa [hashRegular] using ha)
    | paramKwargs o =>
      exact ih _ (by simp only [Obj.paramKwargs.sizeOf_spec]; omega) o rfl
        (by simpa [hashRegular] using ha)
    | list xs =>
      have : regulars xs = true := (regulars_iff _).2 fun x hx =>
        ih _ (by have := sizeOf_mem hx; simp only [Obj.list.sizeOf_spec]; omega) x rfl
          ((hashRegulars_iff _).1 (by simpa [hashRegular] using ha) x hx)
      simpa [regular] using this
    | tuple xs =>
      have : regulars xs = true := (regulars_iff _).2 fun x hx =>
        ih _ (by have := sizeOf_mem hx; simp only [Obj.tuple.sizeOf_spec]; omega) x rfl
          ((hashRegulars_iff _).1 (by simpa [hashRegular] using ha) x hx)
      simpa [regular] using this
    | _ => simp [hashRegular] at ha

theorem Pairwise2.pyEqs {as bs : List Obj} (h : Pairwise2 (fun a b => Obj.pyEq a b = true) as bs) :
    Obj.pyEqs as bs = true := by
  induction as generalizing bs with
  | nil => cases bs with
    | nil => simp [Obj.pyEqs]
    | cons b bs => exact h.elim
  | cons a as ih => cases bs with
    | nil => exact h.elim
    | cons b bs => simp [Obj.pyEqs, h.1, ih h.2]

theorem tag_of_pyEq {a b : Obj} (ha : notBool a = true) (hb : notBool b = true)
    (h : a.pyEq b = true) : a.tag = b.tag := by
  cases a <;> cases b <;> simp [Obj.pyEq, Obj.tag] at h ⊢
  rename_i x y
  cases x <;> cases y <;> simp_all [Atom.eq, Atom.tag, notBool]

/-- `are_equal` implies `==` on hash-regular values. -/
theorem pyEq_of_areEqual : ∀ (a b : Obj), hashRegular a = true → hashRegular b = true →
    a.areEqual b = true → a.pyEq b = true := by
  intro a
  induction h : sizeOf a using Nat.strongRecOn generalizing a with
  | ind n ih =>
    subst h
    intro b ha hb hab
    have ihl : ∀ {as bs : List Obj}, (∀ x ∈ as, sizeOf x < sizeOf a) → hashRegulars as = true →
        hashRegulars bs = true →
        ∀ x ∈ as, ∀ y ∈ bs, x.areEqual y = true → x.pyEq y = true :=
      fun h1 h2 h3 x hx y hy => ih _ (h1 x hx) x rfl y ((hashRegulars_iff _).1 h2 x hx)
        ((hashRegulars_iff _).1 h3 y hy)
    cases a with
    | atom x => rwa [Obj.areEqual] at hab
    | form i => rwa [Obj.areEqual] at hab
    | cls i =>
      obtain ⟨bs, hhb, hl, _⟩ := (head_areEqual (a := .cls i) rfl (hashRegular_regular _ ha)
        (hashRegular_regular _ hb)).1 hab
      cases b with
      | cls j => simp [head?] at hhb; simp [Obj.pyEq, hhb.1]
      | alias nm o as =>
        simp only [head?, Option.some.injEq, Prod.mk.injEq] at hhb
        simp only [hashRegular, Bool.and_eq_true, Bool.not_eq_true',
          List.isEmpty_eq_false_iff] at hb
        refine absurd ?_ hb.1.2
        exact List.eq_nil_of_length_eq_zero (by rw [hhb.2, ← hl]; rfl)
      | _ => simp [head?] at hhb
    | alias nm o as =>
      obtain ⟨bs, hhb, hl, hr⟩ := (head_areEqual (a := .alias nm o as) rfl
        (hashRegular_regular _ ha) (hashRegular_regular _ hb)).1 hab
      cases b with
      | cls j =>
        simp only [head?, Option.some.injEq, Prod.mk.injEq] at hhb
        simp only [hashRegular, Bool.and_eq_true, Bool.not_eq_true',
          List.isEmpty_eq_false_iff] at ha
        refine absurd ?_ ha.1.2
        exact List.eq_nil_of_length_eq_zero (by rw [hl, ← hhb.2]; rfl)
      | alias nm' o' bs' =>
        simp only [head?, Option.some.injEq, Prod.mk.injEq] at hhb
        obtain ⟨rfl, rfl⟩ := hhb
        simp only [hashRegular, Bool.and_eq_true, Bool.not_eq_true'] at ha hb
        have hP := ihl (as := as) (bs := bs') (fun x hx => by
          have := sizeOf_mem hx; simp only [Obj.alias.sizeOf_spec]; omega) ha.1.1 hb.1.1
        rw [Obj.pyEq]
        by_cases hu : o'.isUnionLike = true
        · rw [if_pos (by simp [hu]), Bool.and_eq_true, pyAllAny_iff, List.all_eq_true]
          simp only [pyAny_iff]
          split at hr
          · exact ⟨fun x hx => by
              obtain ⟨y, hy, hxy⟩ := hr.1 x hx
              exact ⟨y, hy, by simp [hP x hx y hy hxy]⟩, fun y hy => by
              obtain ⟨x, hx, hxy⟩ := hr.2 y hy
              exact ⟨x, hx, by simp [hP x hx y hy hxy]⟩⟩
          · -- element-wise equality is in particular equality as sets
            have hr' := Pairwise2.imp hP hr
            clear hr hP hl ha hb hab ihl ih
            induction as generalizing bs' with
            | nil => cases bs' with
              | nil => simp
              | cons y ys => exact hr'.elim
            | cons x xs ihx => cases bs' with
              | nil => exact hr'.elim
              | cons y ys =>
                obtain ⟨h1, h2⟩ := ihx ys hr'.2
                refine ⟨fun a ha => ?_, fun b hb => ?_⟩
                · rcases List.mem_cons.1 ha with rfl | ha
                  · exact ⟨y, by simp, by simp [hr'.1]⟩
                  · obtain ⟨b, hb, h⟩ := h1 a ha
                    exact ⟨b, by simp [hb], h⟩
                · rcases List.mem_cons.1 hb with rfl | hb
                  · exact ⟨x, by simp, by simp [hr'.1]⟩
                  · obtain ⟨a, ha, h⟩ := h2 b hb
                    exact ⟨a, by simp [ha], h⟩
        · rw [if_neg (by simp [hu])]
          by_cases hlit : o' = .form literalForm
          · rw [if_pos (by simp [hlit]), Bool.and_eq_true, pyAllAnyTag_iff, List.all_eq_true]
            simp only [pyAnyTag_iff]
            rw [if_pos (.inr hlit)] at hr
            have hna : ∀ x ∈ as, notBool x = true := by
              have := ha.2; rw [if_pos (by simp [hlit])] at this
              exact List.all_eq_true.1 this
            have hnb : ∀ x ∈ bs', notBool x = true := by
              have := hb.2; rw [if_pos (by simp [hlit])] at this
              exact List.all_eq_true.1 this
            refine ⟨fun x hx => ?_, fun y hy => ?_⟩
            · obtain ⟨y, hy, hxy⟩ := hr.1 x hx
              have h1 := hP x hx y hy hxy
              exact ⟨y, hy, tag_of_pyEq (hna x hx) (hnb y hy) h1, by simp [h1]⟩
            · obtain ⟨x, hx, hxy⟩ := hr.2 y hy
              have h1 := hP x hx y hy hxy
              exact ⟨x, hx, tag_of_pyEq (hna x hx) (hnb y hy) h1, by simp [h1]⟩
          · rw [if_neg (by simp [hlit])]
            have hnu : ¬ (o' = .form unionForm ∨ o' = .form literalForm) := by
              rintro (h | h)
              · rw [h] at hu; simp [Origin.isUnionLike] at hu
              · exact hlit h
            rw [if_neg hnu] at hr
            simp [(Pairwise2.imp hP hr).pyEqs]
      | _ => simp [head?] at hhb
    | paramArgs o =>
      cases b <;> simp only [Obj.areEqual, Bool.false_eq_true] at hab
      rw [Obj.pyEq]
      exact ih _ (by simp only [Obj.paramArgs.sizeOf_spec]; omega) o rfl _
        (by simpa [hashRegular] using ha) (by simpa [hashRegular] using hb) hab
    | paramKwargs o =>
      cases b <;> simp only [Obj.areEqual, Bool.false_eq_true] at hab
      rw [Obj.pyEq]
      exact ih _ (by simp only [Obj.paramKwargs.sizeOf_spec]; omega) o rfl _
        (by simpa [hashRegular] using ha) (by simpa [hashRegular] using hb) hab
    | list xs =>
      cases b <;> simp only [Obj.areEqual, Bool.and_eq_true, Bool.false_eq_true] at hab
      rw [areEquals_length_iff] at hab
      rw [Obj.pyEq]
      exact (Pairwise2.imp (ihl (fun x hx => by
        have := sizeOf_mem hx; simp only [Obj.list.sizeOf_spec]; omega)
        (by simpa [hashRegular] using ha) (by simpa [hashRegular] using hb)) hab).pyEqs
    | tuple xs =>
      cases b <;> simp only [Obj.areEqual, Bool.and_eq_true, Bool.false_eq_true] at hab
      rw [areEquals_length_iff] at hab
      rw [Obj.pyEq]
      exact (Pairwise2.imp (ihl (fun x hx => by
        have := sizeOf_mem hx; simp only [Obj.tuple.sizeOf_spec]; omega)
        (by simpa [hashRegular] using ha) (by simpa [hashRegular] using hb)) hab).pyEqs
    | _ => simp [hashRegular] at ha

theorem Pairwise2.nil {α β : Type} {r : α → β → Prop} : Pairwise2 r [] [] := trivial

theorem Pairwise2.cons {α β : Type} {r : α → β → Prop} {a : α} {b : β} {as : List α} {bs : List β}
    (h : r a b) (hs : Pairwise2 r as bs) : Pairwise2 r (a :: as) (b :: bs) := ⟨h, hs⟩

/-! ### Hashes -/

theorem ofTuple_congr (H : PyHash) (l l' : List (Option Nat)) (x y : Nat)
    (hl : Pairwise2 (fun a b => ∀ u v, a = some u → b = some v → u = v) l l')
    (hx : H.ofTuple l = some x) (hy : H.ofTuple l' = some y) : x = y := by
  simp only [PyHash.ofTuple, Option.map_eq_some_iff] at hx hy
  obtain ⟨u, hu, rfl⟩ := hx
  obtain ⟨v, hv, rfl⟩ := hy
  have : u = v := by
    induction l generalizing l' u v with
    | nil => cases l' with
      | nil => rw [hu] at hv; exact Option.some.inj hv
      | cons b l' => exact hl.elim
    | cons a l ih => cases l' with
      | nil => exact hl.elim
      | cons b l' =>
        rw [List.mapM_cons] at hu hv
        cases a with
        | none => simp at hu
        | some a => cases b with
          | none => simp at hv
          | some b =>
            cases hm : l.mapM id with
            | none => simp [hm] at hu
            | some us => cases hm' : l'.mapM id with
              | none => simp [hm'] at hv
              | some vs =>
                simp [hm] at hu
                simp [hm'] at hv
                rw [← hu, ← hv, ih l' hl.2 us hm vs hm', hl.1 a b rfl rfl]
  rw [this]

theorem obj_hash_eq (H : PyHash) {a b : Obj} (ha : hashRegular a = true)
    (hb : hashRegular b = true) (h : a.areEqual b = true) :
    ∀ u v, H.obj a = some u → H.obj b = some v → u = v :=
  fun u v => H.obj_eq a b u v (pyEq_of_areEqual a b ha hb h)

theorem param_hash_eq (H : PyHash) {p q : Param} (hp : paramAll hashRegular p = true)
    (hq : paramAll hashRegular q = true) (h : p.eq q = true) :
    ∀ u v, H.param p = some u → H.param q = some v → u = v := by
  intro u v hu hv
  rw [paramAll_iff] at hp hq
  rw [Param.eq_iff] at h
  obtain ⟨h1, h2, h3, h4, h5⟩ := h
  have same : ∀ x : Nat, ∀ u v, some x = some u → some x = some v → u = v := by
    intro x u v h1 h2; cases h1; cases h2; rfl
  have ha := obj_hash_eq H hp.1 hq.1 h5
  cases p with
  | required a k n =>
    cases q with
    | required a' k' n' =>
      simp only [Param.name, Param.kind] at h2 h3
      subst h2 h3
      exact ofTuple_congr H _ _ u v (Pairwise2.cons ha (Pairwise2.cons (same _) (Pairwise2.cons (same _) Pairwise2.nil)))
        hu hv
    | optional a' d' k' n' => simp [Param.isOptional] at h1
  | optional a d k n =>
    cases q with
    | required a' k' n' => simp [Param.isOptional] at h1
    | optional a' d' k' n' =>
      simp only [Param.name, Param.kind] at h2 h3
      subst h2 h3
      cases d with
      | none => cases d' with
        | none =>
          exact ofTuple_congr H _ _ u v (Pairwise2.cons ha
            (Pairwise2.cons (same _) (Pairwise2.cons (same _) Pairwise2.nil))) hu hv
        | some d' => exact h4.elim
      | some d => cases d' with
        | none => exact h4.elim
        | some d' =>
          exact ofTuple_congr H _ _ u v (Pairwise2.cons ha (Pairwise2.cons
            (obj_hash_eq H (hp.2 d rfl) (hq.2 d' rfl) h4)
            (Pairwise2.cons (same _) (Pairwise2.cons (same _) Pairwise2.nil)))) hu hv

theorem Pairwise2.map {α β γ δ : Type} {r : α → β → Prop} {s : γ → δ → Prop} {f : α → γ} {g : β → δ}
    {as : List α} {bs : List β} (h : ∀ a ∈ as, ∀ b ∈ bs, r a b → s (f a) (g b))
    (hr : Pairwise2 r as bs) : Pairwise2 s (as.map f) (bs.map g) := by
  induction as generalizing bs with
  | nil => cases bs with
    | nil => trivial
    | cons b bs => exact hr.elim
  | cons a as ih => cases bs with
    | nil => exact hr.elim
    | cons b bs =>
      exact ⟨h a (by simp) b (by simp) hr.1,
        ih (fun x hx y hy => h x (by simp [hx]) y (by simp [hy])) hr.2⟩

theorem plain_hash_eq (H : PyHash) {s t : PlainSig} (hs : plainAll hashRegular s = true)
    (ht : plainAll hashRegular t = true) (h : s.eq t = true) :
    ∀ u v, H.plain s = some u → H.plain t = some v → u = v := by
  intro u v hu hv
  rw [plainAll_iff] at hs ht
  rw [PlainSig.eq_iff] at h
  refine ofTuple_congr H _ _ u v (Pairwise2.cons ?_ (Pairwise2.cons (obj_hash_eq H hs.2 ht.2 h.2) Pairwise2.nil))
    hu hv
  intro x y hx hy
  exact ofTuple_congr H _ _ x y (Pairwise2.map (fun p hp q hq he => param_hash_eq H (hs.1 p hp)
    (ht.1 q hq) he) h.1) hx hy

end Paradigm
