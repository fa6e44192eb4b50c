import Verif.Spec.Execution

/-!
# Lemmas about calls in several threads
-/

namespace Paradigm

open Spec

/-- What holds while calls do not overlap. -/
structure Restorable (start : Option ObjectId) (m : Machine) : Prop where
  saved : ∀ i s, m.phase i = .saved s → s = start
  replaced : ∀ i s, m.phase i = .replaced s → s = start ∧ m.main ≠ none
  ended : ∀ i s r, m.phase i = .ended s r → s = start ∧ m.main ≠ none ∧ r ≠ .keyError
  untouched : (∀ i s r, m.phase i ≠ .replaced s ∧ m.phase i ≠ .ended s r) → m.main = start
  noKeyError : ∀ i, m.phase i ≠ .done .keyError

theorem move_self (m : Machine) (i : Nat) (main : Option ObjectId) (p : Phase) :
    (m.move i main p).phase i = p := if_pos rfl

theorem move_ne (m : Machine) {i j : Nat} (main : Option ObjectId) (p : Phase) (h : j ≠ i) :
    (m.move i main p).phase j = m.phase j := if_neg h

/-- If thread `i` moves, the others are inactive. -/
theorem others_inactive {m : Machine} (hm : Machine.Exclusive m) {i : Nat}
    (hi : (m.phase i).active = true) (j : Nat) (hj : j ≠ i) : (m.phase j).active = false := by
  cases h : (m.phase j).active with
  | false => rfl
  | true => exact absurd (hm j i h hi) hj

theorem restorable_move {start : Option ObjectId} {m : Machine} (h : Restorable start m)
    (hm : Machine.Exclusive m) {i : Nat} {main : Option ObjectId} {p : Phase}
    (hi : (m.phase i).active = true)
    (hs : ∀ s, p = .saved s → s = start) (hr : ∀ s, p = .replaced s → s = start ∧ main ≠ none)
    (he : ∀ s r, p = .ended s r → s = start ∧ main ≠ none ∧ r ≠ .keyError)
    (hu : (∀ s r, p ≠ .replaced s ∧ p ≠ .ended s r) → main = start)
    (hk : p ≠ .done .keyError) : Restorable start (m.move i main p) := by
  have other : ∀ j, j ≠ i → ((m.move i main p).phase j).active = false := fun j hj => by
    rw [move_ne m main p hj]; exact others_inactive hm hi j hj
  refine ⟨fun j s e => ?_, fun j s e => ?_, fun j s r e => ?_, fun e => ?_, fun j e => ?_⟩
  · by_cases hj : j = i
    · subst hj; rw [move_self] at e; exact hs s e
    · have := other j hj; rw [e] at this; cases this
  · by_cases hj : j = i
    · subst hj; rw [move_self] at e; exact hr s e
    · have := other j hj; rw [e] at this; cases this
  · by_cases hj : j = i
    · subst hj; rw [move_self] at e; exact he s r e
    · have := other j hj; rw [e] at this; cases this
  · exact hu fun s r => by have := e i s r; rwa [move_self] at this
  · by_cases hj : j = i
    · subst hj; rw [move_self] at e; exact hk e
    · rw [move_ne m main p hj] at e; exact h.noKeyError j e

theorem restorable_step {caller : Nat → Option ObjectId} {lock : Nat → Nat} {start : Option ObjectId}
    {m m' : Machine} (hm : Machine.Exclusive m) (hm' : Machine.Exclusive m')
    (h : Restorable start m) (hs : CallStep caller lock m m') : Restorable start m' := by
  cases hs with
  | @acquire i hi hl =>
    have quiet : ∀ j, (m.phase j).active = false := by
      intro j
      by_cases hj : j = i
      · rw [hj, hi]; rfl
      · have h1 := others_inactive hm' (i := i) (by rw [move_self]; rfl) j hj
        rwa [move_ne m _ _ hj] at h1
    have hmain : m.main = start := h.untouched fun j s r =>
      ⟨fun e => (by have := quiet j; rw [e] at this; cases this),
       fun e => (by have := quiet j; rw [e] at this; cases this)⟩
    refine ⟨fun j s e => ?_, fun j s e => ?_, fun j s r e => ?_, fun _ => hmain, fun j e => ?_⟩
    all_goals
      by_cases hj : j = i
      · subst hj; rw [move_self] at e; cases e
      · rw [move_ne m _ _ hj] at e
        first
          | exact h.noKeyError j e
          | (have := quiet j; rw [e] at this; cases this)
  | @unknownCaller i hi hc =>
    have hmain : m.main = start := h.untouched fun j s r => by
      by_cases hj : j = i
      · rw [hj, hi]; exact ⟨fun e => (by cases e), fun e => (by cases e)⟩
      · have := others_inactive hm (i := i) (by rw [hi]; rfl) j hj
        exact ⟨fun e => (by rw [e] at this; cases this), fun e => (by rw [e] at this; cases this)⟩
    exact restorable_move h hm (by rw [hi]; rfl) (fun _ e => by cases e) (fun _ e => by cases e)
      (fun _ _ e => by cases e) (fun _ => hmain) (fun e => by cases e)
  | @save i c hi hc =>
    have hmain : m.main = start := h.untouched fun j s r => by
      by_cases hj : j = i
      · rw [hj, hi]; exact ⟨fun e => (by cases e), fun e => (by cases e)⟩
      · have := others_inactive hm (i := i) (by rw [hi]; rfl) j hj
        exact ⟨fun e => (by rw [e] at this; cases this), fun e => (by rw [e] at this; cases this)⟩
    exact restorable_move h hm (by rw [hi]; rfl) (fun _ e => by cases e; exact hmain)
      (fun _ e => by cases e) (fun _ _ e => by cases e) (fun _ => hmain) (fun e => by cases e)
  | @replace i c s hi hc =>
    exact restorable_move h hm (by rw [hi]; rfl) (fun _ e => by cases e)
      (fun _ e => by cases e; exact ⟨h.saved i s hi, by simp⟩) (fun _ _ e => by cases e)
      (fun e => absurd rfl (e s .returned).1) (fun e => by cases e)
  | @body i s r hi hr =>
    exact restorable_move h hm (by rw [hi]; rfl) (fun _ e => by cases e) (fun _ e => by cases e)
      (fun _ _ e => by cases e; exact ⟨(h.replaced i s hi).1, (h.replaced i s hi).2, by rcases hr with rfl | rfl <;> simp⟩)
      (fun e => absurd rfl (e s r).2)
      (fun e => by cases e)
  | @restore i s r hi =>
    refine restorable_move h hm (by rw [hi]; rfl) (fun _ e => by cases e) (fun _ e => by cases e)
      (fun _ _ e => by cases e) (fun _ => (h.ended i _ r hi).1) (fun e => ?_)
    cases e
    exact (h.ended i _ _ hi).2.2 rfl
  | @delete i r hi hn =>
    refine restorable_move h hm (by rw [hi]; rfl) (fun _ e => by cases e) (fun _ e => by cases e)
      (fun _ _ e => by cases e) (fun _ => (h.ended i _ r hi).1) (fun e => ?_)
    cases e
    exact (h.ended i _ _ hi).2.2 rfl
  | @deleteFails i r hi hn => exact absurd hn (h.ended i _ r hi).2.1

theorem restorable_fresh {m : Machine} (h : Machine.Fresh m) : Restorable m.main m := by
  refine ⟨fun i s e => ?_, fun i s e => ?_, fun i s r e => ?_, fun _ => rfl, fun i e => ?_⟩
  all_goals rw [h i] at e; cases e

theorem exclusive_fresh {m : Machine} (h : Machine.Fresh m) : Machine.Exclusive m := by
  intro i j hi
  rw [h i] at hi
  cases hi

theorem restorable_runs {caller : Nat → Option ObjectId} {lock : Nat → Nat} {m m' : Machine}
    (hm : Machine.Fresh m)
    (hr : Runs (fun a b => CallStep caller lock a b ∧ Machine.Exclusive b) m m') :
    Machine.Exclusive m' ∧ Restorable m.main m' := by
  induction hr with
  | refl => exact ⟨exclusive_fresh hm, restorable_fresh hm⟩
  | step _ hs ih => exact ⟨hs.2, restorable_step ih.1 hs.2 ih.2 hs.1⟩

/-- With one lock for all calls, no two calls are going on. -/
theorem exclusive_step {caller : Nat → Option ObjectId} {lock : Nat → Nat}
    (hl : ∀ i j, lock i = lock j) {m m' : Machine} (hm : Machine.Exclusive m)
    (hs : CallStep caller lock m m') : Machine.Exclusive m' := by
  have key : ∀ (i : Nat) (main : Option ObjectId) (p : Phase), (∀ j, j ≠ i → (m.phase j).active = false) →
      Machine.Exclusive (m.move i main p) := by
    intro i main p h
    have only : ∀ j, ((m.move i main p).phase j).active = true → j = i := by
      intro j hj
      by_cases e : j = i
      · exact e
      · rw [move_ne m main p e, h j e] at hj; cases hj
    intro j k hj hk
    rw [only j hj, only k hk]
  cases hs with
  | @acquire i _ h => exact key i _ _ fun j _ => h j (hl j i)
  | @unknownCaller i h => exact key i _ _ (others_inactive hm (by rw [h]; rfl))
  | @save i _ h => exact key i _ _ (others_inactive hm (by rw [h]; rfl))
  | @replace i _ _ h => exact key i _ _ (others_inactive hm (by rw [h]; rfl))
  | @body i _ _ h => exact key i _ _ (others_inactive hm (by rw [h]; rfl))
  | @restore i _ _ h => exact key i _ _ (others_inactive hm (by rw [h]; rfl))
  | @delete i _ h => exact key i _ _ (others_inactive hm (by rw [h]; rfl))
  | @deleteFails i _ h => exact key i _ _ (others_inactive hm (by rw [h]; rfl))

end Paradigm
