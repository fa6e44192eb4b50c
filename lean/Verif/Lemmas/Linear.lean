import Verif.Spec.Linear
import Verif.Lemmas.Star

/-!
# Lemmas on method resolution orders
-/

namespace Paradigm

open Spec

/-! ### Merging -/

theorem dropHead_sublist (h : QPath) (l : List QPath) : (dropHead h l).Sublist l := by
  cases l with
  | nil => exact .slnil
  | cons x xs =>
    rw [dropHead]
    split
    · exact List.sublist_cons_self _ _
    · exact .refl _

theorem _root_.Paradigm.Spec.Merge.mem {ls : List (List QPath)} {r : List QPath} (hm : Merge ls r) :
    ∀ x ∈ r, ∃ l ∈ ls, x ∈ l := by
  induction hm with
  | done _ => intro x hx; cases hx
  | step blocked free next ih =>
    intro x hx
    rcases List.mem_cons.1 hx with rfl | hx
    · exact ⟨_, List.mem_append_right _ List.mem_cons_self, List.mem_cons_self⟩
    · obtain ⟨l, hl, hxl⟩ := ih x hx
      obtain ⟨l', hl', rfl⟩ := List.mem_map.1 hl
      exact ⟨l', hl', (dropHead_sublist _ _).subset hxl⟩

theorem _root_.Paradigm.Spec.Merge.sublist {ls : List (List QPath)} {r : List QPath} (hm : Merge ls r) :
    ∀ l ∈ ls, l.Sublist r := by
  induction hm with
  | done h => intro l hl; rw [h l hl]; exact .slnil
  | @step pre post h t rest blocked free next ih =>
    intro l hl
    have := ih (dropHead h l) (List.mem_map.2 ⟨l, hl, rfl⟩)
    cases l with
    | nil => exact List.nil_sublist _
    | cons x xs =>
      rw [dropHead] at this
      split at this
      · rename_i e
        rw [e]
        exact this.cons₂ h
      · exact this.cons h

theorem _root_.Paradigm.Spec.Merge.nodup {ls : List (List QPath)} {r : List QPath} (hm : Merge ls r) : r.Nodup := by
  induction hm with
  | done _ => exact List.nodup_nil
  | @step pre post h t rest blocked free next ih =>
    refine List.nodup_cons.2 ⟨fun hh => ?_, ih⟩
    obtain ⟨l, hl, hx⟩ := next.mem h hh
    obtain ⟨l', hl', rfl⟩ := List.mem_map.1 hl
    have hf := free l' hl'
    cases l' with
    | nil => cases hx
    | cons x xs =>
      rw [dropHead] at hx
      split at hx
      · exact hf hx
      · rename_i ne
        rcases List.mem_cons.1 hx with e | hx
        · exact ne e.symm
        · exact hf hx

/-! ### Orders -/

variable {bases : QPath → List QPath}

theorem _root_.Paradigm.Spec.Mro.nonempty {c : QPath} {order : List QPath} (h : Mro bases c order) :
    ∃ rest, order = c :: rest := by
  cases h with
  | mk _ _ => exact ⟨_, rfl⟩

theorem _root_.Paradigm.Spec.Above.trans {c d e : QPath} (h : Above bases c d) (h' : Above bases d e) : Above bases c e := by
  induction h with
  | refl _ => exact h'
  | step hb _ ih => exact .step hb (ih h')

/-- The order of an ancestor is part of the order. -/
theorem _root_.Paradigm.Spec.Mro.ancestor {c : QPath} {order : List QPath} (h : Mro bases c order) :
    ∀ d, Above bases c d → ∃ o, Mro bases d o ∧ o.Sublist order := by
  induction h with
  | @mk c orders rest above merged ih =>
    intro d hd
    cases hd with
    | refl => exact ⟨_, .mk above merged, .refl _⟩
    | step hb hd =>
      obtain ⟨o, h1, h2⟩ := ih _ hb d hd
      exact ⟨o, h1, (h2.trans (merged.sublist _ (List.mem_append_left _ (List.mem_map.2 ⟨_, hb, rfl⟩)))).cons c⟩

theorem _root_.Paradigm.Spec.Mro.above {c : QPath} {order : List QPath} (h : Mro bases c order) :
    ∀ d ∈ order, Above bases c d := by
  induction h with
  | @mk c orders rest above merged ih =>
    intro d hd
    rcases List.mem_cons.1 hd with rfl | hd
    · exact .refl _
    · obtain ⟨l, hl, hdl⟩ := merged.mem d hd
      rw [List.mem_append, List.mem_singleton, List.mem_map] at hl
      rcases hl with ⟨b, hb, rfl⟩ | rfl
      · exact .step hb (ih b hb d hdl)
      · exact .step hdl (.refl _)

theorem _root_.Paradigm.Spec.Mro.mem {c d : QPath} {order : List QPath} (h : Mro bases c order) (hd : Above bases c d) :
    d ∈ order := by
  obtain ⟨o, h1, h2⟩ := h.ancestor d hd
  obtain ⟨r, rfl⟩ := h1.nonempty
  exact h2.subset List.mem_cons_self

/-- No class is its own ancestor. -/
theorem _root_.Paradigm.Spec.Mro.acyclic {c : QPath} {order : List QPath} (h : Mro bases c order) :
    ∀ b ∈ bases c, ¬ Above bases b c := by
  induction h with
  | @mk c orders rest above merged ih =>
    intro b hb hbc
    cases hbc with
    | refl => exact ih c hb c hb (.refl _)
    | @step _ b' _ hb' h =>
      exact ih b hb b' hb' (h.trans (.step hb (.refl _)))

theorem _root_.Paradigm.Spec.Mro.nodup {c : QPath} {order : List QPath} (h : Mro bases c order) : order.Nodup := by
  have hc := h.acyclic
  have ha := h.above
  cases h with
  | @mk _ orders rest above merged =>
    refine List.nodup_cons.2 ⟨fun hh => ?_, merged.nodup⟩
    obtain ⟨l, hl, hx⟩ := merged.mem c hh
    rw [List.mem_append, List.mem_singleton, List.mem_map] at hl
    rcases hl with ⟨b, hb, rfl⟩ | rfl
    · exact hc b hb ((above b hb).above c hx)
    · exact hc c hx (.refl _)

/-! ### What resolution finds in a class -/

variable {T : Tables}

/-- Resolution of the member `x` of `d` ends with `r`, whatever modules were visited. -/
def Finds (T : Tables) (x : String) (d : QPath) (r : Except PyErr QPath) : Prop :=
  ∀ visited, Answers T d.1 [] (d.2 ++ [x]) visited r

theorem finds_own {x : String} {d : QPath} (h : HasMember T x d) : Finds T x d (.ok (d.1, d.2 ++ [x])) :=
  fun _ => answers_of (n := 1) (resolve_of_defined h 0 _) (by simp)

theorem runtimeBases_eq (c : QPath) (hc : c ≠ objectClass) :
    ((T.supers c.1 c.2).getD [] ≠ [] ∧ runtimeBases T c = (T.supers c.1 c.2).getD [])
      ∨ ((T.supers c.1 c.2).getD [] = [] ∧ runtimeBases T c = [objectClass]) := by
  unfold runtimeBases
  rw [Tables.supers]
  cases ((T.superclasses.lookup c.1).getD []).lookup c.2 with
  | none => exact .inr ⟨rfl, if_neg hc⟩
  | some bs =>
    cases bs with
    | nil => exact .inr ⟨rfl, if_neg hc⟩
    | cons b bs => exact .inl ⟨by simp, rfl⟩

theorem supers_object (h : runtimeBases T objectClass = []) :
    (T.supers objectClass.1 objectClass.2).getD [] = [] := by
  unfold runtimeBases at h
  rw [Tables.supers]
  split at h
  · cases h
  · rename_i hne
    cases e : ((T.superclasses.lookup objectClass.1).getD []).lookup objectClass.2 with
    | none => rfl
    | some bs =>
      cases bs with
      | nil => rfl
      | cons b bs => exact absurd e (hne b bs)

variable {x : String} {d : QPath}

/-- A class of its kind: it is known, and no other than `object` is called so. -/
structure Classlike (T : Tables) (d : QPath) : Prop where
  nonempty : d.2 ≠ []
  defined : DefinedIn T d.1 d.2
  named : d.2.head? = some "object" → d = objectClass
  object : runtimeBases T objectClass = []

theorem finds_base (hd : Classlike T d) (hx : ¬ HasMember T x d) {pre post : List QPath} {b : QPath}
    (hb : runtimeBases T d = pre ++ b :: post) (hpre : ∀ p ∈ pre, Finds T x p (.error .objectNotFound))
    {q : QPath} (hf : Finds T x b (.ok q)) : Finds T x d (.ok q) := by
  intro visited
  obtain ⟨h1, h2, h3, h4⟩ := hd
  obtain ⟨m, path⟩ := d
  obtain ⟨head, cls, rfl⟩ := List.exists_cons_of_ne_nil h1
  have hne : (m, head :: cls) ≠ objectClass := by
    intro e
    rw [e, h4] at hb
    simp at hb
  have hhead : head ≠ "object" := fun e => hne (h3 (by rw [e]; rfl))
  rcases runtimeBases_eq (T := T) (m, head :: cls) hne with ⟨-, e⟩ | ⟨e, e'⟩
  · obtain ⟨n, hn⟩ := hf (visited ++ [m])
    obtain ⟨n', hn'⟩ := answers_uniform (f := fun p : QPath => p.1) (g := fun p => p.2 ++ [x])
      (fun p hp => hpre p hp (visited ++ [m]))
    refine answers_of (n := max n n' + 1) ?_ (by simp)
    rw [resolve_class h2 hx, ← e, hb]
    rw [tryEach_first (f := fun s : QPath => resolve T (max n n') s.1 [] (s.2 ++ [x]) (visited ++ [m]))
      (by simp) (hn _ (by omega)) (fun p hp => hn' p hp _ (by omega))]
  · rw [e'] at hb
    have hb' : b = objectClass := by
      cases pre with
      | nil => exact (List.cons.inj hb).1.symm
      | cons p ps =>
        have := (List.cons.inj hb).2
        simp at this
    subst hb'
    obtain ⟨n, hn⟩ := hf visited
    refine answers_of (n := n + 1) ?_ (by simp)
    rw [resolve_class h2 hx, e]
    simp only [tryEach]
    rw [if_pos hhead]
    exact hn n (Nat.le_refl _)

theorem finds_nothing (hd : Classlike T d) (hx : ¬ HasMember T x d)
    (hb : ∀ b ∈ runtimeBases T d, Finds T x b (.error .objectNotFound))
    (ho : d ≠ objectClass → Finds T x objectClass (.error .objectNotFound)) :
    Finds T x d (.error .objectNotFound) := by
  intro visited
  obtain ⟨h1, h2, h3, h4⟩ := hd
  obtain ⟨m, path⟩ := d
  obtain ⟨head, cls, rfl⟩ := List.exists_cons_of_ne_nil h1
  by_cases hne : (m, head :: cls) = objectClass
  · have e := supers_object h4
    have hc : cls = [] := by
      have := congrArg (fun q : QPath => q.2) hne
      exact (List.cons.inj this).2
    have hh : head = "object" := by
      have := congrArg (fun q : QPath => q.2) hne
      exact (List.cons.inj this).1
    subst hc hh
    refine answers_of (n := 1) ?_ (by simp)
    rw [resolve_class h2 hx, show T.supers m ["object"] = T.supers objectClass.1 objectClass.2 by rw [← hne], e]
    simp only [tryEach]
    exact if_neg (by simp)
  · have hhead : head ≠ "object" := fun e => hne (h3 (by rw [e]; rfl))
    obtain ⟨n, hn⟩ := ho hne visited
    obtain ⟨n', hn'⟩ := answers_uniform (f := fun p : QPath => p.1) (g := fun p => p.2 ++ [x])
      (xs := (T.supers m (head :: cls)).getD []) (V := visited ++ [m])
      (fun p hp => by
        refine hb p ?_ _
        rcases runtimeBases_eq (T := T) (m, head :: cls) hne with ⟨-, e⟩ | ⟨e, -⟩
        · rw [e]; exact hp
        · rw [e] at hp; cases hp)
    refine answers_of (n := max n n' + 1) ?_ (by simp)
    rw [resolve_class h2 hx, tryEach_none.2 (fun p hp => hn' p hp _ (by omega))]
    exact (if_pos hhead).trans (hn _ (by omega))

theorem _root_.Paradigm.Spec.Hierarchy.at {c : QPath} (h : Hierarchy T c) (hd : Above (runtimeBases T) c d) : Classlike T d :=
  ⟨(h.known d hd).1, (h.known d hd).2, h.named d hd, h.object⟩

/-- Every class has the ancestor `object`. -/
theorem _root_.Paradigm.Spec.Mro.object {c : QPath} {order : List QPath} (h : Mro (runtimeBases T) c order) :
    Above (runtimeBases T) c objectClass := by
  induction h with
  | @mk c orders rest above merged ih =>
    by_cases hc : c = objectClass
    · rw [hc]; exact .refl _
    · rcases runtimeBases_eq (T := T) c hc with ⟨h1, h2⟩ | ⟨-, h2⟩
      · obtain ⟨b, bs, e⟩ := List.exists_cons_of_ne_nil h1
        have hb : b ∈ runtimeBases T c := by rw [h2, e]; exact List.mem_cons_self
        exact .step hb (ih b hb)
      · exact .step (by rw [h2]; exact List.mem_singleton.2 rfl) (.refl _)

/-- If no ancestor has the member then it is not found. -/
theorem finds_none {c : QPath} (hc : Hierarchy T c) : ∀ {d : QPath} {order : List QPath},
    Mro (runtimeBases T) d order → Above (runtimeBases T) c d →
    (∀ e, Above (runtimeBases T) d e → ¬ HasMember T x e) → Finds T x d (.error .objectNotFound) := by
  intro d order h
  induction h with
  | @mk d orders rest above merged ih =>
    intro hd hno
    have hobj := (Mro.mk above merged).object
    refine finds_nothing (hc.at hd) (hno d (.refl _)) (fun b hb => ?_) fun hne => ?_
    · exact ih b hb (hd.trans (.step hb (.refl _))) fun e he => hno e (.step hb he)
    · refine finds_nothing (hc.at (hd.trans hobj)) (hno _ hobj) (fun b hb => ?_) fun h => absurd rfl h
      rw [hc.object] at hb
      cases hb

/-! ### Members that are found by one way -/

theorem first_split {α : Type} {P : α → Prop} : ∀ {l : List α}, (∃ b ∈ l, P b) →
    ∃ pre b post, l = pre ++ b :: post ∧ P b ∧ ∀ p ∈ pre, ¬ P p
  | [], h => by obtain ⟨b, hb, -⟩ := h; cases hb
  | a :: l, h => by
    by_cases ha : P a
    · exact ⟨[], a, l, rfl, ha, fun p hp => nomatch hp⟩
    · obtain ⟨b, hb, hp⟩ := h
      rcases List.mem_cons.1 hb with rfl | hb
      · exact absurd hp ha
      · obtain ⟨pre, b, post, h1, h2, h3⟩ := first_split ⟨b, hb, hp⟩
        refine ⟨a :: pre, b, post, by rw [h1]; rfl, h2, fun p hp => ?_⟩
        rcases List.mem_cons.1 hp with rfl | hp
        · exact ha
        · exact h3 p hp

theorem _root_.Paradigm.Spec.Above.around {q c e : QPath} (h : Above bases c e) (hq : ¬ Above bases c q) :
    Around bases q c e := by
  induction h with
  | refl c => exact .refl fun e => hq (e ▸ .refl _)
  | @step c b d hb _ ih =>
    exact .step (fun e => hq (e ▸ .refl _)) hb (ih fun h => hq (.step hb h))

/-- What is not reached without `q` is an ancestor of `q`. -/
theorem _root_.Paradigm.Spec.Above.through {q c e : QPath} (h : Above bases c e) (hq : ¬ Around bases q c e) :
    Above bases q e := by
  induction h with
  | refl c =>
    by_cases hc : c = q
    · rw [hc]; exact .refl _
    · exact absurd (.refl hc) hq
  | @step c b d hb hd ih =>
    by_cases hc : c = q
    · rw [← hc]; exact .step hb hd
    · exact ih fun h => hq (.step hc hb h)

theorem finds_through {c q : QPath} (hc : Hierarchy T c) (hq : HasMember T x q) : ∀ {d : QPath} {order : List QPath},
    Mro (runtimeBases T) d order → Above (runtimeBases T) c d → Above (runtimeBases T) d q →
    (∀ e, Around (runtimeBases T) q d e → ¬ HasMember T x e) → Finds T x d (.ok (q.1, q.2 ++ [x])) := by
  intro d order h
  induction h with
  | @mk d orders rest above merged ih =>
    intro hd hdq hno
    by_cases e : d = q
    · rw [e]; exact finds_own hq
    · have hex : ∃ b ∈ runtimeBases T d, Above (runtimeBases T) b q := by
        cases hdq with
        | refl => exact absurd rfl e
        | step hb h => exact ⟨_, hb, h⟩
      obtain ⟨pre, b, post, h1, h2, h3⟩ := first_split hex
      have hmem : ∀ p, p ∈ pre ∨ p = b → p ∈ runtimeBases T d := by
        rintro p (hp | rfl)
        · rw [h1]; exact List.mem_append_left _ hp
        · rw [h1]; exact List.mem_append_right _ List.mem_cons_self
      refine finds_base (hc.at hd) (hno d (.refl e)) h1 (fun p hp => ?_) ?_
      · have hp' := hmem p (.inl hp)
        exact finds_none hc (above p hp') (hd.trans (.step hp' (.refl _)))
          fun e' he' => hno e' (.step e hp' (he'.around (h3 p hp)))
      · have hb := hmem b (.inr rfl)
        exact ih b hb (hd.trans (.step hb (.refl _))) h2 fun e' he' => hno e' (.step e hb he')

/-! ### Hierarchies that branch -/

theorem dropHead_ne {h : QPath} {l : List QPath} (hl : h ∉ l) : dropHead h l = l := by
  cases l with
  | nil => rfl
  | cons x xs =>
    rw [dropHead, if_neg]
    rintro rfl
    exact hl List.mem_cons_self

theorem heads_mem {todo : List (List QPath)} {y : QPath} (h : y ∈ todo.filterMap List.head?) :
    y ∈ todo.flatten := by
  obtain ⟨l, hl, hy⟩ := List.mem_filterMap.1 h
  exact List.mem_flatten.2 ⟨l, hl, List.mem_of_mem_head? hy⟩

theorem merge_nil {ls : List (List QPath)} {r : List QPath} (hm : Merge ls r) (h : ∀ l ∈ ls, l = []) : r = [] := by
  cases hm with
  | done _ => rfl
  | step _ _ _ => exact absurd (h _ (List.mem_append_right _ List.mem_cons_self)) (by simp)

theorem merge_branches (o : QPath) : ∀ (n k : Nat) (cur : List QPath) (todo : List (List QPath)) (bs r : List QPath),
    cur.length + todo.flatten.length + todo.length ≤ n → (∀ a ∈ todo, a ≠ []) →
    (cur ++ todo.flatten).Nodup → o ∉ cur ++ todo.flatten →
    (bs = todo.filterMap List.head? ∨ ∃ a cur', cur = a :: cur' ∧ bs = a :: todo.filterMap List.head?) →
    Merge (List.replicate k [o] ++ (cur ++ [o]) :: (todo.map (· ++ [o]) ++ [bs])) r →
    r = cur ++ todo.flatten ++ [o] := by
  intro n
  induction n with
  | zero =>
    intro k cur todo bs r hn hne hnd ho hbs hm
    have h1 : cur = [] := List.eq_nil_of_length_eq_zero (by omega)
    have h2 : todo = [] := List.eq_nil_of_length_eq_zero (by omega)
    subst h1 h2
    have hbs : bs = [] := by
      rcases hbs with h | ⟨a, cur', h, -⟩
      · exact h
      · cases h
    subst hbs
    exact merge_last o k r hm
  | succ n ih =>
    intro k cur todo bs r hn hne hnd ho hbs hm
    cases cur with
    | nil =>
      cases todo with
      | nil =>
        have hbs : bs = [] := by
          rcases hbs with h | ⟨a, cur', h, -⟩
          · exact h
          · cases h
        subst hbs
        exact merge_last o k r hm
      | cons A todo =>
        obtain ⟨b, A', rfl⟩ := List.exists_cons_of_ne_nil (hne A List.mem_cons_self)
        refine (ih (k + 1) (b :: A') todo bs r ?_ (fun a ha => hne a (List.mem_cons_of_mem _ ha)) ?_ ?_ ?_ ?_).trans
          (by simp)
        · simp only [List.length_nil, List.flatten_cons, List.length_append, List.length_cons] at hn ⊢
          omega
        · simpa using hnd
        · simpa using ho
        · rcases hbs with h | ⟨a, cur', h, -⟩
          · exact .inr ⟨b, A', rfl, h⟩
          · cases h
        · rw [List.replicate_succ', List.append_assoc]
          exact hm
    | cons a cur =>
      have hao : a ≠ o := fun e => ho (by simp [e])
      have hac : a ∉ cur ++ todo.flatten := (List.nodup_cons.1 hnd).1
      have hat : a ∉ todo.flatten := fun h => hac (List.mem_append_right _ h)
      have hat' : ∀ A ∈ todo, a ∉ A := fun A hA h => hat (List.mem_flatten.2 ⟨A, hA, h⟩)
      have hah : a ∉ todo.filterMap List.head? := fun h => hat (heads_mem h)
      have hfree : ∀ m ∈ List.replicate k [o] ++ (a :: cur ++ [o]) :: (todo.map (· ++ [o]) ++ [bs]), a ∉ m.tail := by
        intro m hmem
        rcases List.mem_append.1 hmem with h | h
        · rw [(List.mem_replicate.1 h).2]; exact List.not_mem_nil
        · rcases List.mem_cons.1 h with rfl | h
          · show a ∉ cur ++ [o]
            simp only [List.mem_append, List.mem_singleton, not_or]
            exact ⟨fun h => hac (List.mem_append_left _ h), hao⟩
          · rcases List.mem_append.1 h with h | h
            · obtain ⟨A, hA, rfl⟩ := List.mem_map.1 h
              intro h
              have := List.mem_of_mem_tail h
              simp only [List.mem_append, List.mem_singleton] at this
              exact this.elim (hat' A hA) hao
            · rw [List.mem_singleton.1 h]
              rcases hbs with rfl | ⟨a', cur', e, rfl⟩
              · exact fun h => hah (List.mem_of_mem_tail h)
              · exact hah
      generalize hls : List.replicate k [o] ++ (a :: cur ++ [o]) :: (todo.map (· ++ [o]) ++ [bs]) = ls at hm hfree
      cases hm with
      | done h =>
        have := h (a :: cur ++ [o]) (by rw [← hls]; exact List.mem_append_right _ List.mem_cons_self)
        cases this
      | @step pre post h t rest blocked free next =>
        have hha : h = a := by
          rcases List.append_eq_append_iff.1 hls with ⟨c, h1, h2⟩ | ⟨c, h1, h2⟩
          · cases c with
            | nil => exact (List.cons.inj (List.cons.inj h2).1).1.symm
            | cons y c =>
              have hy := (List.cons.inj h2).1
              obtain ⟨m, hm1, hm2⟩ := blocked a (cur ++ [o]) (by
                rw [h1, ← hy]
                exact List.mem_append_right _ List.mem_cons_self)
              exact absurd hm2 (hfree m hm1)
          · cases c with
            | nil => exact (List.cons.inj (List.cons.inj h2).1).1
            | cons y c =>
              have hy := (List.cons.inj h2).1
              have : y ∈ List.replicate k [o] := by
                rw [h1]; exact List.mem_append_right _ List.mem_cons_self
              rw [(List.mem_replicate.1 this).2] at hy
              have ho' : h = o := (List.cons.inj hy).1
              refine absurd ?_ (free (a :: cur ++ [o])
                (by rw [← hls]; exact List.mem_append_right _ List.mem_cons_self))
              rw [ho']
              exact List.mem_append_right _ (List.mem_singleton.2 rfl)
        subst hha
        have hmap : (pre ++ (h :: t) :: post).map (dropHead h)
            = List.replicate k [o] ++ (cur ++ [o]) :: (todo.map (· ++ [o]) ++ [todo.filterMap List.head?]) := by
          rw [← hls, List.map_append, List.map_cons, List.map_append, List.map_replicate,
            dropHead_ne (l := [o]) (by simpa using hao)]
          congr 2
          · exact if_pos rfl
          congr 1
          · rw [List.map_map]
            refine List.map_congr_left fun A hA => dropHead_ne ?_
            simp only [List.mem_append, List.mem_singleton, not_or]
            exact ⟨hat' A hA, hao⟩
          · rw [List.map_singleton]
            rcases hbs with rfl | ⟨a', cur', e, rfl⟩
            · rw [dropHead_ne hah]
            · rw [(List.cons.inj e).1]
              exact congrArg (fun l => [l]) (if_pos rfl)
        rw [hmap] at next
        rw [ih k cur todo _ rest (by simp only [List.length_cons] at hn; omega) hne (List.nodup_cons.1 hnd).2
          (fun h => ho (List.mem_cons_of_mem _ h)) (.inl rfl) next]
        rfl
where
  merge_last (o : QPath) (k : Nat) (r : List QPath)
      (hm : Merge (List.replicate k [o] ++ ([] ++ [o]) :: (([] : List (List QPath)).map (· ++ [o]) ++ [[]])) r) :
      r = [] ++ ([] : List (List QPath)).flatten ++ [o] := by
    generalize hls : List.replicate k [o] ++ ([] ++ [o]) :: (([] : List (List QPath)).map (· ++ [o]) ++ [[]]) = ls at hm
    have hall : ∀ l ∈ ls, l = [o] ∨ l = [] := by
      intro l hl
      rw [← hls] at hl
      rcases List.mem_append.1 hl with h | h
      · exact .inl (List.mem_replicate.1 h).2
      · rcases List.mem_cons.1 h with rfl | h
        · exact .inl rfl
        · exact .inr (List.mem_singleton.1 h)
    cases hm with
    | done h =>
      have := h ([] ++ [o]) (by rw [← hls]; exact List.mem_append_right _ List.mem_cons_self)
      cases this
    | @step pre post h t rest blocked free next =>
      have hh : h = o := by
        rcases hall (h :: t) (List.mem_append_right _ List.mem_cons_self) with e | e
        · exact (List.cons.inj e).1
        · cases e
      subst hh
      rw [merge_nil next]
      · rfl
      · intro l hl
        obtain ⟨l', hl', rfl⟩ := List.mem_map.1 hl
        rcases hall l' hl' with rfl | rfl
        · exact if_pos rfl
        · rfl

theorem merge_same {o : QPath} {ls : List (List QPath)} {r : List QPath} (hm : Merge ls r) (h0 : ls ≠ [])
    (h : ∀ l ∈ ls, l = [o]) : r = [o] := by
  cases hm with
  | done h' =>
    obtain ⟨l, ls, rfl⟩ := List.exists_cons_of_ne_nil h0
    have h1 := h l List.mem_cons_self
    rw [h' l List.mem_cons_self] at h1
    cases h1
  | @step pre post h' t rest blocked free next =>
    have e := h _ (List.mem_append_right pre (List.mem_cons_self (a := h' :: t) (l := post)))
    have e' := (List.cons.inj e).1
    subst e'
    rw [merge_nil next]
    intro l hl
    obtain ⟨l', hl', rfl⟩ := List.mem_map.1 hl
    rw [h l' hl']
    exact if_pos rfl

/-- `r` is what the first class of the list that has `x` gives. -/
def Leading (T : Tables) (x : String) (order : List QPath) (r : Except PyErr QPath) : Prop :=
  (∃ pre q post, order = pre ++ q :: post ∧ HasMember T x q ∧ (∀ p ∈ pre, ¬ HasMember T x p) ∧ r = .ok (q.1, q.2 ++ [x]))
    ∨ ((∀ p ∈ order, ¬ HasMember T x p) ∧ r = .error .objectNotFound)

theorem Leading.skip {a b : List QPath} {r : Except PyErr QPath} (ha : ∀ p ∈ a, ¬ HasMember T x p)
    (hb : Leading T x b r) : Leading T x (a ++ b) r := by
  rcases hb with ⟨pre, q, post, rfl, h2, h3, h4⟩ | ⟨h1, h2⟩
  · refine .inl ⟨a ++ pre, q, post, by simp, h2, fun p hp => ?_, h4⟩
    rcases List.mem_append.1 hp with hp | hp
    · exact ha p hp
    · exact h3 p hp
  · refine .inr ⟨fun p hp => ?_, h2⟩
    rcases List.mem_append.1 hp with hp | hp
    · exact ha p hp
    · exact h1 p hp

theorem leading_unique {order : List QPath} {r r' : Except PyErr QPath} (h : Leading T x order r)
    (h' : Leading T x order r') : r = r' := by
  rcases h with ⟨pre, q, post, rfl, h2, h3, h4⟩ | ⟨h1, h2⟩
  · rcases h' with ⟨pre', q', post', e, h2', h3', h4'⟩ | ⟨h1', -⟩
    · rcases List.append_eq_append_iff.1 e with ⟨c, h5, h6⟩ | ⟨c, h5, h6⟩
      · cases c with
        | nil => rw [h4, h4', (List.cons.inj h6).1]
        | cons y c =>
          refine absurd h2 (h3' q ?_)
          rw [h5, (List.cons.inj h6).1]
          exact List.mem_append_right _ List.mem_cons_self
      · cases c with
        | nil => rw [h4, h4', (List.cons.inj h6).1]
        | cons y c =>
          refine absurd h2' (h3 q' ?_)
          rw [h5, (List.cons.inj h6).1]
          exact List.mem_append_right _ List.mem_cons_self
    · exact absurd h2 (h1' q (List.mem_append_right _ List.mem_cons_self))
  · rcases h' with ⟨pre', q', post', rfl, h2', h3', h4'⟩ | ⟨-, h2'⟩
    · exact absurd h2' (h1 q' (List.mem_append_right _ List.mem_cons_self))
    · rw [h2, h2']

theorem object_nothing {c : QPath} (hc : Hierarchy T c) (ho : Above (runtimeBases T) c objectClass)
    (hx : ¬ HasMember T x objectClass) : Finds T x objectClass (.error .objectNotFound) := by
  refine finds_nothing (hc.at ho) hx (fun b hb => ?_) fun h => absurd rfl h
  rw [hc.object] at hb
  cases hb

/-- The bases of a class are asked one after the other. -/
theorem walk {c d : QPath} (hc : Hierarchy T c) (hd : Above (runtimeBases T) c d) (hxd : ¬ HasMember T x d)
    (ho : Above (runtimeBases T) c objectClass) (hx : ¬ HasMember T x objectClass) (heads : QPath → List QPath)
    (hb : ∀ b ∈ runtimeBases T d, ∃ r, Leading T x (heads b ++ [objectClass]) r ∧ Finds T x b r) :
    ∀ (l pre : List QPath), runtimeBases T d = pre ++ l → (∀ p ∈ pre, Finds T x p (.error .objectNotFound)) →
      ∃ r, Leading T x ((l.map heads).flatten ++ [objectClass]) r ∧ Finds T x d r
  | [], pre, e, hpre => by
    refine ⟨_, .inr ⟨fun p hp => ?_, rfl⟩, finds_nothing (hc.at hd) hxd (fun b hb => ?_)
      fun _ => object_nothing hc ho hx⟩
    · rw [List.mem_singleton.1 hp]; exact hx
    · rw [e, List.append_nil] at hb
      exact hpre b hb
  | b :: l, pre, e, hpre => by
    obtain ⟨r, h1, h2⟩ := hb b (by rw [e]; exact List.mem_append_right _ List.mem_cons_self)
    rcases h1 with ⟨before, q, after, h3, h4, h5, rfl⟩ | ⟨h3, rfl⟩
    · refine ⟨_, .inl ?_, finds_base (hc.at hd) hxd e hpre h2⟩
      have : ∃ after', heads b = before ++ q :: after' := by
        rcases List.append_eq_append_iff.1 h3 with ⟨u, h6, h7⟩ | ⟨u, h6, h7⟩
        · cases u with
          | nil =>
            rw [← (List.cons.inj h7).1] at h4
            exact absurd h4 hx
          | cons y u => simp at h7
        · cases u with
          | nil =>
            rw [(List.cons.inj h7).1] at h4
            exact absurd h4 hx
          | cons y u =>
            rw [(List.cons.inj h7).1]
            exact ⟨u, h6⟩
      obtain ⟨after', h6⟩ := this
      refine ⟨before, q, after' ++ ((l.map heads).flatten ++ [objectClass]), ?_, h4, h5, rfl⟩
      rw [List.map_cons, List.flatten_cons, h6]
      simp
    · obtain ⟨r, h4, h5⟩ := walk hc hd hxd ho hx heads hb l (pre ++ [b]) (by rw [e]; simp) (by
        intro p hp
        rcases List.mem_append.1 hp with hp | hp
        · exact hpre p hp
        · rw [List.mem_singleton.1 hp]; exact h2)
      refine ⟨r, ?_, h5⟩
      rw [List.map_cons, List.flatten_cons, List.append_assoc]
      exact h4.skip fun p hp => h3 p (List.mem_append_left _ hp)

theorem flatten_nodup {heads : QPath → List QPath} : ∀ {l : List QPath}, (∀ b ∈ l, (heads b).Nodup) →
    l.Pairwise (fun a b => ∀ e ∈ heads a, e ∉ heads b) → (l.map heads).flatten.Nodup
  | [], _, _ => List.nodup_nil
  | b :: l, h, hp => by
    rw [List.map_cons, List.flatten_cons, List.nodup_append]
    obtain ⟨h1, h2⟩ := List.pairwise_cons.1 hp
    refine ⟨h b List.mem_cons_self, flatten_nodup (fun b hb => h b (List.mem_cons_of_mem _ hb)) h2, ?_⟩
    intro e he e' he' hee
    subst hee
    obtain ⟨l', hl', hel⟩ := List.mem_flatten.1 he'
    obtain ⟨b', hb', rfl⟩ := List.mem_map.1 hl'
    exact h1 b' hb' e he hel

theorem heads_eq {heads : QPath → List QPath} : ∀ {l : List QPath}, (∀ b ∈ l, (heads b).head? = some b) →
    (l.map heads).filterMap List.head? = l
  | [], _ => rfl
  | b :: l, h => by
    rw [List.map_cons, List.filterMap_cons, h b List.mem_cons_self,
      heads_eq fun b hb => h b (List.mem_cons_of_mem _ hb)]

theorem branch {c : QPath} (hc : Hierarchy T c) (hbr : Branching (runtimeBases T) c)
    (hx : ¬ HasMember T x objectClass ∨ ∀ d, Above (runtimeBases T) c d → (runtimeBases T d).length ≤ 1) :
    ∀ {d : QPath} {order : List QPath}, Mro (runtimeBases T) d order → Above (runtimeBases T) c d →
      ∃ A, order = A ++ [objectClass] ∧ objectClass ∉ A ∧ (d ≠ objectClass → A.head? = some d) ∧
        (d = objectClass → A = []) ∧ ∃ r, Leading T x order r ∧ Finds T x d r := by
  intro d order h
  induction h with
  | @mk d orders rest above merged ih =>
    intro hd
    have hmro := Mro.mk above merged
    have hup : ∀ b ∈ runtimeBases T d, Above (runtimeBases T) c b := fun b hb => hd.trans (.step hb (.refl _))
    have hobj : Above (runtimeBases T) c objectClass := hd.trans hmro.object
    by_cases ho : d = objectClass
    · subst ho
      have hrest : rest = [] := by
        rw [hc.object] at merged
        exact merge_nil merged fun l hl => List.mem_singleton.1 hl
      subst hrest
      refine ⟨[], rfl, List.not_mem_nil, fun h => absurd rfl h, fun _ => rfl, ?_⟩
      by_cases hox : HasMember T x objectClass
      · exact ⟨_, .inl ⟨[], objectClass, [], rfl, hox, (fun p hp => nomatch hp), rfl⟩, finds_own hox⟩
      · refine ⟨_, .inr ⟨fun p hp => ?_, rfl⟩, object_nothing hc hobj hox⟩
        rw [List.mem_singleton.1 hp]; exact hox
    · have hne : runtimeBases T d ≠ [] := by
        rcases runtimeBases_eq (T := T) d ho with ⟨h1, h2⟩ | ⟨-, h2⟩
        · rw [h2]; exact h1
        · rw [h2]; simp
      have hparts : ∀ b ∈ runtimeBases T d, orders b = (orders b).dropLast ++ [objectClass] ∧
          objectClass ∉ (orders b).dropLast ∧ (b ≠ objectClass → (orders b).dropLast.head? = some b) ∧
          (b = objectClass → (orders b).dropLast = []) ∧ ∃ r, Leading T x (orders b) r ∧ Finds T x b r := by
        intro b hb
        obtain ⟨A, h1, h2, h3, h4, h5⟩ := ih b hb (hup b hb)
        have e : (orders b).dropLast = A := by rw [h1]; simp
        rw [e]
        exact ⟨h1, h2, h3, h4, h5⟩
      -- the order
      have hrest : rest = ((runtimeBases T d).map fun b => (orders b).dropLast).flatten ++ [objectClass] := by
        by_cases hob : objectClass ∈ runtimeBases T d
        · have e := (hbr d hd).1 hob
          have e' := (hparts _ hob).2.2.2.1 rfl
          have e'' : orders objectClass = [objectClass] := by
            rw [(hparts _ hob).1, e']; rfl
          rw [e] at merged ⊢
          rw [merge_same (o := objectClass) merged (by simp) (by
            intro l hl
            simp only [List.map_cons, List.map_nil, List.mem_append, List.mem_singleton, e''] at hl
            exact hl.elim id id)]
          simp [e']
        · obtain ⟨b, bs, e⟩ := List.exists_cons_of_ne_nil hne
          have hb : ∀ b' ∈ b :: bs, b' ∈ runtimeBases T d := fun b' h => by rw [e]; exact h
          have hno : ∀ b' ∈ b :: bs, b' ≠ objectClass := fun b' h e' => hob (e' ▸ hb b' h)
          have hheads : ∀ b' ∈ b :: bs, ((orders b').dropLast).head? = some b' :=
            fun b' h => (hparts b' (hb b' h)).2.2.1 (hno b' h)
          have hnd : (((b :: bs).map fun b => (orders b).dropLast)).flatten.Nodup := by
            refine flatten_nodup (fun b' h => ?_) ?_
            · exact ((above b' (hb b' h)).nodup).sublist (List.dropLast_sublist _)
            · have := (hbr d hd).2
              rw [e] at this
              refine List.Pairwise.imp_of_mem ?_ this
              intro a b' ha hb' hab y hy hy'
              have h1 := (above a (hb a ha)).above y ((List.dropLast_sublist _).subset hy)
              have h2 := (above b' (hb b' hb')).above y ((List.dropLast_sublist _).subset hy')
              have := hab y h1 h2
              subst this
              exact (hparts a (hb a ha)).2.1 hy
          have hoN : objectClass ∉ (((b :: bs).map fun b => (orders b).dropLast)).flatten := by
            intro h
            obtain ⟨l, hl, hol⟩ := List.mem_flatten.1 h
            obtain ⟨b', hb', rfl⟩ := List.mem_map.1 hl
            exact (hparts b' (hb b' hb')).2.1 hol
          rw [e] at merged ⊢
          refine (merge_branches objectClass _ 0 ((orders b).dropLast) (bs.map fun b => (orders b).dropLast)
            (b :: bs) rest (Nat.le_refl _) ?_ (by simpa using hnd) (by simpa using hoN) (.inr ?_) ?_).trans (by simp)
          · intro a ha
            obtain ⟨b', hb', rfl⟩ := List.mem_map.1 ha
            intro h0
            have := hheads b' (List.mem_cons_of_mem _ hb')
            rw [h0] at this
            cases this
          · have h0 := hheads b List.mem_cons_self
            rw [heads_eq fun b' hb' => hheads b' (List.mem_cons_of_mem _ hb')]
            cases hA : (orders b).dropLast with
            | nil => rw [hA] at h0; cases h0
            | cons y A =>
              rw [hA] at h0
              exact ⟨b, A, by rw [← Option.some.inj h0], rfl⟩
          · rw [List.replicate_zero, List.nil_append, ← (hparts b (hb b List.mem_cons_self)).1, List.map_map]
            rw [List.map_cons] at merged
            have hm : bs.map ((fun l => l ++ [objectClass]) ∘ fun b => (orders b).dropLast) = bs.map orders :=
              List.map_congr_left fun b' hb' => ((hparts b' (hb b' (List.mem_cons_of_mem _ hb'))).1).symm
            rw [hm]
            exact merged
      refine ⟨d :: ((runtimeBases T d).map fun b => (orders b).dropLast).flatten, by rw [hrest]; rfl, ?_,
        fun _ => rfl, fun h => absurd h ho, ?_⟩
      · intro h
        rcases List.mem_cons.1 h with h | h
        · exact ho h.symm
        · obtain ⟨l, hl, hol⟩ := List.mem_flatten.1 h
          obtain ⟨b', hb', rfl⟩ := List.mem_map.1 hl
          exact (hparts b' hb').2.1 hol
      -- what is found
      by_cases hxd : HasMember T x d
      · exact ⟨_, .inl ⟨[], d, rest, rfl, hxd, (fun p hp => nomatch hp), rfl⟩, finds_own hxd⟩
      · have hcons : ∀ {r}, Leading T x rest r → Leading T x (d :: rest) r := fun h =>
          Leading.skip (a := [d]) (fun p hp => by rw [List.mem_singleton.1 hp]; exact hxd) h
        by_cases hox : HasMember T x objectClass
        · have hlen := (hx.resolve_left fun h => h hox) d hd
          obtain ⟨b, bs, e⟩ := List.exists_cons_of_ne_nil hne
          have hbs : bs = [] := by
            rw [e] at hlen
            exact List.eq_nil_of_length_eq_zero (by rw [List.length_cons] at hlen; omega)
          subst hbs
          have hb : b ∈ runtimeBases T d := by rw [e]; exact List.mem_cons_self
          obtain ⟨r, h1, h2⟩ := (hparts b hb).2.2.2.2
          have hrest' : rest = orders b := by
            rw [hrest, e]
            simp only [List.map_cons, List.map_nil, List.flatten_cons, List.flatten_nil, List.append_nil]
            exact (hparts b hb).1.symm
          rw [← hrest'] at h1
          refine ⟨r, hcons h1, ?_⟩
          rcases h1 with ⟨pre, q, post, h3, h4, h5, rfl⟩ | ⟨h3, rfl⟩
          · exact finds_base (pre := []) (hc.at hd) hxd e (fun p hp => nomatch hp) h2
          · exact absurd hox (h3 _ (by rw [hrest]; exact List.mem_append_right _ (List.mem_singleton.2 rfl)))
        · obtain ⟨r, h1, h2⟩ := walk hc hd hxd hobj hox (fun b => (orders b).dropLast)
            (fun b hb => by
              obtain ⟨r, h1, h2⟩ := (hparts b hb).2.2.2.2
              rw [(hparts b hb).1] at h1
              exact ⟨r, h1, h2⟩) (runtimeBases T d) [] rfl (fun p hp => nomatch hp)
          exact ⟨r, hcons (by rw [hrest]; exact h1), h2⟩

/-! ### For samples -/

theorem _root_.Paradigm.Spec.Around.ne {q c e : QPath} (h : Around bases q c e) : e ≠ q := by
  induction h with
  | refl h => exact h
  | step _ _ _ ih => exact ih

theorem _root_.Paradigm.Spec.Around.above {q c e : QPath} (h : Around bases q c e) : Above bases c e := by
  induction h with
  | refl _ => exact .refl _
  | step _ h _ ih => exact .step h ih

theorem above_closed {S : List QPath} (hS : ∀ d ∈ S, ∀ b ∈ bases d, b ∈ S) {c e : QPath} (h : Above bases c e) :
    c ∈ S → e ∈ S := by
  induction h with
  | refl _ => exact id
  | step hb _ ih => exact fun hc => ih (hS _ hc _ hb)

theorem definedIn_iff (T : Tables) (m p : Path) :
    DefinedIn T m p ↔ (match T.definitions.lookup m with
      | some scope => scopeContains scope p
      | none => false) = true := by
  unfold DefinedIn
  cases T.definitions.lookup m with
  | none => simp
  | some scope =>
    simp only [Option.some.injEq, exists_eq_left']
    exact (scopeContains_iff p scope).symm

instance (T : Tables) (m p : Path) : Decidable (DefinedIn T m p) := decidable_of_iff _ (definedIn_iff T m p).symm

instance (T : Tables) (x : String) (c : QPath) : Decidable (HasMember T x c) :=
  inferInstanceAs (Decidable (DefinedIn T c.1 (c.2 ++ [x])))

end Paradigm
