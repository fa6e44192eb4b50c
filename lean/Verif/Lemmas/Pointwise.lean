import Verif.Spec.Definitions
import Verif.Lemmas.Bind

/-! Element by element related lists, and how acceptance of calls depends on them. -/

namespace Paradigm

open PyCall Spec

namespace Spec.Pointwise

variable {α β γ : Type} {r : α → β → Prop}

theorem nil_left {bs : List β} (h : Pointwise r [] bs) : bs = [] := by
  cases bs with
  | nil => rfl
  | cons b bs => exact h.elim

theorem nil_right {as : List α} (h : Pointwise r as []) : as = [] := by
  cases as with
  | nil => rfl
  | cons b bs => exact h.elim

theorem cons_left {a : α} {as : List α} {bs : List β} (h : Pointwise r (a :: as) bs) :
    ∃ b bs', bs = b :: bs' ∧ r a b ∧ Pointwise r as bs' := by
  cases bs with
  | nil => exact h.elim
  | cons b bs => exact ⟨b, bs, rfl, h.1, h.2⟩

theorem length {as : List α} {bs : List β} (h : Pointwise r as bs) : as.length = bs.length := by
  induction as generalizing bs with
  | nil => rw [nil_left h]; rfl
  | cons a as ih =>
    obtain ⟨b, bs, rfl, _, h⟩ := cons_left h
    simp [ih h]

theorem imp {s : α → β → Prop} {as : List α} {bs : List β} (h : Pointwise r as bs)
    (hi : ∀ a ∈ as, ∀ b ∈ bs, r a b → s a b) : Pointwise s as bs := by
  induction as generalizing bs with
  | nil => rw [nil_left h]; trivial
  | cons a as ih =>
    obtain ⟨b, bs, rfl, hr, h⟩ := cons_left h
    exact ⟨hi _ (by simp) _ (by simp) hr,
      ih h fun a ha b hb => hi a (List.mem_cons_of_mem _ ha) b (List.mem_cons_of_mem _ hb)⟩

theorem flip {as : List α} {bs : List β} (h : Pointwise r as bs) :
    Pointwise (fun b a => r a b) bs as := by
  induction as generalizing bs with
  | nil => rw [nil_left h]; trivial
  | cons a as ih =>
    obtain ⟨b, bs, rfl, hr, h⟩ := cons_left h
    exact ⟨hr, ih h⟩

theorem comp {s : β → γ → Prop} {as : List α} {bs : List β} {cs : List γ}
    (h : Pointwise r as bs) (h' : Pointwise s bs cs) :
    Pointwise (fun a c => ∃ b, r a b ∧ s b c) as cs := by
  induction as generalizing bs cs with
  | nil =>
    cases nil_left h
    rw [nil_left h']; trivial
  | cons a as ih =>
    obtain ⟨b, bs, rfl, hr, h⟩ := cons_left h
    obtain ⟨c, cs, rfl, hs, h'⟩ := cons_left h'
    exact ⟨⟨b, hr, hs⟩, ih h h'⟩

theorem append {as as' : List α} {bs bs' : List β} (h : Pointwise r as bs)
    (h' : Pointwise r as' bs') : Pointwise r (as ++ as') (bs ++ bs') := by
  induction as generalizing bs with
  | nil => rw [nil_left h]; exact h'
  | cons a as ih =>
    obtain ⟨b, bs, rfl, hr, h⟩ := cons_left h
    exact ⟨hr, ih h⟩

theorem filter {f : α → Bool} {g : β → Bool} {as : List α} {bs : List β}
    (h : Pointwise r as bs) (hfg : ∀ a b, r a b → f a = g b) :
    Pointwise r (as.filter f) (bs.filter g) := by
  induction as generalizing bs with
  | nil => rw [nil_left h]; trivial
  | cons a as ih =>
    obtain ⟨b, bs, rfl, hr, h⟩ := cons_left h
    rw [List.filter_cons, List.filter_cons, hfg a b hr]
    split
    · exact ⟨hr, ih h⟩
    · exact ih h

theorem take {as : List α} {bs : List β} (h : Pointwise r as bs) (n : Nat) :
    Pointwise r (as.take n) (bs.take n) := by
  induction as generalizing bs n with
  | nil => rw [nil_left h]; simp [Pointwise]
  | cons a as ih =>
    obtain ⟨b, bs, rfl, hr, h⟩ := cons_left h
    cases n with
    | zero => trivial
    | succ n => exact ⟨hr, ih h n⟩

theorem drop {as : List α} {bs : List β} (h : Pointwise r as bs) (n : Nat) :
    Pointwise r (as.drop n) (bs.drop n) := by
  induction as generalizing bs n with
  | nil => rw [nil_left h]; simp [Pointwise]
  | cons a as ih =>
    obtain ⟨b, bs, rfl, hr, h'⟩ := cons_left h
    cases n with
    | zero => exact h
    | succ n => exact ih h' n

theorem exists_left {as : List α} {bs : List β} (h : Pointwise r as bs) {b : β} (hb : b ∈ bs) :
    ∃ a ∈ as, r a b := by
  induction as generalizing bs with
  | nil => rw [nil_left h] at hb; cases hb
  | cons a as ih =>
    obtain ⟨b', bs, rfl, hr, h⟩ := cons_left h
    rcases List.mem_cons.1 hb with rfl | hb
    · exact ⟨a, by simp, hr⟩
    · obtain ⟨a', ha, hr⟩ := ih h hb
      exact ⟨a', List.mem_cons_of_mem _ ha, hr⟩

theorem exists_right {as : List α} {bs : List β} (h : Pointwise r as bs) {a : α} (ha : a ∈ as) :
    ∃ b ∈ bs, r a b := exists_left h.flip ha

theorem map_eq {δ : Type} {f : α → δ} {g : β → δ} {as : List α} {bs : List β}
    (h : Pointwise r as bs) (hfg : ∀ a b, r a b → f a = g b) : as.map f = bs.map g := by
  induction as generalizing bs with
  | nil => rw [nil_left h]; rfl
  | cons a as ih =>
    obtain ⟨b, bs, rfl, hr, h⟩ := cons_left h
    simp [hfg a b hr, ih h]

theorem map_left {f : γ → α} {cs : List γ} {bs : List β}
    (h : Pointwise (fun c b => r (f c) b) cs bs) : Pointwise r (cs.map f) bs := by
  induction cs generalizing bs with
  | nil => rw [nil_left h]; trivial
  | cons a as ih =>
    obtain ⟨b, bs, rfl, hr, h⟩ := cons_left h
    exact ⟨hr, ih h⟩

theorem of_map_left {f : γ → α} {cs : List γ} {bs : List β}
    (h : Pointwise r (cs.map f) bs) : Pointwise (fun c b => r (f c) b) cs bs := by
  induction cs generalizing bs with
  | nil => rw [nil_left h]; trivial
  | cons a as ih =>
    obtain ⟨b, bs, rfl, hr, h⟩ := cons_left h
    exact ⟨hr, ih h⟩

theorem countP {f : α → Bool} {g : β → Bool} {as : List α} {bs : List β}
    (h : Pointwise r as bs) (hfg : ∀ a b, r a b → f a = g b) : as.countP f = bs.countP g := by
  rw [List.countP_eq_length_filter, List.countP_eq_length_filter]
  exact length (h.filter hfg)

theorem pairwise {R : α → α → Prop} {S : β → β → Prop} {as : List α} {bs : List β}
    (h : Pointwise r as bs) (hRS : ∀ a b a' b', r a b → r a' b' → R a a' → S b b')
    (hp : as.Pairwise R) : bs.Pairwise S := by
  induction as generalizing bs with
  | nil => rw [nil_left h]; exact List.Pairwise.nil
  | cons a as ih =>
    obtain ⟨b, bs, rfl, hr, h⟩ := cons_left h
    obtain ⟨h1, h2⟩ := List.pairwise_cons.1 hp
    refine List.pairwise_cons.2 ⟨fun b' hb' => ?_, ih h h2⟩
    obtain ⟨a', ha', hr'⟩ := h.exists_left hb'
    exact hRS _ _ _ _ hr hr' (h1 a' ha')

end Spec.Pointwise

/-- `mapExcept` succeeds element by element. -/
theorem mapExcept_pointwise {α β : Type} {f : α → Except PyErr β} {as : List α} {bs : List β} :
    mapExcept f as = .ok bs ↔ Pointwise (fun a b => f a = .ok b) as bs := by
  induction as generalizing bs with
  | nil => cases bs <;> simp [mapExcept, Pointwise]
  | cons a as ih =>
    rw [mapExcept]
    cases hf : f a with
    | error e =>
      cases bs <;> simp [Pointwise, hf]
    | ok b =>
      cases hm : mapExcept f as with
      | error e =>
        cases bs with
        | nil => simp [Pointwise]
        | cons b' bs =>
          simp only [Pointwise, hf, Except.ok.injEq]
          refine iff_of_false (by simp) fun h => ?_
          rw [ih.2 h.2] at hm; cases hm
      | ok bs' =>
        cases bs with
        | nil => simp [Pointwise]
        | cons b' bs =>
          simp only [Pointwise, hf, Except.ok.injEq, List.cons.injEq]
          rw [← ih, hm, Except.ok.injEq]

/-- A failing `mapExcept` fails as `f` does on some element. -/
theorem mapExcept_error {α β : Type} {f : α → Except PyErr β} {as : List α} {e : PyErr}
    (h : mapExcept f as = .error e) : ∃ a ∈ as, f a = .error e := by
  induction as with
  | nil => simp [mapExcept] at h
  | cons a as ih =>
    rw [mapExcept] at h
    cases hf : f a with
    | error e' =>
      simp only [hf, Except.error.injEq] at h
      exact ⟨a, by simp, by rw [hf, h]⟩
    | ok b =>
      cases hm : mapExcept f as with
      | error e' =>
        simp only [hf, hm, Except.error.injEq] at h
        subst h
        obtain ⟨a', ha', h⟩ := ih hm
        exact ⟨a', List.mem_cons_of_mem _ ha', h⟩
      | ok bs => simp [hf, hm] at h

/-- If `f` succeeds everywhere, so does `mapExcept`. -/
theorem mapExcept_total {α β : Type} {f : α → Except PyErr β} {as : List α}
    (h : ∀ a ∈ as, ∃ b, f a = .ok b) : ∃ bs, mapExcept f as = .ok bs := by
  cases hm : mapExcept f as with
  | ok bs => exact ⟨bs, rfl⟩
  | error e =>
    obtain ⟨a, ha, he⟩ := mapExcept_error hm
    obtain ⟨b, hb⟩ := h a ha
    rw [he] at hb; cases hb

/-! ### Acceptance -/

/-- `p` is at least as hard to call as `q`: same name, same place, perhaps not by keyword, and
required if `q` is. -/
structure Narrower (p q : Param) : Prop where
  name : p.name = q.name
  kind : p.kind = q.kind ∨ p.kind = .positionalOnly ∧ q.kind = .positionalOrKeyword
  required : q.isRequired = true → p.isRequired = true

theorem Narrower.isPositional {p q : Param} (h : Narrower p q) :
    isPositional p = isPositional q := by
  rcases h.kind with h | ⟨h, h'⟩
  · simp [PyCall.isPositional, h]
  · simp [PyCall.isPositional, h, h']

theorem Narrower.hasSlot {p q : Param} (h : Narrower p q) : hasSlot p = hasSlot q := by
  rcases h.kind with h | ⟨h, h'⟩
  · simp [PyCall.hasSlot, h]
  · simp [PyCall.hasSlot, h, h']

theorem Narrower.acceptsKeyword {p q : Param} (h : Narrower p q)
    (hp : acceptsKeyword p = true) : acceptsKeyword q = true := by
  rcases h.kind with h | ⟨h, h'⟩
  · rw [← hp]; simp [PyCall.acceptsKeyword, h]
  · simp [PyCall.acceptsKeyword, h'] 

theorem Narrower.variadic {p q : Param} (h : Narrower p q) {k : Kind} (hk : Variadic k) :
    p.kind = k ↔ q.kind = k := by
  rcases h.kind with h | ⟨h, h'⟩
  · rw [h]
  · rcases hk with rfl | rfl <;> simp [h, h']

theorem narrower_remaining {ps qs : List Param} (h : Pointwise Narrower ps qs) (n : Nat) :
    Pointwise Narrower (remaining ps n) (remaining qs n) :=
  ((h.filter fun _ _ h => h.isPositional).drop n).append
    (h.filter fun _ _ h => by rw [h.isPositional])

theorem narrower_take {ps qs : List Param} (h : Pointwise Narrower ps qs) (n : Nat) :
    Pointwise Narrower ((posOf ps).take n) ((posOf qs).take n) :=
  (h.filter fun _ _ h => h.isPositional).take n

theorem narrower_hasVP {ps qs : List Param} (h : Pointwise Narrower ps qs) (hv : hasVP ps) :
    hasVP qs := by
  obtain ⟨p, hp, hk⟩ := hv
  obtain ⟨q, hq, hn⟩ := h.exists_right hp
  exact ⟨q, hq, (hn.variadic (.inl rfl)).1 hk⟩

theorem narrower_hasVK {ps qs : List Param} (h : Pointwise Narrower ps qs) (hv : hasVK ps) :
    hasVK qs := by
  obtain ⟨p, hp, hk⟩ := hv
  obtain ⟨q, hq, hn⟩ := h.exists_right hp
  exact ⟨q, hq, (hn.variadic (.inr rfl)).1 hk⟩

theorem narrower_countOk {ps qs : List Param} (h : Pointwise Narrower ps qs) {n : Nat}
    (hc : countOk ps n) : countOk qs n := by
  rcases hc with hc | hc
  · exact .inl (narrower_hasVP h hc)
  · have : (posOf ps).length = (posOf qs).length :=
      (h.filter fun _ _ h => h.isPositional).length
    exact .inr (this ▸ hc)

theorem narrower_kwNames {ps qs : List Param} (h : Pointwise Narrower ps qs) {k : String}
    (hk : k ∈ kwNames ps) : k ∈ kwNames qs := by
  obtain ⟨p, hp, hkw, rfl⟩ := mem_kwNames.1 hk
  obtain ⟨q, hq, hn⟩ := h.exists_right hp
  exact mem_kwNames.2 ⟨q, hq, hn.acceptsKeyword hkw, hn.name.symm⟩

theorem narrower_requiredOk {ps qs : List Param} (h : Pointwise Narrower ps qs) {n : Nat}
    {kwargs : Kwargs} (hr : requiredOk ps n kwargs) : requiredOk qs n kwargs := by
  intro q hq hreq hslot
  obtain ⟨p, hp, hn⟩ := (narrower_remaining h n).exists_left hq
  obtain ⟨h1, h2⟩ := hr p hp (hn.required hreq) (hn.hasSlot.trans hslot)
  exact ⟨hn.acceptsKeyword h1, hn.name ▸ h2⟩

/-- Whatever a signature accepts, a function with less demanding parameters accepts, unless a
keyword repeats the name of a positionally filled parameter while there is `**kwargs`. -/
theorem allSet_narrower {s : PlainSig} {qs : List Param} (hs : WellFormed s.parameters)
    (hq : WellFormed qs) (h : Pointwise Narrower s.parameters qs) {args : List Obj}
    {kwargs : Kwargs} (hnd : (keys kwargs).Nodup)
    (hc : ¬ KwCollides qs args.length (keys kwargs)) (ha : s.allSet args kwargs = true) :
    Accepts qs args kwargs := by
  obtain ⟨h1, h2, h3⟩ := (allSet_iff s hs args kwargs).1 ha
  refine (accepts_iff hq args kwargs hnd).2
    ⟨narrower_countOk h h1, fun k hk => ?_, narrower_requiredOk h h3⟩
  rcases h2 with h2 | h2
  · have hvk := narrower_hasVK h h2
    refine .inr ⟨hvk, fun hm => hc ?_⟩
    obtain ⟨p, hp, hkw, rfl⟩ := mem_kwNames.1 hm
    exact ⟨hvk, p, hp, hkw, hk⟩
  · exact .inl (narrower_kwNames (narrower_remaining h _) (h2 k hk))

/-- Acceptance only depends on names, kinds and requiredness. -/
theorem accepts_congr {ps qs : List Param} (hp : WellFormed ps) (hq : WellFormed qs)
    (h : Pointwise (fun p q : Param => p.name = q.name ∧ p.kind = q.kind ∧
      p.isRequired = q.isRequired) ps qs) {args : List Obj} {kwargs : Kwargs}
    (hnd : (keys kwargs).Nodup) : Accepts ps args kwargs ↔ Accepts qs args kwargs := by
  have key : ∀ {ps qs : List Param}, Pointwise (fun p q : Param => p.name = q.name ∧
      p.kind = q.kind ∧ p.isRequired = q.isRequired) ps qs → WellFormed ps → WellFormed qs →
      Accepts ps args kwargs → Accepts qs args kwargs := by
    intro ps qs h hp hq ha
    have hn : Pointwise Narrower ps qs := h.imp fun _ _ _ _ h => ⟨h.1, .inl h.2.1, by simp [h.2.2]⟩
    have hn' : Pointwise Narrower qs ps :=
      h.flip.imp fun _ _ _ _ h => ⟨h.1.symm, .inl h.2.1.symm, by simp [h.2.2]⟩
    obtain ⟨h1, h2, h3⟩ := (accepts_iff hp args kwargs hnd).1 ha
    refine (accepts_iff hq args kwargs hnd).2
      ⟨narrower_countOk hn h1, fun k hk => ?_, narrower_requiredOk hn h3⟩
    rcases h2 k hk with h2 | ⟨h2, h2'⟩
    · exact .inl (narrower_kwNames (narrower_remaining hn _) h2)
    · exact .inr ⟨narrower_hasVK hn h2,
        fun hm => h2' (narrower_kwNames (narrower_take hn' _) hm)⟩
  exact ⟨key h hp hq, key (h.flip.imp fun _ _ _ _ h => ⟨h.1.symm, h.2.1.symm, h.2.2.symm⟩) hq hp⟩

/-- Legality only depends on names, kinds and requiredness. -/
theorem wellFormed_congr {ps qs : List Param}
    (h : Pointwise (fun p q : Param => p.name = q.name ∧ p.kind = q.kind ∧
      p.isOptional = q.isOptional) ps qs) (hp : WellFormed ps) : WellFormed qs where
  distinct := by
    rw [← h.map_eq (f := Param.name) (g := Param.name) fun _ _ h => h.1]; exact hp.distinct
  ordered := h.pairwise (fun _ _ _ _ h h' hr => by rw [← h.2.1, ← h'.2.1]; exact hr) hp.ordered
  oneVarPositional := by
    rw [← h.countP (f := fun p => p.kind == .variadicPositional) fun _ _ h => by rw [h.2.1]]
    exact hp.oneVarPositional
  oneVarKeyword := by
    rw [← h.countP (f := fun p => p.kind == .variadicKeyword) fun _ _ h => by rw [h.2.1]]
    exact hp.oneVarKeyword
  optionalsLast := (h.filter fun _ _ h => by simp [PyCall.isPositional, h.2.1]).pairwise
    (fun _ _ _ _ h h' hr => by rw [← h.2.2, ← h'.2.2]; exact hr) hp.optionalsLast

end Paradigm
