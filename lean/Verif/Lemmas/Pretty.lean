import Verif.Lemmas.Literals
import Verif.Spec.Data

/-!
# Lemmas about printing and reading values
-/

namespace Paradigm

open Spec

theorem Data.ind {P : Data → Prop} (int : ∀ i, P (.int i)) (str : ∀ s, P (.str s))
    (tuple : ∀ xs, (∀ x ∈ xs, P x) → P (.tuple xs)) (list : ∀ xs, (∀ x ∈ xs, P x) → P (.list xs))
    (set : ∀ xs, (∀ x ∈ xs, P x) → P (.set xs))
    (dict : ∀ es, (∀ e ∈ es, P e.1 ∧ P e.2) → P (.dict es)) : ∀ v, P v :=
  Data.rec (motive_1 := P) (motive_2 := fun xs => ∀ x ∈ xs, P x)
    (motive_3 := fun es => ∀ e ∈ es, P e.1 ∧ P e.2) (motive_4 := fun e => P e.1 ∧ P e.2)
    int str tuple list set dict (fun _ h => by cases h)
    (fun x xs hx hxs y hy => by
      rcases List.mem_cons.1 hy with rfl | hy
      · exact hx
      · exact hxs y hy)
    (fun _ h => by cases h)
    (fun x xs hx hxs y hy => by
      rcases List.mem_cons.1 hy with rfl | hy
      · exact hx
      · exact hxs y hy)
    (fun _ _ h1 h2 => ⟨h1, h2⟩)

theorem Spec.Rel2.exists {α β : Type} {R : α → β → Prop} : ∀ {xs : List α}, (∀ x ∈ xs, ∃ y, R x y) →
    ∃ ys, Rel2 R xs ys
  | [], _ => ⟨[], .nil⟩
  | x :: xs, h => by
    obtain ⟨y, hy⟩ := h x List.mem_cons_self
    obtain ⟨ys, hys⟩ := Rel2.exists fun z hz => h z (List.mem_cons_of_mem _ hz)
    exact ⟨y :: ys, .cons hy hys⟩

theorem Spec.Rel2.mono {α β : Type} {R S : α → β → Prop} {xs : List α} {ys : List β} (h : Rel2 R xs ys)
    (hi : ∀ x ∈ xs, ∀ y ∈ ys, R x y → S x y) : Rel2 S xs ys := by
  induction h with
  | nil => exact .nil
  | cons h _ ih =>
    exact .cons (hi _ List.mem_cons_self _ List.mem_cons_self h) (ih fun x hx y hy =>
      hi x (List.mem_cons_of_mem _ hx) y (List.mem_cons_of_mem _ hy))

theorem Spec.Rel2.map {α β γ δ : Type} {R : γ → δ → Prop} {f : α → γ} {g : β → δ} {xs : List α}
    {ys : List β} (h : Rel2 (fun x y => R (f x) (g y)) xs ys) : Rel2 R (xs.map f) (ys.map g) := by
  induction h with
  | nil => exact .nil
  | cons h _ ih => exact .cons h ih

theorem Spec.Rel2.length {α β : Type} {R : α → β → Prop} {xs : List α} {ys : List β} (h : Rel2 R xs ys) :
    xs.length = ys.length := by
  induction h with
  | nil => rfl
  | cons _ _ ih => simp [ih]

theorem Spec.Rel2.eq {α : Type} {xs ys : List α} (h : Rel2 Eq xs ys) : xs = ys := by
  induction h with
  | nil => rfl
  | cons h _ ih => rw [h, ih]

/-! ### Keys -/

theorem hashables_iff : ∀ {xs : List Data}, hashables xs = true ↔ ∀ x ∈ xs, hashable x = true
  | [] => by simp [hashables]
  | x :: xs => by simp [hashables, hashables_iff (xs := xs)]

theorem eq_of_sameKey : ∀ a b : Data, sameKey a b = true → a = b := by
  refine Data.ind (fun i b h => ?_) (fun s b h => ?_) (fun xs ih b h => ?_) (fun xs ih b h => ?_)
    (fun xs ih b h => ?_) (fun es ih b h => ?_)
  · cases b <;> simp [sameKey] at h ⊢; exact h
  · cases b <;> simp [sameKey] at h ⊢; exact h
  · cases b with
    | tuple ys =>
      rw [sameKey] at h
      have : ∀ {xs ys : List Data}, (∀ x ∈ xs, ∀ b, sameKey x b = true → x = b) →
          sameKeys xs ys = true → xs = ys := by
        intro xs
        induction xs with
        | nil => intro ys _ h; cases ys <;> simp [sameKeys] at h ⊢
        | cons x xs ihx =>
          intro ys hx h
          cases ys with
          | nil => simp [sameKeys] at h
          | cons y ys =>
            simp only [sameKeys, Bool.and_eq_true] at h
            rw [hx x List.mem_cons_self y h.1, ihx (fun z hz => hx z (List.mem_cons_of_mem _ hz)) h.2]
      rw [this ih h]
    | _ => simp [sameKey] at h
  · cases b <;> simp [sameKey] at h
  · cases b <;> simp [sameKey] at h
  · cases b <;> simp [sameKey] at h

theorem eq_of_equal_hashable : ∀ a b : Data, hashable a = true → Equal a b → a = b := by
  refine Data.ind (fun i b _ h => ?_) (fun s b _ h => ?_) (fun xs ih b hh h => ?_)
    (fun xs ih b hh h => ?_) (fun xs ih b hh h => ?_) (fun es ih b hh h => ?_)
  · cases h; rfl
  · cases h; rfl
  · cases h with
    | tuple h =>
      rw [hashable, hashables_iff] at hh
      rw [(h.mono fun x hx y _ e => ih x hx y (hh x hx) e).eq]
  · cases hh
  · cases hh
  · cases hh

theorem putEntry_new (k v : Data) : ∀ {es : List (Data × Data)}, k ∉ es.map Prod.fst →
    putEntry k v es = es ++ [(k, v)]
  | [], _ => rfl
  | (k', v') :: es, h => by
    rw [List.map_cons, List.mem_cons, not_or] at h
    rw [putEntry, if_neg fun e => h.1 (eq_of_sameKey _ _ e).symm, putEntry_new k v h.2]
    rfl

theorem foldl_putEntry : ∀ {es acc : List (Data × Data)}, ((acc ++ es).map Prod.fst).Nodup →
    es.foldl (fun d e => putEntry e.1 e.2 d) acc = acc ++ es
  | [], acc, _ => by simp
  | (k, v) :: es, acc, h => by
    have h1 : k ∉ acc.map Prod.fst := by
      rw [List.map_append, List.nodup_append] at h
      intro hk
      exact h.2.2 k hk k (by simp) rfl
    rw [List.foldl_cons, putEntry_new k v h1, foldl_putEntry (by simpa using h)]
    simp

theorem dictOf_distinct {es : List (Data × Data)} (h1 : ∀ e ∈ es, hashable e.1 = true)
    (h2 : (es.map Prod.fst).Nodup) : dictOf es = some (.dict es) := by
  unfold dictOf
  rw [if_pos (List.all_eq_true.2 h1), foldl_putEntry (by simpa using h2)]
  rfl

theorem putElement_new (x : Data) : ∀ {xs : List Data}, x ∉ xs → putElement x xs = xs ++ [x]
  | [], _ => rfl
  | y :: xs, h => by
    rw [List.mem_cons, not_or] at h
    rw [putElement, if_neg fun e => h.1 (eq_of_sameKey _ _ e).symm, putElement_new x h.2]
    rfl

theorem foldl_putElement : ∀ {xs acc : List Data}, (acc ++ xs).Nodup →
    xs.foldl (fun s x => putElement x s) acc = acc ++ xs
  | [], acc, _ => by simp
  | x :: xs, acc, h => by
    have h1 : x ∉ acc := fun hx => (List.nodup_append.1 h).2.2 x hx x (by simp) rfl
    rw [List.foldl_cons, putElement_new x h1, foldl_putElement (by simpa using h)]
    simp

theorem setOf_distinct {xs : List Data} (h1 : ∀ x ∈ xs, hashable x = true) (h2 : xs.Nodup) :
    setOf xs = some (.set xs) := by
  unfold setOf
  rw [if_pos (List.all_eq_true.2 h1), foldl_putElement (by simpa using h2)]
  rfl

/-! ### Items -/

def IsBlank (b : Text) : Prop := ∀ c ∈ b, c = ' ' ∨ c = '\n'

theorem skipBlank_append {b : Text} (h : IsBlank b) (t : Text) : skipBlank (b ++ t) = skipBlank t := by
  unfold skipBlank
  rw [List.dropWhile_append_of_pos]
  intro c hc
  rcases h c hc with rfl | rfl <;> rfl

/-- What a value can begin with. -/
def Begins (c : Char) : Prop :=
  c ≠ ' ' ∧ c ≠ '\n' ∧ c ≠ ']' ∧ c ≠ ')' ∧ c ≠ '}' ∧ c ≠ ',' ∧ c ≠ ':'

theorem skipBlank_cons {c : Char} (h1 : c ≠ ' ') (h2 : c ≠ '\n') (u : Text) :
    skipBlank (c :: u) = c :: u := by
  unfold skipBlank
  rw [List.dropWhile_cons, if_neg]
  simp [h1, h2]

/-- The text of a value, whatever follows. -/
def ReadsAs (t : Text) (v : Data) : Prop :=
  (∃ c u, t = c :: u ∧ Begins c) ∧
    ∀ n r, t.length ≤ n → NoDigit r → readValue n (t ++ r) = some (v, r)

def IsClose (c : Char) : Prop := c = ']' ∨ c = ')' ∨ c = '}'

theorem noDigit_cons {c : Char} (h : c.isDigit = false) (u : Text) : NoDigit (c :: u) := by
  intro c' u' e
  cases e
  exact h

theorem noDigit_blank {b : Text} (hb : IsBlank b) {c : Char} (h : c.isDigit = false) (u : Text) :
    NoDigit (b ++ c :: u) := by
  cases b with
  | nil => exact noDigit_cons h u
  | cons d b =>
    refine noDigit_cons ?_ _
    rcases hb d List.mem_cons_self with rfl | rfl <;> rfl

theorem IsClose.spec {c : Char} (h : IsClose c) : c ≠ ' ' ∧ c ≠ '\n' ∧ c.isDigit = false ∧ c ≠ ',' := by
  rcases h with rfl | rfl | rfl <;> decide

theorem ReadsAs.ne_close {t : Text} {v : Data} (h : ReadsAs t v) {close : Char} (hc : IsClose close) :
    ∃ c u, t = c :: u ∧ c ≠ ' ' ∧ c ≠ '\n' ∧ c ≠ close := by
  obtain ⟨⟨c, u, e, h1, h2, h3, h4, h5, _⟩, _⟩ := h
  refine ⟨c, u, e, h1, h2, ?_⟩
  rcases hc with rfl | rfl | rfl
  · exact h3
  · exact h4
  · exact h5

theorem readItems_close {n : Nat} {close : Char} (hc : IsClose close) {b : Text} (hb : IsBlank b)
    (r : Text) : readItems (n + 1) close (b ++ close :: r) = some ([], false, r) := by
  rw [readItems, skipBlank_append hb, skipBlank_cons hc.spec.1 hc.spec.2.1]
  simp

theorem readItems_last {n : Nat} {close : Char} (hc : IsClose close) {b b' t : Text} {v : Data}
    (hb : IsBlank b) (hb' : IsBlank b') (ht : ReadsAs t v) (hn : t.length ≤ n) (r : Text) :
    readItems (n + 1) close (b ++ (t ++ (b' ++ close :: r))) = some ([v], false, r) := by
  obtain ⟨c, u, e, h1, h2, h3⟩ := ht.ne_close hc
  have hr := ht.2 n (b' ++ close :: r) hn (noDigit_blank hb' hc.spec.2.2.1 r)
  rw [readItems, skipBlank_append hb]
  subst e
  rw [List.cons_append] at hr ⊢
  rw [skipBlank_cons h1 h2]
  simp only [if_neg h3, hr, skipBlank_append hb', skipBlank_cons hc.spec.1 hc.spec.2.1, if_true]

theorem readItems_more {n : Nat} {close : Char} (hc : IsClose close) {b t : Text} {v : Data}
    (hb : IsBlank b) (ht : ReadsAs t v) (hn : t.length ≤ n) {r r' : Text} {vs : List Data} {z : Bool}
    (h : readItems n close r = some (vs, z, r')) :
    readItems (n + 1) close (b ++ (t ++ ',' :: r)) = some (v :: vs, true, r') := by
  obtain ⟨c, u, e, h1, h2, h3⟩ := ht.ne_close hc
  have hr := ht.2 n (',' :: r) hn (noDigit_cons rfl r)
  rw [readItems, skipBlank_append hb]
  subst e
  rw [List.cons_append] at hr ⊢
  rw [skipBlank_cons h1 h2]
  simp only [if_neg h3, hr, skipBlank_cons (show ',' ≠ ' ' by decide) (show ',' ≠ '\n' by decide),
    if_neg hc.spec.2.2.2.symm, if_true, h]

theorem readItems_join {close : Char} (hc : IsClose close) {b' pad : Text} (hb' : IsBlank b')
    (hp : IsBlank pad) (r : Text) : ∀ {ts : List Text} {vs : List Data}, Rel2 ReadsAs ts vs → ts ≠ [] →
    ∀ {b : Text}, IsBlank b → ∀ {n : Nat}, (join [',', '\n'] (ts.map (pad ++ ·))).length < n →
    readItems n close (b ++ (join [',', '\n'] (ts.map (pad ++ ·)) ++ (b' ++ close :: r)))
      = some (vs, decide (2 ≤ vs.length), r) := by
  intro ts vs h
  induction h with
  | nil => intro h; exact absurd rfl h
  | @cons t v ts vs ht hts ih =>
    intro _ b hb n hn
    cases n with
    | zero => cases hn
    | succ n =>
      have hbp : IsBlank (b ++ pad) := fun c h =>
        (List.mem_append.1 h).elim (hb c) (hp c)
      cases ts with
      | nil =>
        cases hts
        simp only [List.map_cons, List.map_nil, join, List.length_append] at hn ⊢
        rw [List.append_assoc, ← List.append_assoc b pad]
        exact readItems_last hc hbp hb' ht (by omega) r
      | cons t' ts =>
        cases hts with
        | @cons _ v' _ vs h1 h2 =>
          have ih := ih (by simp) (b := ['\n']) (n := n) (fun c h => by simp at h; exact .inr h) (by
            simp only [List.map_cons, join, List.length_append, List.length_cons] at hn ⊢
            omega)
          simp only [List.map_cons, join, List.length_append, List.length_cons, List.append_assoc,
            List.cons_append, List.nil_append] at hn ih ⊢
          rw [← List.append_assoc b pad]
          rw [readItems_more hc hbp ht (by omega) ih]
          simp

/-! ### Entries -/

/-- The text of an entry. -/
def EntryReads (t : Text) (e : Data × Data) : Prop :=
  ∃ tk tv, t = tk ++ ':' :: ' ' :: tv ∧ ReadsAs tk e.1 ∧ ReadsAs tv e.2

theorem isClose_brace : IsClose '}' := .inr (.inr rfl)

theorem readEntries_last {n : Nat} {b b' t : Text} {e : Data × Data} (hb : IsBlank b)
    (hb' : IsBlank b') (ht : EntryReads t e) (hn : t.length ≤ n) (r : Text) :
    readEntries (n + 1) (b ++ (t ++ (b' ++ '}' :: r))) = some ([e], r) := by
  obtain ⟨tk, tv, rfl, hk, hv⟩ := ht
  simp only [List.length_append, List.length_cons] at hn
  obtain ⟨c, u, e1, h1, h2, h3⟩ := hk.ne_close isClose_brace
  obtain ⟨c', u', e2, h1', h2', _⟩ := hv.ne_close isClose_brace
  have rk := hk.2 n (':' :: ' ' :: (tv ++ (b' ++ '}' :: r))) (by omega) (noDigit_cons rfl _)
  have rv := hv.2 n (b' ++ '}' :: r) (by omega) (noDigit_blank hb' rfl r)
  have hs : skipBlank (' ' :: (tv ++ (b' ++ '}' :: r))) = tv ++ (b' ++ '}' :: r) := by
    rw [e2]
    exact (skipBlank_append (b := [' ']) (fun c h => by simp at h; exact .inl h) _).trans
      (skipBlank_cons h1' h2' _)
  have hs2 : skipBlank (b ++ (tk ++ ':' :: ' ' :: (tv ++ (b' ++ '}' :: r))))
      = c :: (u ++ ':' :: ' ' :: (tv ++ (b' ++ '}' :: r))) := by
    rw [skipBlank_append hb, e1]
    exact skipBlank_cons h1 h2 _
  rw [e1, List.cons_append] at rk
  simp only [List.append_assoc, List.cons_append]
  rw [readEntries, hs2]
  simp only [if_neg h3, rk, skipBlank_cons (show ':' ≠ ' ' by decide) (show ':' ≠ '\n' by decide),
    if_true, hs, rv, skipBlank_append hb', skipBlank_cons (show '}' ≠ ' ' by decide)
      (show '}' ≠ '\n' by decide)]

theorem readEntries_more {n : Nat} {b t : Text} {e : Data × Data} (hb : IsBlank b)
    (ht : EntryReads t e) (hn : t.length ≤ n) {r r' : Text} {es : List (Data × Data)}
    (h : readEntries n r = some (es, r')) :
    readEntries (n + 1) (b ++ (t ++ ',' :: r)) = some (e :: es, r') := by
  obtain ⟨tk, tv, rfl, hk, hv⟩ := ht
  simp only [List.length_append, List.length_cons] at hn
  obtain ⟨c, u, e1, h1, h2, h3⟩ := hk.ne_close isClose_brace
  obtain ⟨c', u', e2, h1', h2', _⟩ := hv.ne_close isClose_brace
  have rk := hk.2 n (':' :: ' ' :: (tv ++ ',' :: r)) (by omega) (noDigit_cons rfl _)
  have rv := hv.2 n (',' :: r) (by omega) (noDigit_cons rfl r)
  have hs : skipBlank (' ' :: (tv ++ ',' :: r)) = tv ++ ',' :: r := by
    rw [e2]
    exact (skipBlank_append (b := [' ']) (fun c h => by simp at h; exact .inl h) _).trans
      (skipBlank_cons h1' h2' _)
  have hs2 : skipBlank (b ++ (tk ++ ':' :: ' ' :: (tv ++ ',' :: r)))
      = c :: (u ++ ':' :: ' ' :: (tv ++ ',' :: r)) := by
    rw [skipBlank_append hb, e1]
    exact skipBlank_cons h1 h2 _
  rw [e1, List.cons_append] at rk
  simp only [List.append_assoc, List.cons_append]
  rw [readEntries, hs2]
  simp only [if_neg h3, rk, skipBlank_cons (show ':' ≠ ' ' by decide) (show ':' ≠ '\n' by decide),
    if_true, hs, rv, skipBlank_cons (show ',' ≠ ' ' by decide)
      (show ',' ≠ '\n' by decide), if_neg (show ',' ≠ '}' by decide), h]

theorem readEntries_join {b' pad : Text} (hb' : IsBlank b') (hp : IsBlank pad) (r : Text) :
    ∀ {ts : List Text} {es : List (Data × Data)}, Rel2 EntryReads ts es → ts ≠ [] →
    ∀ {b : Text}, IsBlank b → ∀ {n : Nat}, (join [',', '\n'] (ts.map (pad ++ ·))).length < n →
    readEntries n (b ++ (join [',', '\n'] (ts.map (pad ++ ·)) ++ (b' ++ '}' :: r)))
      = some (es, r) := by
  intro ts es h
  induction h with
  | nil => intro h; exact absurd rfl h
  | @cons t v ts vs ht hts ih =>
    intro _ b hb n hn
    cases n with
    | zero => cases hn
    | succ n =>
      have hbp : IsBlank (b ++ pad) := fun c h =>
        (List.mem_append.1 h).elim (hb c) (hp c)
      cases ts with
      | nil =>
        cases hts
        simp only [List.map_cons, List.map_nil, join, List.length_append] at hn ⊢
        rw [List.append_assoc, ← List.append_assoc b pad]
        exact readEntries_last hbp hb' ht (by omega) r
      | cons t' ts =>
        cases hts with
        | @cons _ v' _ vs h1 h2 =>
          have ih := ih (by simp) (b := ['\n']) (n := n) (fun c h => by simp at h; exact .inr h) (by
            simp only [List.map_cons, join, List.length_append, List.length_cons] at hn ⊢
            omega)
          simp only [List.map_cons, join, List.length_append, List.length_cons, List.append_assoc,
            List.cons_append, List.nil_append] at hn ih ⊢
          rw [← List.append_assoc b pad]
          exact readEntries_more hbp ht (by omega) ih

/-- The first characters of joined texts. -/
theorem join_head (sep : Text) (t : Text) (ts : List Text) : ∃ u, join sep (t :: ts) = t ++ u := by
  cases ts with
  | nil => exact ⟨[], by simp [join]⟩
  | cons t' ts => exact ⟨sep ++ join sep (t' :: ts), by simp [join]⟩

theorem readBraces_dict {b b' pad : Text} (hb : IsBlank b) (hb' : IsBlank b') (hp : IsBlank pad)
    (r : Text) {ts : List Text} {es : List (Data × Data)} (h : Rel2 EntryReads ts es) (hne : ts ≠ [])
    {n : Nat} (hn : (join [',', '\n'] (ts.map (pad ++ ·))).length < n)
    (h1 : ∀ e ∈ es, hashable e.1 = true) (h2 : (es.map Prod.fst).Nodup) :
    readBraces (n + 1) (b ++ (join [',', '\n'] (ts.map (pad ++ ·)) ++ (b' ++ '}' :: r)))
      = some (.dict es, r) := by
  have hj := readEntries_join hb' hp r h hne (b := []) (fun _ h => by cases h) hn
  rw [List.nil_append] at hj
  cases h with
  | nil => exact absurd rfl hne
  | @cons t e ts es ht hts =>
    obtain ⟨u, hu⟩ := join_head [',', '\n'] (pad ++ t) (ts.map (pad ++ ·))
    obtain ⟨tk, tv, et, hk, hv⟩ := ht
    obtain ⟨c, w, e1, c1, c2, c3⟩ := hk.ne_close isClose_brace
    simp only [List.map_cons] at hj hn ⊢
    rw [hu] at hj hn ⊢
    have rk := hk.2 n (':' :: ' ' :: (tv ++ (u ++ (b' ++ '}' :: r)))) (by
      simp only [et, List.length_append] at hn; omega) (noDigit_cons rfl _)
    subst et
    simp only [List.append_assoc, List.cons_append] at hj ⊢
    rw [e1, List.cons_append] at rk
    have hs : skipBlank (b ++ (pad ++ (tk ++ ':' :: ' ' :: (tv ++ (u ++ (b' ++ '}' :: r))))))
        = c :: (w ++ ':' :: ' ' :: (tv ++ (u ++ (b' ++ '}' :: r)))) := by
      rw [skipBlank_append hb, skipBlank_append hp, e1]
      exact skipBlank_cons c1 c2 _
    have hj' : readEntries n (c :: (w ++ ':' :: ' ' :: (tv ++ (u ++ (b' ++ '}' :: r)))))
        = some (e :: es, r) := by
      rw [← hj]
      cases n with
      | zero => simp at hn
      | succ n =>
        rw [readEntries, readEntries, skipBlank_append hp, e1, List.cons_append, skipBlank_cons c1 c2]
    rw [readBraces, hs]
    simp only [if_neg c3, rk, skipBlank_cons (show ':' ≠ ' ' by decide) (show ':' ≠ '\n' by decide),
      if_true, hj', dictOf_distinct h1 h2]

theorem readBraces_set {b b' pad : Text} (hb : IsBlank b) (hb' : IsBlank b') (hp : IsBlank pad)
    (r : Text) {ts : List Text} {vs : List Data} (h : Rel2 ReadsAs ts vs) (hne : ts ≠ [])
    {n : Nat} (hn : (join [',', '\n'] (ts.map (pad ++ ·))).length < n)
    (h1 : ∀ v ∈ vs, hashable v = true) (h2 : vs.Nodup) :
    readBraces (n + 1) (b ++ (join [',', '\n'] (ts.map (pad ++ ·)) ++ (b' ++ '}' :: r)))
      = some (.set vs, r) := by
  cases h with
  | nil => exact absurd rfl hne
  | @cons t v ts vs ht hts =>
    obtain ⟨c, w, e1, c1, c2, c3⟩ := ht.ne_close isClose_brace
    cases ts with
    | nil =>
      cases hts
      simp only [List.map_cons, List.map_nil, join, List.length_append] at hn ⊢
      have rk := ht.2 n (b' ++ '}' :: r) (by omega) (noDigit_blank hb' rfl r)
      rw [e1, List.cons_append] at rk
      have hs : skipBlank (b ++ ((pad ++ t) ++ (b' ++ '}' :: r))) = c :: (w ++ (b' ++ '}' :: r)) := by
        rw [skipBlank_append hb, List.append_assoc, skipBlank_append hp, e1]
        exact skipBlank_cons c1 c2 _
      rw [readBraces, hs]
      simp only [if_neg c3, rk, skipBlank_append hb', skipBlank_cons (show '}' ≠ ' ' by decide)
        (show '}' ≠ '\n' by decide), if_neg (show '}' ≠ ':' by decide), if_true, setOf_distinct h1 h2]
    | cons t' ts =>
      have hj := readItems_join isClose_brace hb' hp r hts (by simp) (b := ['\n']) (n := n)
        (fun c h => by simp at h; exact .inr h) (by
          simp only [List.map_cons, join, List.length_append, List.length_cons] at hn ⊢
          omega)
      simp only [List.map_cons, join, List.length_append, List.length_cons, List.append_assoc,
        List.cons_append, List.nil_append] at hn hj ⊢
      have rk := fun x => ht.2 n (',' :: x) (by omega) (noDigit_cons (c := ',') rfl x)
      rw [readBraces, skipBlank_append hb, skipBlank_append hp]
      simp only [e1, List.cons_append] at rk ⊢
      rw [skipBlank_cons c1 c2]
      simp only [if_neg c3, rk, skipBlank_cons (show ',' ≠ ' ' by decide)
        (show ',' ≠ '\n' by decide), if_neg (show ',' ≠ ':' by decide),
        if_neg (show ',' ≠ '}' by decide), if_true, hj, setOf_distinct h1 h2]

/-! ### Values -/

theorem perm_map_lift {α β : Type} {f : α → β} {l : List α} {m : List β} (h : (l.map f).Perm m) :
    ∃ l', l.Perm l' ∧ m = l'.map f := by
  generalize e : l.map f = k at h
  induction h generalizing l with
  | nil => exact ⟨[], by rw [List.map_eq_nil_iff.1 e], rfl⟩
  | cons x _ ih =>
    cases l with
    | nil => cases e
    | cons a l =>
      rw [List.map_cons, List.cons.injEq] at e
      obtain ⟨l', h1, h2⟩ := ih e.2
      exact ⟨a :: l', h1.cons a, by rw [List.map_cons, e.1, h2]⟩
  | swap x y _ =>
    match l, e with
    | a :: b :: l, e =>
      rw [List.map_cons, List.map_cons, List.cons.injEq, List.cons.injEq] at e
      exact ⟨b :: a :: l, .swap b a l, by rw [List.map_cons, List.map_cons, e.1, e.2.1, e.2.2]⟩
  | trans _ _ ih1 ih2 =>
    obtain ⟨l1, h1, e1⟩ := ih1 e
    obtain ⟨l2, h2, e2⟩ := ih2 e1.symm
    exact ⟨l2, h1.trans h2, e2⟩

theorem elementsReprs_eq (printable : Char → Bool) (indent depth : Nat) : ∀ xs : List Data,
    elementsReprs printable indent depth xs
      = (xs.map (reprFrom printable indent depth)).map (padding indent depth ++ ·)
  | [] => by simp [elementsReprs]
  | x :: xs => by simp [elementsReprs, elementsReprs_eq printable indent depth xs]

/-- The text of an entry without padding. -/
def entryRepr (printable : Char → Bool) (indent depth : Nat) (e : Data × Data) : Text :=
  reprFrom printable indent depth e.1 ++ ':' :: ' ' :: reprFrom printable indent depth e.2

theorem entriesReprs_eq (printable : Char → Bool) (indent depth : Nat) : ∀ es : List (Data × Data),
    entriesReprs printable indent depth es
      = (es.map (entryRepr printable indent depth)).map (padding indent depth ++ ·)
  | [] => by simp [entriesReprs]
  | (k, v) :: es => by simp [entriesReprs, entriesReprs_eq printable indent depth es, entryRepr]

theorem blank_padding (indent depth : Nat) : IsBlank (padding indent depth) := by
  intro c hc
  exact .inl (List.mem_replicate.1 hc).2

theorem blank_end (indent depth : Nat) : IsBlank ('\n' :: padding indent depth) := by
  intro c hc
  rcases List.mem_cons.1 hc with rfl | hc
  · exact .inr rfl
  · exact blank_padding indent depth c hc

theorem ne_of_isDigit {c d : Char} (h : c.isDigit = true) (hd : d.isDigit = false) : c ≠ d := by
  rintro rfl
  rw [h] at hd
  cases hd

theorem reads_int (i : Int) : ReadsAs (intRepr i) (.int i) := by
  cases i with
  | ofNat k =>
    obtain ⟨c, u, e⟩ : ∃ c u, Nat.toDigits 10 k = c :: u := by
      cases h : Nat.toDigits 10 k with
      | nil => exact absurd h Nat.toDigits_ne_nil
      | cons c u => exact ⟨c, u, rfl⟩
    have hc : c.isDigit = true :=
      Nat.isDigit_of_mem_toDigits (b := 10) (n := k) (by decide) (by decide)
        (by rw [e]; exact List.mem_cons_self)
    refine ⟨⟨c, u, e, ?_⟩, fun n r hn hr => ?_⟩
    · exact ⟨ne_of_isDigit hc rfl, ne_of_isDigit hc rfl, ne_of_isDigit hc rfl, ne_of_isDigit hc rfl,
        ne_of_isDigit hc rfl, ne_of_isDigit hc rfl, ne_of_isDigit hc rfl⟩
    · have h := readNat_toDigits k r hr
      rw [intRepr, e] at hn ⊢
      rw [e] at h
      cases n with
      | zero => cases hn
      | succ n =>
        rw [List.cons_append] at h ⊢
        rw [readValue, if_neg (not_or.2 ⟨ne_of_isDigit hc rfl, ne_of_isDigit hc rfl⟩),
          if_neg (ne_of_isDigit hc rfl), if_neg (ne_of_isDigit hc rfl), if_neg (ne_of_isDigit hc rfl),
          if_neg (ne_of_isDigit hc rfl), if_pos hc, h]
        rfl
  | negSucc k =>
    refine ⟨⟨'-', _, rfl, by unfold Begins; decide⟩, fun n r hn hr => ?_⟩
    have h := readNat_toDigits (k + 1) r hr
    cases n with
    | zero => cases hn
    | succ n =>
      rw [intRepr, List.cons_append, readValue]
      simp only [reduceIte, Char.reduceEq, or_self, h]
      rfl

theorem reads_str (printable : Char → Bool) (s : Text) : ReadsAs (strRepr printable s) (.str s) := by
  have hq := isQuote_quoteFor s
  refine ⟨⟨quoteFor s, _, rfl, ?_⟩, fun n r hn hr => ?_⟩
  · rcases hq with e | e <;> rw [e] <;> unfold Begins <;> decide
  · unfold strRepr at hn ⊢
    cases n with
    | zero => cases hn
    | succ n =>
      simp only [List.length_cons, List.length_append] at hn
      have := length_flatMap_charRepr printable (quoteFor s) s
      rw [List.cons_append, List.append_assoc, List.singleton_append, readValue,
        if_pos (show quoteFor s = '\'' ∨ quoteFor s = '"' from hq),
        readString_flatMap printable hq r s (by simp only [List.length_nil] at hn; omega)]

/-- A bracketed list of elements, one per line. -/
theorem bracketed_length (o c : Char) (j p : Text) {n : Nat}
    (h : (o :: '\n' :: (j ++ '\n' :: (p ++ [c]))).length ≤ n + 1) : j.length < n - 1 := by
  simp only [List.length_cons, List.length_append, List.length_nil] at h
  omega

theorem reads_list {indent depth : Nat} {ts : List Text} {vs : List Data} (h : Rel2 ReadsAs ts vs)
    (hne : ts ≠ []) : ReadsAs ('[' :: '\n' ::
      (join [',', '\n'] (ts.map (padding indent (depth + 1) ++ ·))
        ++ '\n' :: (padding indent depth ++ [']']))) (.list vs) := by
  refine ⟨⟨'[', _, rfl, by unfold Begins; decide⟩, fun n r hn hr => ?_⟩
  cases n with
  | zero => cases hn
  | succ n =>
    have := bracketed_length _ _ _ _ hn
    have hj := readItems_join (close := ']') (.inl rfl) (blank_end indent depth)
      (blank_padding indent (depth + 1)) r h hne (b := ['\n'])
      (fun c h => by simp at h; exact .inr h) (n := n) (by omega)
    simp only [List.cons_append, List.append_assoc, List.nil_append] at hj ⊢
    rw [readValue]
    simp only [reduceIte, Char.reduceEq, or_self, hj]

theorem reads_tuple {indent depth : Nat} {ts : List Text} {vs : List Data} (h : Rel2 ReadsAs ts vs)
    (hne : 2 ≤ ts.length) : ReadsAs ('(' :: '\n' ::
      (join [',', '\n'] (ts.map (padding indent (depth + 1) ++ ·))
        ++ '\n' :: (padding indent depth ++ [')']))) (.tuple vs) := by
  refine ⟨⟨'(', _, rfl, by unfold Begins; decide⟩, fun n r hn hr => ?_⟩
  cases n with
  | zero => cases hn
  | succ n =>
    have := bracketed_length _ _ _ _ hn
    have hj := readItems_join (close := ')') (.inr (.inl rfl)) (blank_end indent depth)
      (blank_padding indent (depth + 1)) r h (fun e => by rw [e] at hne; cases hne) (b := ['\n'])
      (fun c h => by simp at h; exact .inr h) (n := n) (by omega)
    have hl := h.length
    simp only [List.cons_append, List.append_assoc, List.nil_append] at hj ⊢
    rw [readValue]
    simp only [reduceIte, Char.reduceEq, or_self, hj]
    match vs, hl with
    | [], _ => rfl
    | [_], hl => rw [hl] at hne; simp at hne
    | _ :: _ :: _, _ => simp

theorem reads_single {t : Text} {v : Data} (h : ReadsAs t v) :
    ReadsAs ('(' :: (t ++ [',', ')'])) (.tuple [v]) := by
  refine ⟨⟨'(', _, rfl, by unfold Begins; decide⟩, fun n r hn hr => ?_⟩
  simp only [List.length_cons, List.length_append, List.length_nil] at hn
  match n, hn with
  | n + 3, hn =>
    have hc : IsClose ')' := .inr (.inl rfl)
    have h1 := readItems_close (n := n) hc (b := []) (fun _ h => by cases h) r
    have h2 := readItems_more hc (b := []) (fun _ h => by cases h) h (by omega) h1
    simp only [List.cons_append, List.append_assoc, List.nil_append] at h2 ⊢
    rw [readValue]
    simp only [reduceIte, Char.reduceEq, or_self, h2]

theorem reads_reprFrom (printable : Char → Bool) (indent : Nat) : ∀ v : Data, Proper v →
    ∀ depth, ∃ v', Equal v v' ∧ ReadsAs (reprFrom printable indent depth v) v' := by
  have all : ∀ xs : List Data, (∀ x ∈ xs, Proper x → ∀ depth, ∃ v', Equal x v'
      ∧ ReadsAs (reprFrom printable indent depth x) v') → (∀ x ∈ xs, Proper x) → ∀ depth,
      ∃ ys, Rel2 Equal xs ys ∧ Rel2 ReadsAs (xs.map (reprFrom printable indent depth)) ys := by
    intro xs ih hp depth
    obtain ⟨ys, hys⟩ := Rel2.exists (R := fun x y => Equal x y
      ∧ ReadsAs (reprFrom printable indent depth x) y) fun x hx => ih x hx (hp x hx) depth
    refine ⟨ys, hys.mono fun _ _ _ _ h => h.1, ?_⟩
    have := Rel2.map (R := ReadsAs) (f := reprFrom printable indent depth) (g := id)
      (hys.mono fun _ _ _ _ h => h.2)
    rwa [List.map_id] at this
  refine Data.ind (fun i _ depth => ⟨_, .int, by rw [reprFrom]; exact reads_int i⟩)
    (fun s _ depth => ⟨_, .str, by rw [reprFrom]; exact reads_str printable s⟩)
    (fun xs ih hp depth => ?_) (fun xs ih hp depth => ?_) (fun xs ih hp depth => ?_)
    (fun es ih hp depth => ?_)
  · cases hp with
    | tuple hp =>
      match xs, ih, hp with
      | [], _, _ =>
        refine ⟨_, .tuple .nil, ⟨'(', [')'], by rw [reprFrom], by unfold Begins; decide⟩,
          fun n r hn hr => ?_⟩
        rw [reprFrom] at hn ⊢
        match n, hn with
        | n + 2, _ =>
          have := readItems_close (n := n) (close := ')') (.inr (.inl rfl)) (b := [])
            (fun _ h => by cases h) r
          rw [List.nil_append] at this
          simp only [List.cons_append, List.nil_append]
          rw [readValue]
          simp only [reduceIte, Char.reduceEq, or_self, this]
      | [x], ih, hp =>
        obtain ⟨y, h1, h2⟩ := ih x List.mem_cons_self (hp x List.mem_cons_self) depth
        exact ⟨_, .tuple (.cons h1 .nil), by rw [reprFrom]; exact reads_single h2⟩
      | x :: x' :: xs, ih, hp =>
        obtain ⟨ys, h1, h2⟩ := all _ ih hp (depth + 1)
        refine ⟨_, .tuple h1, ?_⟩
        rw [reprFrom, elementsReprs_eq]
        exact reads_tuple h2 (by simp)
  · cases hp with
    | list hp =>
      cases xs with
      | nil =>
        refine ⟨_, .list .nil, ⟨'[', [']'], by rw [reprFrom], by unfold Begins; decide⟩,
          fun n r hn hr => ?_⟩
        rw [reprFrom] at hn ⊢
        match n, hn with
        | n + 2, _ =>
          have := readItems_close (n := n) (close := ']') (.inl rfl) (b := [])
            (fun _ h => by cases h) r
          rw [List.nil_append] at this
          simp only [List.cons_append, List.nil_append]
          rw [readValue]
          simp only [reduceIte, Char.reduceEq, or_self, this]
      | cons x xs =>
        obtain ⟨ys, h1, h2⟩ := all _ ih hp (depth + 1)
        refine ⟨_, .list h1, ?_⟩
        rw [reprFrom, elementsReprs_eq]
        exact reads_list h2 (by simp)
  · cases hp with
    | set hp hh hn =>
      cases xs with
      | nil =>
        refine ⟨_, .set (.refl _) .nil, ⟨'s', _, by rw [reprFrom], by unfold Begins; decide⟩,
          fun n r hn hr => ?_⟩
        rw [reprFrom] at hn ⊢
        match n, hn with
        | n + 1, _ => rfl
      | cons x xs =>
        obtain ⟨ys, h1, h2⟩ := all _ ih hp (depth + 1)
        have e : x :: xs = ys := (h1.mono fun a ha b _ h => eq_of_equal_hashable a b (hh a ha) h).eq
        subst e
        refine ⟨_, .set (.refl _) h1, ?_⟩
        rw [reprFrom, elementsReprs_eq]
        refine ⟨⟨'{', _, rfl, by unfold Begins; decide⟩, fun n r hl hr => ?_⟩
        match n, hl with
        | n + 2, hl =>
          have := bracketed_length _ _ _ _ hl
          have hj := readBraces_set (b := ['\n']) (fun c h => by simp at h; exact .inr h)
            (blank_end indent depth) (blank_padding indent (depth + 1)) r h2 (by simp) (n := n)
            (by omega) hh hn
          simp only [List.cons_append, List.append_assoc, List.nil_append] at hj ⊢
          rw [readValue]
          simp only [reduceIte, Char.reduceEq, or_self, hj]
  · cases hp with
    | dict hk hv hh hn =>
      cases es with
      | nil =>
        refine ⟨.dict [], .dict (.refl _) .nil .nil, ⟨'{', ['}'], by rw [reprFrom],
          by unfold Begins; decide⟩, fun n r hn hr => ?_⟩
        rw [reprFrom] at hn ⊢
        match n, hn with
        | n + 2, _ =>
          simp only [List.cons_append, List.nil_append]
          rw [readValue]
          simp only [reduceIte, Char.reduceEq, or_self]
          rw [readBraces, skipBlank_cons (by decide) (by decide)]
          rfl
      | cons e es =>
        obtain ⟨lines, h1, h2⟩ : ∃ lines, (e :: es).Perm lines
            ∧ sortTexts (entriesReprs printable indent (depth + 1) (e :: es))
              = (lines.map (entryRepr printable indent (depth + 1))).map
                (padding indent (depth + 1) ++ ·) := by
          obtain ⟨l, h1, h2⟩ := perm_map_lift (f := fun e => padding indent (depth + 1)
            ++ entryRepr printable indent (depth + 1) e) (l := e :: es)
            (m := sortTexts (entriesReprs printable indent (depth + 1) (e :: es))) (by
              rw [entriesReprs_eq, List.map_map]
              exact (List.mergeSort_perm _ _).symm)
          exact ⟨l, h1, by rw [h2, List.map_map]; rfl⟩
        obtain ⟨fs, hfs⟩ := Rel2.exists (xs := lines) (R := fun a b => (Equal a.1 b.1 ∧ Equal a.2 b.2)
            ∧ EntryReads (entryRepr printable indent (depth + 1) a) b) (by
          intro a ha
          have ha' := h1.mem_iff.2 ha
          obtain ⟨k, k1, k2⟩ := (ih a ha').1 (hk a ha') (depth + 1)
          obtain ⟨v, v1, v2⟩ := (ih a ha').2 (hv a ha') (depth + 1)
          exact ⟨(k, v), ⟨k1, v1⟩, _, _, rfl, k2, v2⟩)
        have keys : lines.map Prod.fst = fs.map Prod.fst := (Rel2.map (R := Eq)
          (f := Prod.fst) (g := Prod.fst) (hfs.mono fun a ha b _ h =>
            eq_of_equal_hashable a.1 b.1 (hh a (h1.mem_iff.2 ha)) h.1.1)).eq
        have hh' : ∀ f ∈ fs, hashable f.1 = true := by
          intro f hf
          have : f.1 ∈ lines.map Prod.fst := by rw [keys]; exact List.mem_map.2 ⟨f, hf, rfl⟩
          obtain ⟨a, ha, ea⟩ := List.mem_map.1 this
          rw [← ea]
          exact hh a (h1.mem_iff.2 ha)
        have hn' : (fs.map Prod.fst).Nodup := by
          rw [← keys]
          exact (h1.map Prod.fst).nodup_iff.1 hn
        have hreads : Rel2 EntryReads (lines.map (entryRepr printable indent (depth + 1))) fs := by
          have := Rel2.map (R := EntryReads) (f := entryRepr printable indent (depth + 1)) (g := id)
            (hfs.mono fun _ _ _ _ h => h.2)
          rwa [List.map_id] at this
        refine ⟨.dict fs, .dict h1 (Rel2.map (hfs.mono fun _ _ _ _ h => h.1.1))
          (Rel2.map (hfs.mono fun _ _ _ _ h => h.1.2)), ?_⟩
        rw [reprFrom, h2]
        refine ⟨⟨'{', _, rfl, by unfold Begins; decide⟩, fun n r hl hr => ?_⟩
        match n, hl with
        | n + 2, hl =>
          have := bracketed_length _ _ _ _ hl
          have hj := readBraces_dict (b := ['\n']) (fun c h => by simp at h; exact .inr h)
            (blank_end indent depth) (blank_padding indent (depth + 1)) r hreads (by
              intro e0
              have := h1.length_eq
              rw [List.map_eq_nil_iff.1 e0] at this
              cases this) (n := n)
            (by omega) hh' hn'
          simp only [List.cons_append, List.append_assoc, List.nil_append] at hj ⊢
          rw [readValue]
          simp only [reduceIte, Char.reduceEq, or_self, hj]

end Paradigm
