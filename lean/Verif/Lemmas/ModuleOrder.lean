import Verif.Lemmas.Declared
import Verif.Spec.ModuleOrder

/-!
# Lemmas about the order in which modules are read
-/

namespace Paradigm

open Spec

theorem Spec.SameAt.symm' {s t : ParseState} {m : Path} (h : SameAt s t m) : SameAt t s m :=
  ⟨h.1.symm, h.2.symm, h.3.symm, h.4.symm, h.5.symm, h.6.symm, fun p => (h.7 p).symm,
   fun p => (h.8 p).symm⟩

/-! ### Files that were opened -/

/-- Files that were opened stay so. -/
def Longer (s t : ParseState) : Prop := s.reads.length ≤ t.reads.length

theorem longer_preorder : Preorder' Longer :=
  ⟨fun _ => Nat.le_refl _, fun h h' => Nat.le_trans h h'⟩

theorem longer_rels (E : StubFiles) : Rels E (fun _ => Longer) (fun _ _ => Longer) Longer where
  preV _ := longer_preorder
  preW _ _ := longer_preorder
  preR := longer_preorder
  RV _ _ _ h := h
  RW _ _ _ _ h := h
  updates _ := ⟨fun _ _ => Nat.le_refl _, fun _ _ _ => Nat.le_refl _, fun _ _ => Nat.le_refl _,
    fun _ _ _ _ => Nat.le_refl _⟩
  definition _ _ _ _ := Nat.le_refl _
  baseUpdates _ _ := ⟨fun _ _ => Nat.le_refl _, fun _ _ _ => Nat.le_refl _, fun _ => Nat.le_refl _,
    fun _ _ => Nat.le_refl _⟩
  head _ _ _ _ h := h
  child _ _ _ _ h := h
  asked _ _ _ _ := Nat.le_succ _
  started _ _ _ _ _ h := Nat.le_trans (Nat.le_succ _) h

/-- A module that was not visited is asked for. -/
theorem parse_longer (E : StubFiles) (n : Nat) {m : Path} {s : ParseState} (h : m ∉ s.visited) :
    s.reads.length < (parseScope E (n + 1) m s).2.reads.length := by
  cases hs : E.source m with
  | none => rw [parse_missing E n h hs]; exact Nat.lt_succ_self _
  | some body =>
    rw [parse_source E n h hs]
    refine Nat.lt_of_lt_of_le (Nat.lt_succ_self _) (?_ : Longer (started m s) _)
    exact Pres.bind longer_preorder (Pres.each longer_preorder _ fun node _ =>
      (parsing_rels (longer_rels E) n).1 _ node) (fun _ => Pres.item longer_preorder _ _) _

/-! ### Computations side by side -/

/-- Whenever the second computation opens no file, the first one does the same, unless one of them runs into
the recursion limit. `K` holds of the tables before and after an exception, `K'` after a result. -/
def Abreast {α : Type} (K K' : ParseState → ParseState → Prop) (x y : P α) : Prop :=
  Pres Longer y ∧ ∀ s t, K s t → (y t).2.reads.length = t.reads.length →
    (x s).1 = .error .recursionError ∨ (y t).1 = .error .recursionError ∨
    (∃ e s' t', x s = (.error e, s') ∧ y t = (.error e, t') ∧ K s' t') ∨
    (∃ a s' t', x s = (.ok a, s') ∧ y t = (.ok a, t') ∧ K' s' t')

namespace Abreast

variable {α β γ : Type} {K K' K'' : ParseState → ParseState → Prop}

theorem bind {x y : P α} {f g : α → P β} (hx : Abreast K K' x y) (hK : ∀ s t, K' s t → K s t)
    (hf : ∀ a, Abreast K' K'' (f a) (g a)) : Abreast K K'' (x >>= f) (y >>= g) := by
  refine ⟨Pres.bind longer_preorder hx.1 fun a => (hf a).1, fun s t hs hr => ?_⟩
  show (P.bind x f s).1 = _ ∨ (P.bind y g t).1 = _ ∨ (∃ e s' t', P.bind x f s = _ ∧ P.bind y g t = _ ∧ _) ∨
    (∃ a s' t', P.bind x f s = _ ∧ P.bind y g t = _ ∧ _)
  replace hr : (P.bind y g t).2.reads.length = t.reads.length := hr
  have h0 : (y t).2.reads.length = t.reads.length := by
    refine Nat.le_antisymm ?_ (hx.1 t)
    rw [← hr]
    unfold P.bind
    cases hy : y t with
    | mk r t1 =>
      cases r with
      | error e => exact Nat.le_refl _
      | ok a => exact (hf a).1 t1
  rcases hx.2 s t hs h0 with h | h | ⟨e, s', t', h1, h2, h3⟩ | ⟨a, s', t', h1, h2, h3⟩
  · refine .inl ?_
    unfold P.bind
    cases hxs : x s with
    | mk r s1 => rw [hxs] at h; cases h; rfl
  · refine .inr (.inl ?_)
    unfold P.bind
    cases hxs : y t with
    | mk r s1 => rw [hxs] at h; cases h; rfl
  · refine .inr (.inr (.inl ⟨e, s', t', ?_, ?_, h3⟩))
    · unfold P.bind; rw [h1]
    · unfold P.bind; rw [h2]
  · have e1 : P.bind x f s = f a s' := by unfold P.bind; rw [h1]
    have e2 : P.bind y g t = g a t' := by unfold P.bind; rw [h2]
    rw [h2] at h0
    rw [e2] at hr
    rw [e1, e2]
    rcases (hf a).2 s' t' h3 (hr.trans h0.symm) with h | h | ⟨e, s'', t'', k1, k2, k3⟩ | h
    · exact .inl h
    · exact .inr (.inl h)
    · exact .inr (.inr (.inl ⟨e, s'', t'', k1, k2, hK _ _ k3⟩))
    · exact .inr (.inr (.inr h))

/-- Computations that keep a relation. -/
theorem andThen {x y : P α} {f g : α → P β} (hx : Abreast K K x y) (hf : ∀ a, Abreast K K' (f a) (g a)) :
    Abreast K K' (x >>= f) (y >>= g) := bind hx (fun _ _ h => h) hf

theorem after {x y : P α} (h : Abreast K K' x y) (hK : ∀ s t, K' s t → K'' s t) : Abreast K K'' x y := by
  refine ⟨h.1, fun s t hs hr => ?_⟩
  rcases h.2 s t hs hr with h | h | h | ⟨a, s', t', h1, h2, h3⟩
  · exact .inl h
  · exact .inr (.inl h)
  · exact .inr (.inr (.inl h))
  · exact .inr (.inr (.inr ⟨a, s', t', h1, h2, hK _ _ h3⟩))

protected theorem pure (a : α) : Abreast K K (pure a) (pure a) :=
  ⟨Pres.pure' longer_preorder _, fun s t hs _ => .inr (.inr (.inr ⟨a, s, t, rfl, rfl, hs⟩))⟩

theorem fail (e : PyErr) : Abreast K K' (P.fail (α := α) e) (P.fail e) :=
  ⟨Pres.fail longer_preorder _, fun s t hs _ => .inr (.inr (.inl ⟨e, s, t, rfl, rfl, hs⟩))⟩

/-- The first computation is at the recursion limit. -/
theorem limit {y : P α} (h : Pres Longer y) : Abreast K K' (P.fail .recursionError) y :=
  ⟨h, fun _ _ _ _ => .inl rfl⟩

/-- The second computation is at the recursion limit. -/
theorem limit' {x : P α} : Abreast K K' x (P.fail .recursionError) :=
  ⟨Pres.fail longer_preorder _, fun _ _ _ _ => .inr (.inl rfl)⟩

theorem lift (r : Except PyErr α) : Abreast K K (P.lift r) (P.lift r) := by
  cases r with
  | error e => exact fail e
  | ok a => exact Abreast.pure a

theorem item {δ ε : Type} [BEq δ] (d : ParseState → Dict δ ε) (k : δ)
    (h : ∀ s t, K s t → (d s).lookup k = (d t).lookup k) : Abreast K K (P.item d k) (P.item d k) := by
  refine ⟨Pres.item longer_preorder _ _, fun s t hs _ => ?_⟩
  unfold P.item
  rw [h s t hs]
  cases (d t).lookup k with
  | none => exact .inr (.inr (.inl ⟨_, _, _, rfl, rfl, hs⟩))
  | some v => exact .inr (.inr (.inr ⟨_, _, _, rfl, rfl, hs⟩))

/-- Looking at a part of the tables that is the same. -/
theorem look (p : ParseState → γ) {f g : γ → P α} (h : ∀ s t, K s t → p s = p t)
    (hf : ∀ v, Abreast K K' (f v) (g v)) :
    Abreast K K' (P.get >>= fun s => f (p s)) (P.get >>= fun s => g (p s)) := by
  refine ⟨Pres.bind longer_preorder (Pres.get longer_preorder) fun s => (hf (p s)).1, fun s t hs hr => ?_⟩
  have e1 : (P.get >>= fun s => f (p s)) s = f (p s) s := rfl
  have e2 : (P.get >>= fun s => g (p s)) t = g (p t) t := rfl
  rw [e2] at hr
  rw [e1, e2, h s t hs]
  exact (hf (p t)).2 s t hs hr

theorem orNotFound {x y x' y' : P α} (h : Abreast K K x y) (h' : Abreast K K x' y') :
    Abreast K K (P.orNotFound x x') (P.orNotFound y y') := by
  refine ⟨Pres.orNotFound longer_preorder h.1 h'.1, fun s t hs hr => ?_⟩
  have h0 : (y t).2.reads.length = t.reads.length := by
    refine Nat.le_antisymm ?_ (h.1 t)
    rw [← hr]
    unfold P.orNotFound
    cases hy : y t with
    | mk r t1 =>
      cases r with
      | ok a => exact Nat.le_refl _
      | error e =>
        cases e
        case objectNotFound => exact h'.1 t1
        all_goals exact Nat.le_refl _
  rcases h.2 s t hs h0 with h1 | h1 | ⟨e, s', t', h1, h2, h3⟩ | ⟨a, s', t', h1, h2, h3⟩
  · refine .inl ?_
    unfold P.orNotFound
    cases hxs : x s with
    | mk r s1 => rw [hxs] at h1; cases h1; rfl
  · refine .inr (.inl ?_)
    unfold P.orNotFound
    cases hxs : y t with
    | mk r s1 => rw [hxs] at h1; cases h1; rfl
  · unfold P.orNotFound at hr ⊢
    rw [h2] at hr h0
    rw [h1, h2]
    cases e
    case objectNotFound => exact h'.2 s' t' h3 (hr.trans h0.symm)
    all_goals exact .inr (.inr (.inl ⟨_, _, _, rfl, rfl, h3⟩))
  · unfold P.orNotFound
    rw [h1, h2]
    exact .inr (.inr (.inr ⟨_, _, _, rfl, rfl, h3⟩))

theorem each {f g : γ → P Unit} : ∀ (xs : List γ), (∀ x ∈ xs, Abreast K K (f x) (g x)) →
    Abreast K K (P.each f xs) (P.each g xs)
  | [], _ => Abreast.pure ()
  | x :: xs, h => (h x List.mem_cons_self).andThen fun _ =>
      each xs fun y hy => h y (List.mem_cons_of_mem _ hy)

theorem map {f g : γ → P α} : ∀ (xs : List γ), (∀ x ∈ xs, Abreast K K (f x) (g x)) →
    Abreast K K (P.map f xs) (P.map g xs)
  | [], _ => Abreast.pure []
  | x :: xs, h => (h x List.mem_cons_self).andThen fun _ =>
      (map xs fun y hy => h y (List.mem_cons_of_mem _ hy)).andThen fun _ => Abreast.pure _

theorem filter {f g : γ → P Bool} : ∀ (xs : List γ), (∀ x ∈ xs, Abreast K K (f x) (g x)) →
    Abreast K K (P.filter f xs) (P.filter g xs)
  | [], _ => Abreast.pure []
  | x :: xs, h => (h x List.mem_cons_self).andThen fun _ =>
      (filter xs fun y hy => h y (List.mem_cons_of_mem _ hy)).andThen fun _ => Abreast.pure _

theorem firstFound {f g : γ → P α} {x y : P α} (h : Abreast K K x y) : ∀ (xs : List γ),
    (∀ x ∈ xs, Abreast K K (f x) (g x)) → Abreast K K (P.firstFound f x xs) (P.firstFound g y xs)
  | [], _ => h
  | x :: xs, h' => orNotFound (h' x List.mem_cons_self)
      (firstFound h xs fun y hy => h' y (List.mem_cons_of_mem _ hy))

end Abreast

/-! ### Updates of one module -/

/-- The update changes one module only, in a way that depends on this module only. -/
structure Local (m : Path) (f : ParseState → ParseState) : Prop where
  same : ∀ s t, SameAt s t m → SameAt (f s) (f t) m
  frame : ∀ s x, x ≠ m → SameAt s (f s) x
  visited : ∀ s, (f s).visited = s.visited
  reads : ∀ s, (f s).reads = s.reads

theorem lookup_dictUpdate_congr {α β : Type} [BEq α] [LawfulBEq α] {d d' : Dict α β} {k x : α} {z : β}
    {f : β → β} (h : d'.lookup x = d.lookup x) :
    (dictUpdate d' k z f).lookup x = (dictUpdate d k z f).lookup x := by
  by_cases hx : x = k
  · subst hx
    rw [lookup_dictUpdate_self, lookup_dictUpdate_self, h]
  · rw [lookup_dictUpdate_ne _ _ _ hx, lookup_dictUpdate_ne _ _ _ hx, h]

theorem lookup_dictSet_congr {α β : Type} [BEq α] [LawfulBEq α] {d d' : Dict α β} {k x : α} {v : β}
    (h : d'.lookup x = d.lookup x) : (dictSet d' k v).lookup x = (dictSet d k v).lookup x := by
  rw [lookup_dictSet, lookup_dictSet, h]

/-- Proves that an update is local. -/
macro "is_local" : tactic => `(tactic| (
  refine ⟨fun s t h => same_of ?_ ?_ ?_ ?_ ?_ ?_ (fun p => ?_) (fun p => ?_),
    fun s x hx => same_of ?_ ?_ ?_ ?_ ?_ ?_ (fun p => ?_) (fun p => ?_), fun _ => rfl, fun _ => rfl⟩
  all_goals simp only [addDefinition, addKind, addNode, addReference, addSubmodule, addSuperclass, addBase]
  all_goals first
    | exact h.nodes
    | exact h.kinds
    | exact h.definitions
    | exact h.references
    | exact h.submodules
    | exact h.superclasses
    | exact h.classesBases _
    | exact h.generics _
    | exact lookup_dictUpdate_congr h.nodes
    | exact lookup_dictUpdate_congr h.kinds
    | exact lookup_dictUpdate_congr h.definitions
    | exact lookup_dictUpdate_congr h.references
    | exact lookup_dictUpdate_congr h.submodules
    | exact lookup_dictUpdate_congr h.superclasses
    | exact lookup_dictUpdate_congr (h.classesBases _)
    | exact lookup_dictSet_congr (h.classesBases _)
    | exact lookup_dictSet_congr (h.generics _)
    | exact lookup_dictUpdate_ne _ _ _ hx
    | exact lookup_dictUpdate_ne _ _ _ (pair_ne hx _ _)
    | exact lookup_dictSet_ne _ _ (pair_ne hx _ _)))

theorem addNode_local (c : Place) (path : Path) (node : Stmt) : Local c.module (addNode c path node) := by
  is_local

theorem addKind_local (c : Place) (path : Path) (kind : NodeKind) : Local c.module (addKind c path kind) := by
  is_local

theorem addDefinition_local (c : Place) (path : Path) : Local c.module (addDefinition c path) := by
  is_local

theorem addReference_local (c : Place) (path : Path) (q : QPath) : Local c.module (addReference c path q) := by
  is_local

theorem addSubmodule_local (c : Place) (x : Path) : Local c.module (addSubmodule c x) := by
  is_local

theorem addSuperclass_local (m child : Path) (q : QPath) : Local m (addSuperclass m child q) := by
  is_local

theorem addBase_local (m path : Path) (base : Expr) : Local m (addBase (m, path) base) := by
  is_local

theorem clear_local (m path : Path) : Local m
    (fun s => { s with classesBases := dictSet s.classesBases (m, path) [] }) := by
  is_local

theorem generics_local (m path : Path) (ps : List Path) : Local m
    (fun s => { s with generics := dictSet s.generics (m, path) ps }) := by
  is_local

/-! ### Two readings of one module -/

/-- The tables `s` hold of the modules `l` what `t0` holds, if they were visited at all, and nothing of modules
that were not visited. -/
structure Fits (l : List Path) (t0 s : ParseState) : Prop where
  same : ∀ x ∈ l, x ∈ s.visited → SameAt t0 s x
  clean : ∀ x, x ∉ s.visited → SameAt {} s x

/-- Reading one of the modules `l` leads to what `t0` holds. -/
def LeadsTo (E : StubFiles) (l : List Path) (t0 : ParseState) : Prop :=
  ∀ n x s, x ∈ l → (x = builtinsPath ∨ builtinsPath ∈ s.visited) → Fits l t0 s →
    (parseScope E n x s).1 = .error .recursionError ∨
    ∃ d s', parseScope E n x s = (.ok d, s') ∧ t0.definitions.lookup x = some d ∧ x ∈ s'.visited ∧
      Fits l t0 s' ∧ ∀ y ∈ s'.visited, y ∈ s.visited ∨ y ∈ l

/-- The module `m` is being read from `s0` on one side, and after all modules of `l` on the other; the modules
of `A` were asked for. -/
structure Together (l : List Path) (t0 : ParseState) (m : Path) (s0 : ParseState) (A : List Path)
    (s t : ParseState) : Prop where
  here : SameAt t s m
  fits : Fits l t0 s
  mine : m ∈ s.visited
  asked : ∀ x ∈ A, x ∈ s.visited ∧ (x = m ∨ x ∈ l)
  within : ∀ x ∈ s.visited, x ∈ s0.visited ∨ x ∈ l ∨ x = m
  still : ∀ x ∈ l, SameAt t0 t x
  seen : ∀ x, x ∈ t.visited → x = m ∨ x ∈ l

section reading

variable {E : StubFiles} {l : List Path} {t0 : ParseState} {m : Path} {s0 : ParseState} {A : List Path}

theorem Together.at {s t : ParseState} (h : Together l t0 m s0 A s t) {x : Path} (hx : x ∈ A) : SameAt t s x := by
  obtain ⟨h1, rfl | h2⟩ := h.asked x hx
  · exact h.here
  · exact (h.still x h2).symm'.trans' (h.fits.same x h2 h1)

theorem Together.less {s t : ParseState} {x : Path} (h : Together l t0 m s0 (x :: A) s t) : Together l t0 m s0 A s t :=
  ⟨h.here, h.fits, h.mine, fun y hy => h.asked y (List.mem_cons_of_mem _ hy), h.within, h.still, h.seen⟩

theorem Abreast.update {f : ParseState → ParseState} (hf : Local m f) (hm : m ∉ l) :
    Abreast (Together l t0 m s0 A) (Together l t0 m s0 A) (P.update f) (P.update f) := by
  refine ⟨fun t => by unfold P.update; exact Nat.le_of_eq (congrArg List.length (hf.reads t)).symm,
    fun s t h _ => .inr (.inr (.inr ⟨(), f s, f t, rfl, rfl, ?_⟩))⟩
  have hne : ∀ x ∈ l, x ≠ m := fun x hx e => hm (e ▸ hx)
  refine ⟨hf.same _ _ h.here, ⟨fun x hx hv => ?_, fun x hx => ?_⟩, ?_, fun x hx => ?_, fun x hx => ?_,
    fun x hx => ?_, fun x hx => ?_⟩
  · rw [hf.visited] at hv
    exact (h.fits.same x hx hv).trans' (hf.frame s x (hne x hx))
  · rw [hf.visited] at hx
    exact (h.fits.clean x hx).trans' (hf.frame s x fun e => hx (e ▸ h.mine))
  · rw [hf.visited]; exact h.mine
  · rw [hf.visited]; exact h.asked x hx
  · rw [hf.visited] at hx; exact h.within x hx
  · exact (h.still x hx).trans' (hf.frame t x (hne x hx))
  · rw [hf.visited] at hx; exact h.seen x hx

theorem parse_abreast (hl : LeadsTo E l t0) (hb : builtinsPath ∈ A) (n N : Nat) (x : Path) :
    Abreast (Together l t0 m s0 A) (Together l t0 m s0 (x :: A)) (parseScope E n x) (parseScope E N x) := by
  have hlong : Pres Longer (parseScope E N x) := (parsing_rels (longer_rels E) N).2.2 x
  cases N with
  | zero => simp only [parseScope]; exact Abreast.limit'
  | succ N =>
    cases n with
    | zero => rw [show parseScope E 0 x = P.fail .recursionError by rw [parseScope]]; exact Abreast.limit hlong
    | succ n =>
      refine ⟨hlong, fun s t h hr => ?_⟩
      by_cases hx : x ∈ t.visited
      · rw [parse_visited E N hx]
        rcases h.seen x hx with rfl | hxl
        · rw [parse_visited E n h.mine]
          unfold P.item
          rw [h.here.definitions]
          cases t.definitions.lookup x with
          | none => exact .inr (.inr (.inl ⟨_, _, _, rfl, rfl, h⟩))
          | some v =>
            refine .inr (.inr (.inr ⟨_, _, _, rfl, rfl, ⟨h.here, h.fits, h.mine, fun y hy => ?_, h.within,
              h.still, h.seen⟩⟩))
            rcases List.mem_cons.1 hy with rfl | hy
            · exact ⟨h.mine, .inl rfl⟩
            · exact h.asked y hy
        · rcases hl (n + 1) x s hxl (.inr (h.asked _ hb).1) h.fits with h1 | ⟨d, s', h1, h2, h3, h4, h5⟩
          · exact .inl h1
          · refine .inr (.inr (.inr ⟨d, s', t, h1, ?_, ?_⟩))
            · unfold P.item
              rw [(h.still x hxl).definitions, h2]
            · have hext := (parsing_ext E (n + 1)).2.2 x s
              rw [h1] at hext
              refine ⟨h.here.trans' (hext.same m h.mine id), h4, hext.visited m h.mine, fun y hy => ?_,
                fun y hy => ?_, h.still, h.seen⟩
              · rcases List.mem_cons.1 hy with rfl | hy
                · exact ⟨h3, .inr hxl⟩
                · exact ⟨hext.visited y (h.asked y hy).1, (h.asked y hy).2⟩
              · rcases h5 y hy with hy | hy
                · exact h.within y hy
                · exact .inr (.inl hy)
      · exact absurd hr (Nat.ne_of_gt (parse_longer E N hx))

theorem resolve_abreast (hl : LeadsTo E l t0) : ∀ (n N : Nat) (A : List Path), builtinsPath ∈ A →
    ∀ (x parent object : Path), Abreast (Together l t0 m s0 A) (Together l t0 m s0 A) (resolveP E n x parent object)
      (resolveP E N x parent object)
  | n, 0, _, _, _, _, _ => by
    simp only [show ∀ x p o, resolveP E 0 x p o = P.fail .recursionError from
      fun _ _ _ => by rw [resolveP]]
    exact Abreast.limit'
  | 0, N + 1, _, _, x, parent, object => by
    rw [show resolveP E 0 x parent object = P.fail .recursionError by rw [resolveP]]
    exact Abreast.limit ((parsing_rels (longer_rels E) (N + 1)).2.1 _ _ _)
  | n + 1, N + 1, A, hb, x, parent, object => by
    cases object with
    | nil => unfold resolveP; exact Abreast.fail _
    | cons head rest =>
      unfold resolveP
      refine Abreast.bind (parse_abreast hl hb n N x) (fun _ _ => Together.less) fun defs =>
        Abreast.after (K' := Together l t0 m s0 (x :: A)) ?_ fun _ _ => Together.less
      unfold resolveIn
      split
      · exact Abreast.pure _
      · split
        · exact Abreast.pure _
        · refine Abreast.look (fun s => (s.submodules.lookup x).getD [])
            (f := fun subs => P.firstFound (fun sub => resolveP E n sub [] (head :: rest)) _ subs)
            (g := fun subs => P.firstFound (fun sub => resolveP E N sub [] (head :: rest)) _ subs)
            (fun s t h => by rw [(h.at List.mem_cons_self).submodules]) fun subs => ?_
          refine Abreast.firstFound ?_ _ fun sub _ =>
            resolve_abreast hl n N (x :: A) (List.mem_cons_of_mem _ hb) sub [] (head :: rest)
          refine Abreast.andThen (Abreast.item _ _ fun s t h => (h.at List.mem_cons_self).references) fun refs => ?_
          cases longestReference refs (head :: rest) (rest.length + 1) with
          | some kq => exact Abreast.pure _
          | none =>
            refine Abreast.andThen (Abreast.item _ _ fun s t h =>
              (h.at (List.mem_cons_of_mem _ hb)).definitions) fun bs => ?_
            split
            · exact Abreast.pure _
            · exact Abreast.fail _

theorem toQualified_abreast (hl : LeadsTo E l t0) (hm : m ∉ l) (hb : builtinsPath ∈ A) (n N : Nat) (parent object : Path) :
    Abreast (Together l t0 m s0 A) (Together l t0 m s0 A) (toQualified (resolveP E n) ⟨m, parent⟩ object)
      (toQualified (resolveP E N) ⟨m, parent⟩ object) :=
  Abreast.orNotFound (resolve_abreast hl n N A hb _ _ _)
    (Abreast.andThen (Abreast.update (addDefinition_local ⟨m, parent⟩ _) hm) fun _ => Abreast.pure _)

theorem isTypeVar_abreast (hl : LeadsTo E l t0) (hm : m ∉ l) (hb : builtinsPath ∈ A) (n N : Nat) (parent object : Path) :
    Abreast (Together l t0 m s0 A) (Together l t0 m s0 A)
      (isTypeVar (parseScope E n) (resolveP E n) ⟨m, parent⟩ object)
      (isTypeVar (parseScope E N) (resolveP E N) ⟨m, parent⟩ object) := by
  unfold isTypeVar
  refine Abreast.andThen (toQualified_abreast hl hm hb n N _ _) fun q => ?_
  refine Abreast.bind (parse_abreast hl hb n N q.1) (fun _ _ => Together.less) fun _ =>
    Abreast.after (K' := Together l t0 m s0 (q.1 :: A)) ?_ fun _ _ => Together.less
  refine Abreast.andThen (Abreast.item _ _ fun s t h => (h.at List.mem_cons_self).nodes) fun nodes => ?_
  split
  · split
    · exact Abreast.pure _
    · exact Abreast.andThen (resolve_abreast hl n N _ (List.mem_cons_of_mem _ hb) _ _ _) fun _ => Abreast.pure _
  · exact Abreast.pure _

theorem visitBase_abreast (hl : LeadsTo E l t0) (hm : m ∉ l) (hb : builtinsPath ∈ A) (n N : Nat) (parent : Path)
    (name : String) (body : List Stmt) (base : Expr) :
    Abreast (Together l t0 m s0 A) (Together l t0 m s0 A)
      (visitBase (parseScope E n) (resolveP E n) ⟨m, parent⟩ name body base)
      (visitBase (parseScope E N) (resolveP E N) ⟨m, parent⟩ name body base) := by
  have hadd : ∀ e : Expr, Abreast (Together l t0 m s0 A) (Together l t0 m s0 A)
      (P.update (addBase (m, parent ++ [name]) e)) (P.update (addBase (m, parent ++ [name]) e)) :=
    fun e => Abreast.update (addBase_local m _ e) hm
  cases base
  case subscript value slice load =>
    simp only [visitBase]
    refine Abreast.andThen (Abreast.filter _ fun x _ => isTypeVar_abreast hl hm hb n N parent _) fun tv => ?_
    split
    · exact Abreast.andThen (hadd _) fun _ => Abreast.pure _
    · refine Abreast.andThen (resolve_abreast hl n N A hb _ _ _) fun q => ?_
      split
      · exact Abreast.pure _
      · exact Abreast.andThen (hadd _) fun _ => Abreast.pure _
  all_goals
    simp only [visitBase]
    refine Abreast.andThen (Abreast.lift _) fun path => Abreast.andThen (toQualified_abreast hl hm hb n N _ _) fun q => ?_
    split
    · exact Abreast.andThen (Abreast.lift _) fun f => Abreast.andThen (Abreast.update (addNode_local ⟨m, parent⟩ _ _) hm)
        fun _ => Abreast.andThen (Abreast.update (addSuperclass_local m _ _) hm) fun _ => Abreast.pure _
    · split
      · exact Abreast.pure _
      · split
        · exact Abreast.fail _
        · exact Abreast.andThen (hadd _) fun _ => Abreast.pure _

theorem visitClassHead_abreast (hl : LeadsTo E l t0) (hm : m ∉ l) (hb : builtinsPath ∈ A) (n N : Nat) (parent : Path)
    (name : String) (bases : List Expr) (body : List Stmt) :
    Abreast (Together l t0 m s0 A) (Together l t0 m s0 A)
      (visitClassHead (parseScope E n) (resolveP E n) ⟨m, parent⟩ name bases body)
      (visitClassHead (parseScope E N) (resolveP E N) ⟨m, parent⟩ name bases body) := by
  unfold visitClassHead
  refine Abreast.andThen (Abreast.update (addKind_local ⟨m, parent⟩ _ _) hm) fun _ => ?_
  refine Abreast.andThen (Abreast.update (addDefinition_local ⟨m, parent⟩ _) hm) fun _ => ?_
  refine Abreast.andThen (Abreast.update (clear_local m _) hm) fun _ => ?_
  refine Abreast.andThen (Abreast.map _ fun base _ => visitBase_abreast hl hm hb n N parent name body base) fun tv => ?_
  show Abreast _ _ (if (dedup tv.flatten).isEmpty then pure () else _)
    (if (dedup tv.flatten).isEmpty then pure () else _)
  split
  · exact Abreast.pure _
  · exact Abreast.update (generics_local m _ _) hm

theorem visit_abreast (hl : LeadsTo E l t0) (hm : m ∉ l) (hb : builtinsPath ∈ A) : ∀ (n N : Nat) (parent : Path)
    (node : Stmt), Abreast (Together l t0 m s0 A) (Together l t0 m s0 A) (visit E n ⟨m, parent⟩ node)
      (visit E N ⟨m, parent⟩ node)
  | n, 0, _, _ => by
    simp only [show ∀ c node, visit E 0 c node = P.fail .recursionError from fun _ _ => by rw [visit]]
    exact Abreast.limit'
  | 0, N + 1, parent, node => by
    rw [show visit E 0 ⟨m, parent⟩ node = P.fail .recursionError by rw [visit]]
    exact Abreast.limit ((parsing_rels (longer_rels E) (N + 1)).1 _ _)
  | n + 1, N + 1, parent, node => by
    have three : ∀ path node kind, Abreast (Together l t0 m s0 A) (Together l t0 m s0 A) (do
        P.update (addNode ⟨m, parent⟩ path node)
        P.update (addKind ⟨m, parent⟩ path kind)
        P.update (addDefinition ⟨m, parent⟩ path)) (do
        P.update (addNode ⟨m, parent⟩ path node)
        P.update (addKind ⟨m, parent⟩ path kind)
        P.update (addDefinition ⟨m, parent⟩ path)) := fun path node kind =>
      Abreast.andThen (Abreast.update (addNode_local ⟨m, parent⟩ _ _) hm) fun _ =>
        Abreast.andThen (Abreast.update (addKind_local ⟨m, parent⟩ _ _) hm) fun _ =>
          Abreast.update (addDefinition_local ⟨m, parent⟩ _) hm
    have href : ∀ path q, Abreast (Together l t0 m s0 A) (Together l t0 m s0 A)
        (P.update (addReference ⟨m, parent⟩ path q)) (P.update (addReference ⟨m, parent⟩ path q)) :=
      fun path q => Abreast.update (addReference_local ⟨m, parent⟩ _ _) hm
    cases node with
    | annAssign target annotation value =>
      simp only [visit, visitAnnAssign]
      refine Abreast.andThen (Abreast.lift _) fun path => ?_
      split
      · exact three _ _ _
      · exact Abreast.andThen (toQualified_abreast hl hm hb n N _ _) fun q => href _ _
    | assign targets value =>
      simp only [visit, visitAssign]
      split
      · exact Abreast.each _ fun target _ => Abreast.andThen (Abreast.lift _) fun path => three _ _ _
      · exact Abreast.andThen (toQualified_abreast hl hm hb n N _ _) fun q => Abreast.each _ fun target _ =>
          Abreast.andThen (Abreast.lift _) fun path => href _ _
    | functionDef f =>
      simp only [visit, visitFunctionDef]
      exact three _ _ _
    | classDef name bases decorators body =>
      simp only [visit]
      exact Abreast.andThen (visitClassHead_abreast hl hm hb n N parent name bases body) fun _ =>
        Abreast.each _ fun child _ => visit_abreast hl hm hb n N _ child
    | ifStmt test body orelse =>
      simp only [visit, evaluateTest]
      refine Abreast.andThen (Abreast.andThen (Abreast.map _ fun name _ => Abreast.andThen (resolve_abreast hl n N A hb _ _ _)
        fun q => Abreast.pure _) fun ns => Abreast.lift _) fun b => ?_
      exact Abreast.each _ fun child _ => visit_abreast hl hm hb n N _ child
    | import_ names =>
      simp only [visit, visitImport]
      exact Abreast.each _ fun alias _ => Abreast.each _ fun b _ => href _ _
    | importFrom module names level =>
      simp only [visit, visitImportFrom]
      refine Abreast.andThen (Abreast.lift _) fun x => Abreast.each _ fun alias _ => ?_
      split
      · exact Abreast.update (addSubmodule_local ⟨m, parent⟩ _) hm
      · exact href _ _
    | other tag body =>
      simp only [visit]
      exact Abreast.each _ fun child _ => visit_abreast hl hm hb n N _ child

end reading

/-! ### Reading in turn -/

/-- The files that were opened are those that were visited. -/
def AllOpened (s t : ParseState) : Prop := s.visited = s.reads → t.visited = t.reads

theorem allOpened_preorder : Preorder' AllOpened := ⟨fun _ h => h, fun h h' x => h' (h x)⟩

theorem allOpened_rels (E : StubFiles) : Rels E (fun _ => AllOpened) (fun _ _ => AllOpened) AllOpened where
  preV _ := allOpened_preorder
  preW _ _ := allOpened_preorder
  preR := allOpened_preorder
  RV _ _ _ h := h
  RW _ _ _ _ h := h
  updates _ := ⟨fun _ _ h => h, fun _ _ _ h => h, fun _ _ h => h, fun _ _ _ _ h => h⟩
  definition _ _ _ _ h := h
  baseUpdates _ _ := ⟨fun _ _ h => h, fun _ _ _ h => h, fun _ h => h, fun _ _ h => h⟩
  head _ _ _ _ h := h
  child _ _ _ _ h := h
  asked _ _ _ _ h := congrArg _ h
  started _ _ _ _ _ h h' := h (congrArg _ h')

/-- Modules read one after the other (latest first), each of them without reading another one. -/
inductive InTurn (E : StubFiles) (N : Nat) : List Path → ParseState → Prop where
  | nil : InTurn E N [] {}
  | cons {l : List Path} {t t' : ParseState} {m : Path} {d : Scope} : InTurn E N l t →
      (m = builtinsPath ∨ builtinsPath ∈ l) → parseScope E N m t = (.ok d, t') → t'.reads = m :: l →
      InTurn E N (m :: l) t'

theorem InTurn.reads {E : StubFiles} {N : Nat} {l : List Path} {t : ParseState} (h : InTurn E N l t) :
    t.reads = l := by
  cases h with
  | nil => rfl
  | cons _ _ _ h => exact h

theorem InTurn.visited {E : StubFiles} {N : Nat} {l : List Path} {t : ParseState} (h : InTurn E N l t) :
    t.visited = l := by
  refine Eq.trans ?_ h.reads
  induction h with
  | nil => rfl
  | @cons l t t' m d ht hb hp hr ih =>
    have := (parsing_rels (allOpened_rels E) N).2.2 m t ih
    rw [hp] at this
    exact this

section turn

variable {E : StubFiles} {N : Nat} {l : List Path} {t t' : ParseState} {m : Path} {d : Scope}

theorem turn_new (hv : t.visited = l) (hr : t.reads = l) (hp : parseScope E N m t = (.ok d, t'))
    (hr' : t'.reads = m :: l) : ∃ k, N = k + 1 ∧ m ∉ l ∧ ∃ body, E.source m = some body := by
  cases N with
  | zero => rw [parseScope] at hp; cases hp
  | succ k =>
    have hm : m ∉ t.visited := by
      intro hm
      rw [parse_visited E k hm] at hp
      unfold P.item at hp
      split at hp
      · cases hp
      · cases hp
        have := congrArg List.length (hr.symm.trans hr')
        simp at this
    refine ⟨k, rfl, hv ▸ hm, ?_⟩
    cases hs : E.source m with
    | none => rw [parse_missing E k hm hs] at hp; cases hp
    | some body => exact ⟨body, rfl⟩

/-- A module read on behalf of another one, or in another order, is read like it is read in turn. -/
theorem turn_read (hl : LeadsTo E l t) (hclean : ∀ x, x ∉ t.visited → SameAt {} t x) (hv : t.visited = l)
    (hr : t.reads = l) (hp : parseScope E N m t = (.ok d, t')) (hr' : t'.reads = m :: l)
    (n : Nat) (s : ParseState) (hb : m = builtinsPath ∨ (builtinsPath ∈ s.visited ∧ builtinsPath ∈ l))
    (hfits : Fits l t s) (hm : m ∉ s.visited) :
    (parseScope E n m s).1 = .error .recursionError ∨
    ∃ s', parseScope E n m s = (.ok d, s') ∧ SameAt t' s' m ∧ m ∈ s'.visited ∧ Fits l t s' ∧
      (∀ y ∈ s'.visited, y ∈ s.visited ∨ y ∈ m :: l) ∧ (∀ x ∈ l, SameAt t t' x) ∧
      t'.definitions.lookup m = some d := by
  obtain ⟨k, rfl, hml, body, hs⟩ := turn_new hv hr hp hr'
  cases n with
  | zero => left; rw [parseScope]; rfl
  | succ n =>
    have hmt : m ∉ t.visited := hv ▸ hml
    rw [parse_source E k hmt hs] at hp
    rw [parse_source E n hm hs]
    have hA : builtinsPath ∈ [m, builtinsPath] := by simp
    have hboth2 : Abreast (Together l t m s [m, builtinsPath]) (Together l t m s [m, builtinsPath])
        (P.each (visit E n ⟨m, []⟩) body >>= fun _ => P.item ParseState.definitions m)
        (P.each (visit E k ⟨m, []⟩) body >>= fun _ => P.item ParseState.definitions m) :=
      Abreast.andThen (Abreast.each _ fun node _ => visit_abreast hl hml hA n k [] node) fun _ =>
        Abreast.item _ _ fun a b h => h.here.definitions
    have hstart : ∀ (u : ParseState) (x : Path), x ≠ m → SameAt u (started m u) x := fun u x hx =>
      same_of (lookup_dictSet_ne _ _ hx) (lookup_dictSet_ne _ _ hx) (lookup_dictSet_ne _ _ hx)
        (lookup_dictSet_ne _ _ hx) rfl rfl (fun _ => rfl) fun _ => rfl
    have hboth : SameAt t s m := (hclean m hmt).symm'.trans' (hfits.clean m hm)
    have hne : ∀ x ∈ l, x ≠ m := fun x hx e => hml (e ▸ hx)
    have hK : Together l t m s [m, builtinsPath] (started m s) (started m t) := by
      refine ⟨same_of ?_ ?_ ?_ ?_ hboth.submodules hboth.superclasses hboth.classesBases hboth.generics,
        ⟨fun x hx hxv => ?_, fun x hx => ?_⟩, List.mem_cons_self, fun x hx => ?_, fun x hx => ?_,
        fun x hx => hstart t x (hne x hx), fun x hx => ?_⟩
      any_goals exact (lookup_dictSet_self _ _ _).trans (lookup_dictSet_self _ _ _).symm
      · rcases List.mem_cons.1 hxv with rfl | hxv
        · exact absurd hx hml
        · exact (hfits.same x hx hxv).trans' (hstart s x (hne x hx))
      · have hx' : x ≠ m ∧ x ∉ s.visited := by
          refine ⟨fun e => hx (e ▸ List.mem_cons_self), fun h => hx (List.mem_cons_of_mem _ h)⟩
        exact (hfits.clean x hx'.2).trans' (hstart s x hx'.1)
      · rcases List.mem_cons.1 hx with rfl | hx
        · exact ⟨List.mem_cons_self, .inl rfl⟩
        · rw [List.mem_singleton] at hx
          subst hx
          rcases hb with rfl | ⟨h1, h2⟩
          · exact ⟨List.mem_cons_self, .inl rfl⟩
          · exact ⟨List.mem_cons_of_mem _ h1, .inr h2⟩
      · rcases List.mem_cons.1 hx with rfl | hx
        · exact .inr (.inr rfl)
        · exact .inl hx
      · rcases List.mem_cons.1 hx with rfl | hx
        · exact .inl rfl
        · exact .inr (hv ▸ hx)
    rcases hboth2.2 _ _ hK (by
        rw [hp, hr']
        show _ = (m :: t.reads).length
        rw [hr]) with h | h | ⟨e, s', u, -, h, -⟩ | ⟨a, s', u, h1, h2, h3⟩
    · exact .inl h
    · rw [hp] at h; cases h
    · rw [hp] at h; cases h
    · rw [hp] at h2
      cases h2
      refine .inr ⟨s', h1, h3.here, h3.mine, h3.fits, fun y hy => ?_, h3.still, ?_⟩
      · rcases h3.within y hy with h | h | h
        · exact .inl h
        · exact .inr (List.mem_cons_of_mem _ h)
        · exact .inr (h ▸ List.mem_cons_self)
      · obtain ⟨_, u, -, h5⟩ := bind_ok hp
        unfold P.item at h5
        split at h5
        · cases h5
        · cases h5; assumption

end turn

theorem InTurn.read {E : StubFiles} {N : Nat} {l : List Path} {t : ParseState} (h : InTurn E N l t) :
    LeadsTo E l t ∧ ∀ x, x ∉ t.visited → SameAt {} t x := by
  induction h with
  | nil => exact ⟨(fun _ _ _ hx => nomatch hx), fun x _ => SameAt.rfl' _ _⟩
  | @cons l t t' m d ht hb hp hr' ih =>
    obtain ⟨hl, hclean⟩ := ih
    have hv := ht.visited
    have hr := ht.reads
    obtain ⟨k, -, hml, -⟩ := turn_new hv hr hp hr'
    have hself : Fits l t t := ⟨fun x _ _ => SameAt.rfl' _ _, hclean⟩
    have hfst := turn_read hl hclean hv hr hp hr' N t (hb.imp id fun h => ⟨hv ▸ h, h⟩) hself (hv ▸ hml)
    rw [hp] at hfst
    rcases hfst with h | ⟨s', h1, -, -, h4, -, h6, h7⟩
    · cases h
    cases h1
    refine ⟨fun n x s hx hbs hfits => ?_, h4.clean⟩
    have hfits' : Fits l t s :=
      ⟨fun y hy hyv => (h6 y hy).trans' (hfits.same y (List.mem_cons_of_mem _ hy) hyv), hfits.clean⟩
    by_cases hxm : x = m
    · subst hxm
      by_cases hxs : x ∈ s.visited
      · cases n with
        | zero => left; rw [parseScope]; rfl
        | succ n =>
          right
          refine ⟨d, s, ?_, h7, hxs, hfits, fun y hy => .inl hy⟩
          rw [parse_visited E n hxs]
          unfold P.item
          rw [(hfits.same x List.mem_cons_self hxs).definitions, h7]
      · have hb' : x = builtinsPath ∨ (builtinsPath ∈ s.visited ∧ builtinsPath ∈ l) := by
          rcases hbs with h | h
          · exact .inl h
          · rcases hb with h' | h'
            · exact .inl h'
            · exact .inr ⟨h, h'⟩
        rcases turn_read hl hclean hv hr hp hr' n s hb' hfits' hxs with h | ⟨s', k1, k2, k3, k4, k5, -, -⟩
        · exact .inl h
        · refine .inr ⟨d, s', k1, h7, k3, ⟨fun y hy hyv => ?_, k4.clean⟩, k5⟩
          rcases List.mem_cons.1 hy with rfl | hy
          · exact k2
          · exact (h6 y hy).symm'.trans' (k4.same y hy hyv)
    · have hxl : x ∈ l := (List.mem_cons.1 hx).resolve_left hxm
      rcases hl n x s hxl hbs hfits' with h | ⟨d', s', k1, k2, k3, k4, k5⟩
      · exact .inl h
      · refine .inr ⟨d', s', k1, ((h6 x hxl).definitions).trans k2, k3, ⟨fun y hy hyv => ?_, k4.clean⟩,
          fun y hy => (k5 y hy).imp id (List.mem_cons_of_mem _)⟩
        rcases List.mem_cons.1 hy with rfl | hy
        · have hys : y ∈ s.visited := (k5 y hyv).resolve_right hml
          have hext := (parsing_ext E n).2.2 x s
          rw [k1] at hext
          exact (hfits.same y List.mem_cons_self hys).trans' (hext.same y hys id)
        · exact (h6 y hy).symm'.trans' (k4.same y hy hyv)

/-- Reading all modules, one after the other. -/
theorem each_read {E : StubFiles} {l : List Path} {t : ParseState} (hl : LeadsTo E l t) (n : Nat) :
    ∀ (modules : List Path) (s : ParseState), (∀ x ∈ modules, x ∈ l) → builtinsPath ∈ s.visited →
      Fits l t s → (∀ y ∈ s.visited, y ∈ l) →
      (P.each (fun m => parseScope E n m >>= fun _ => pure ()) modules s).1 = .error .recursionError ∨
      ∃ s', P.each (fun m => parseScope E n m >>= fun _ => pure ()) modules s = (.ok (), s') ∧
        Fits l t s' ∧ (∀ y ∈ s'.visited, y ∈ l) ∧ (∀ y ∈ s.visited, y ∈ s'.visited) ∧
        ∀ y ∈ modules, y ∈ s'.visited
  | [], s, _, _, hf, hin => .inr ⟨s, rfl, hf, hin, fun _ h => h, fun _ h => nomatch h⟩
  | m :: modules, s, hm, hb, hf, hin => by
    have hext := (parsing_ext E n).2.2 m s
    rcases hl n m s (hm m List.mem_cons_self) (.inr hb) hf with h | ⟨d, s', h1, -, h3, h4, h5⟩
    · left
      show (P.bind (P.bind (parseScope E n m) _) _ s).1 = _
      unfold P.bind
      cases hx : parseScope E n m s with
      | mk r u => rw [hx] at h; cases h; rfl
    · have e : P.each (fun m => parseScope E n m >>= fun _ => pure ()) (m :: modules) s =
          P.each (fun m => parseScope E n m >>= fun _ => pure ()) modules s' := by
        show P.bind (P.bind (parseScope E n m) _) _ s = _
        unfold P.bind
        rw [h1]
        rfl
      rw [h1] at hext
      rw [e]
      rcases each_read hl n modules s' (fun x hx => hm x (List.mem_cons_of_mem _ hx))
          (hext.visited _ hb) h4 (fun y hy => (h5 y hy).elim (hin y) id) with h | ⟨s'', k1, k2, k3, k4, k5⟩
      · exact .inl h
      · refine .inr ⟨s'', k1, k2, k3, fun y hy => k4 y (hext.visited y hy), fun y hy => ?_⟩
        rcases List.mem_cons.1 hy with rfl | hy
        · exact k4 _ h3
        · exact k5 y hy

/-- Modules that can be read in turn are read the same in any order. -/
theorem InTurn.any_order {E : StubFiles} {N : Nat} {l : List Path} {t : ParseState} (h : InTurn E N l t)
    (n : Nat) (modules : List Path) (hall : ∀ x, x ∈ builtinsPath :: modules ↔ x ∈ l) :
    (parseAll E n modules {}).1 = .error .recursionError ∨
    ∃ s, parseAll E n modules {} = (.ok (), s) ∧ ∀ x, SameAt t s x := by
  obtain ⟨hl, hclean⟩ := h.read
  have hempty : Fits l t {} := ⟨(fun _ _ hx => nomatch hx), fun _ _ => SameAt.rfl' _ _⟩
  unfold parseAll
  rcases hl n builtinsPath {} ((hall _).1 List.mem_cons_self) (.inl rfl) hempty with
    h1 | ⟨d, s', h1, -, h3, h4, h5⟩
  · left
    show (P.bind (parseScope E n builtinsPath) _ {}).1 = _
    unfold P.bind
    cases hx : parseScope E n builtinsPath {} with
    | mk r u => rw [hx] at h1; cases h1; rfl
  · have e : (do
        let _ ← parseScope E n builtinsPath
        P.each (fun m => do
          let _ ← parseScope E n m
          pure ()) modules : P Unit) {} =
        P.each (fun m => parseScope E n m >>= fun _ => pure ()) modules s' := by
      show P.bind (parseScope E n builtinsPath) _ {} = _
      unfold P.bind
      rw [h1]
    rw [e]
    have hin : ∀ y ∈ s'.visited, y ∈ l := fun y hy => (h5 y hy).elim (fun h => nomatch h) id
    rcases each_read hl n modules s' (fun x hx => (hall x).1 (List.mem_cons_of_mem _ hx)) h3 h4 hin with
      h | ⟨s, k1, k2, k3, k4, k5⟩
    · exact .inl h
    · refine .inr ⟨s, k1, fun x => ?_⟩
      by_cases hx : x ∈ l
      · refine k2.same x hx ?_
        rcases List.mem_cons.1 ((hall x).2 hx) with rfl | hx
        · exact k4 _ h3
        · exact k5 x hx
      · exact (hclean x (h.visited ▸ hx)).symm'.trans' (k2.clean x fun hxs => hx (k3 x hxs))

theorem each_snoc {α : Type} (f : α → P Unit) (x : α) : ∀ (xs : List α) (s : ParseState),
    P.each f (xs ++ [x]) s = P.bind (P.each f xs) (fun _ => f x) s
  | [], s => by
    show P.bind (f x) (fun _ => P.pure ()) s = f x s
    unfold P.bind
    cases f x s with
    | mk r u => cases r <;> rfl
  | y :: xs, s => by
    show P.bind (f y) (fun _ => P.each f (xs ++ [x])) s = P.bind (P.bind (f y) fun _ => P.each f xs) _ s
    unfold P.bind
    cases f y s with
    | mk r u =>
      cases r with
      | error e => rfl
      | ok a => exact each_snoc f x xs u

theorem parseAll_snoc {E : StubFiles} {n : Nat} {modules : List Path} {m : Path} {s t u : ParseState}
    (h : parseAll E n modules s = (.ok (), t)) (h' : parseAll E n (modules ++ [m]) s = (.ok (), u)) :
    ∃ d, parseScope E n m t = (.ok d, u) := by
  unfold parseAll at h h'
  obtain ⟨d, t1, h1, h2⟩ := bind_ok h
  obtain ⟨d', t1', h1', h2'⟩ := bind_ok h'
  rw [h1] at h1'
  cases h1'
  rw [each_snoc] at h2'
  unfold P.bind at h2'
  rw [h2] at h2'
  obtain ⟨d'', t2, h3, h4⟩ := bind_ok h2'
  cases h4
  exact ⟨d'', h3⟩

theorem Spec.ReadInTurn.inTurn {E : StubFiles} {n : Nat} {modules : List Path} (h : ReadInTurn E n modules) :
    ∀ k ≤ modules.length, ∃ s, parseAll E n (modules.take k) {} = (.ok (), s) ∧
      InTurn E n (builtinsPath :: modules.take k).reverse s
  | 0, _ => by
    obtain ⟨s, h1, h2⟩ := h 0 (Nat.zero_le _)
    refine ⟨s, h1, ?_⟩
    have h1' := h1
    unfold parseAll at h1'
    obtain ⟨d, t, h3, h4⟩ := bind_ok h1'
    cases h4
    refine .cons .nil (.inl rfl) h3 ?_
    have := congrArg List.reverse h2
    rw [List.reverse_reverse] at this
    exact this
  | k + 1, hk => by
    obtain ⟨s, h1, h2⟩ := inTurn h k (Nat.le_of_succ_le hk)
    obtain ⟨u, h3, h4⟩ := h (k + 1) hk
    refine ⟨u, h3, ?_⟩
    have e : modules.take (k + 1) = modules.take k ++ [modules[k]] := by
      rw [List.take_append_getElem]
    have h3' := h3
    rw [e] at h3'
    obtain ⟨d, h5⟩ := parseAll_snoc h1 h3'
    have h4' := congrArg List.reverse h4
    rw [List.reverse_reverse, e] at h4'
    rw [e]
    have e' : (builtinsPath :: (modules.take k ++ [modules[k]])).reverse =
        modules[k] :: (builtinsPath :: modules.take k).reverse := by
      rw [← List.cons_append, List.reverse_append]
      rfl
    rw [e']
    refine .cons h2 (.inr (by simp)) h5 ?_
    rw [h4']
    exact e'

end Paradigm
