import Verif.Lemmas.Declared
import Verif.Spec.Kinds

/-!
# Lemmas about the stub parser: what kinds it records
-/

namespace Paradigm

open Spec

/-- The kinds of a visited module are kept. -/
structure KindsKept (m : Path) (s t : ParseState) : Prop where
  visited : m ∈ s.visited → m ∈ t.visited
  kinds : m ∈ s.visited → ∀ p, kindAt t m p = kindAt s m p

theorem kindsKept_preorder (m : Path) : Preorder' (KindsKept m) where
  refl _ := ⟨fun h => h, fun _ _ => rfl⟩
  trans h h' := ⟨fun x => h'.visited (h.visited x),
    fun x p => (h'.kinds (h.visited x) p).trans (h.kinds x p)⟩

theorem Ext.kindsKept {s t : ParseState} (h : Ext (fun _ => False) s t) (m : Path) :
    KindsKept m s t :=
  ⟨h.visited m, fun hm p => by
    unfold kindAt
    rw [(h.same m hm id).kinds]⟩

theorem kindsKept_baseUpdates (c : Place) (name : String) :
    BaseUpdates (KindsKept c.module) c name where
  base _ _ := ⟨fun h => h, fun _ _ => rfl⟩
  tuple _ _ _ := ⟨fun h => h, fun _ _ => rfl⟩
  clear _ := ⟨fun h => h, fun _ _ => rfl⟩
  generics _ _ := ⟨fun h => h, fun _ _ => rfl⟩

theorem kindAt_addKind (c : Place) (path : Path) (kind : NodeKind) (s : ParseState) (p : Path) :
    kindAt (addKind c path kind s) c.module p
      = (if p = c.parent ++ path then some kind else none).or (kindAt s c.module p) := by
  unfold kindAt
  simp only [addKind, lookup_dictUpdate_self, Option.getD_some]
  by_cases e : p = c.parent ++ path
  · subst e
    simp [lookup_dictSet_self]
  · rw [lookup_dictSet_ne _ _ e, if_neg e]; rfl

theorem lastKind_append (l l' : List (Path × NodeKind)) (p : Path) :
    lastKind (l ++ l') p = (lastKind l' p).or (lastKind l p) := by
  unfold lastKind
  rw [List.filter_append, List.map_append, List.getLast?_append]

theorem lastKind_single (q : Path) (kind : NodeKind) (p : Path) :
    lastKind [(q, kind)] p = if p = q then some kind else none := by
  by_cases e : p = q
  · subst e; simp [lastKind]
  · have : ¬ q = p := fun h => e h.symm
    simp [lastKind, e, this]

theorem kindsDeclaredAll_eq (o : Expr → Bool) (parent : Path) : ∀ body : List Stmt,
    kindsDeclaredAll o parent body = body.flatMap (kindsDeclared o parent)
  | [] => rfl
  | x :: xs => by rw [kindsDeclaredAll, List.flatMap_cons, kindsDeclaredAll_eq o parent xs]

/-- Composition along a list. -/
theorem each_kinds {α : Type} {f : α → P Unit} {D : α → List (Path × NodeKind)} {m p : Path}
    {Inv : ParseState → Prop} : ∀ (xs : List α),
    (∀ x ∈ xs, ∀ s t, Inv s → f x s = (.ok (), t) →
      Inv t ∧ kindAt t m p = (lastKind (D x) p).or (kindAt s m p)) →
    ∀ s t, Inv s → P.each f xs s = (.ok (), t) →
      Inv t ∧ kindAt t m p = (lastKind (xs.flatMap D) p).or (kindAt s m p)
  | [], _, s, t, hi, h => by
    have ht : s = t := congrArg Prod.snd h
    subst ht
    exact ⟨hi, rfl⟩
  | x :: xs, hf, s, t, hi, h => by
    obtain ⟨u, h1, h2⟩ := each_cons_ok h
    obtain ⟨hi', g⟩ := hf x List.mem_cons_self s u hi h1
    obtain ⟨hi'', g'⟩ := each_kinds xs (fun y hy => hf y (List.mem_cons_of_mem _ hy)) u t hi' h2
    refine ⟨hi'', ?_⟩
    rw [g', g, List.flatMap_cons, lastKind_append, Option.or_assoc]

theorem visit_kinds {E : StubFiles} {o : Expr → Bool} (ho : Decides E o) : ∀ (n : Nat) (c : Place)
    (node : Stmt) (s t : ParseState), c.module ∈ s.visited → visit E n c node s = (.ok (), t) →
    ∀ p, kindAt t c.module p
      = (lastKind (kindsDeclared o c.parent node) p).or (kindAt s c.module p) := by
  intro n
  induction n with
  | zero =>
    intro c node s t _ h p
    rw [visit] at h
    cases h
  | succ n ih =>
    have many : ∀ (c : Place) (body : List Stmt) (s t : ParseState), c.module ∈ s.visited →
        P.each (visit E n c) body s = (.ok (), t) → ∀ p, kindAt t c.module p
          = (lastKind (kindsDeclaredAll o c.parent body) p).or (kindAt s c.module p) := by
      intro c body s t hv h p
      rw [kindsDeclaredAll_eq]
      refine (each_kinds (Inv := fun s => c.module ∈ s.visited) body (fun x hx s t hv h => ?_)
        s t hv h).2
      exact ⟨(((parsing_ext E n).1 c x).of_eq h).visited _ hv, ih c x s t hv h p⟩
    intro c node s t hv h p
    have hK := kindsKept_preorder c.module
    have hr : ∀ m q ob, Pres (KindsKept c.module) (resolveP E n m q ob) :=
      fun m q ob => ((parsing_ext E n).2.1 m q ob).mono fun _ _ h => h.kindsKept _
    have hq : ∀ ob, Pres (KindsKept c.module) (toQualified (resolveP E n) c ob) :=
      fun ob => toQualified_pres hK hr (fun _ _ => ⟨fun h => h, fun _ _ => rfl⟩) ob
    have href : ∀ path q, Pres (KindsKept c.module) (P.update (addReference c path q)) :=
      fun _ _ _ => ⟨fun h => h, fun _ _ => rfl⟩
    cases node with
    | annAssign target annotation value =>
      simp only [visit] at h
      obtain ⟨path, u, h1, h2⟩ := bind_ok h
      obtain ⟨hpath, rfl⟩ := lift_ok h1
      have hval : value.bind toMaybePath = value.bind dotted := by
        cases value <;> simp [toMaybePath_eq]
      rw [kindsDeclared, toPath_ok hpath]
      cases hvp : value.bind dotted with
      | none =>
        rw [hval, hvp] at h2
        have ht : t = addDefinition c path (addKind c path .annotatedAssignment
          (addNode c path (.annAssign target annotation value) u)) := (congrArg Prod.snd h2).symm
        have hal : isAlias value = false := by
          cases value with
          | none => rfl
          | some v => simp only [Option.bind_some] at hvp; simp [isAlias, hvp]
        rw [hal, if_neg (by simp), ht, lastKind_single]
        exact kindAt_addKind c path _ (addNode c path (.annAssign target annotation value) u) p
      | some vp =>
        rw [hval, hvp] at h2
        have hal : isAlias value = true := by
          cases value with
          | none => cases hvp
          | some v => simp only [Option.bind_some] at hvp; simp [isAlias, hvp]
        rw [hal, if_pos rfl]
        obtain ⟨q, v, h3, h4⟩ := bind_ok h2
        have ht : t = addReference c path q v := (congrArg Prod.snd h4).symm
        rw [ht]
        exact ((hq vp).of_eq h3).kinds hv p
    | assign targets value =>
      simp only [visit, visitAssign] at h
      rw [toMaybePath_eq] at h
      rw [kindsDeclared]
      cases hvp : dotted value with
      | none =>
        rw [hvp] at h
        have hal : isAlias (some value) = false := by simp [isAlias, hvp]
        rw [hal, if_neg (by simp), List.map_eq_flatMap]
        refine (each_kinds (Inv := fun _ => True) targets (fun x _ s t _ h => ⟨trivial, ?_⟩)
          s t trivial h).2
        obtain ⟨path, u, h1, h2⟩ := bind_ok h
        obtain ⟨hpath, rfl⟩ := lift_ok h1
        have hu : t = addDefinition c path (addKind c path .assignment
          (addNode c path (.assign targets value) u)) := (congrArg Prod.snd h2).symm
        rw [toPath_ok hpath, hu, lastKind_single]
        exact kindAt_addKind c path _ (addNode c path (.assign targets value) u) p
      | some vp =>
        rw [hvp] at h
        have hal : isAlias (some value) = true := by simp [isAlias, hvp]
        rw [hal, if_pos rfl]
        obtain ⟨q, u, h1, h2⟩ := bind_ok h
        have hu := (hq vp).of_eq h1
        have h3 : KindsKept c.module u t := Pres.of_eq (Pres.each hK targets fun x _ =>
            Pres.bind hK (Pres.lift hK _) fun _ => href _ _) h2
        exact (hK.trans hu h3).kinds hv p
    | functionDef f =>
      have ht : t = addDefinition c [f.name] (addKind c [f.name]
        (if f.isAsync then .asyncFunction else .function)
        (addNode c [f.name] (.functionDef f) s)) := by
          simp only [visit] at h
          exact (congrArg Prod.snd h).symm
      rw [ht, kindsDeclared, lastKind_single]
      exact kindAt_addKind c [f.name] _ (addNode c [f.name] (.functionDef f) s) p
    | classDef name bases decorators body =>
      simp only [visit] at h
      obtain ⟨_, u, h1, h2⟩ := bind_ok h
      rw [visitClassHead_eq] at h1
      have hv' : c.module ∈ (addDefinition c [name] (addKind c [name] .class_ s)).visited := hv
      have hk := (classTail_pres hK
        (fun m => ((parsing_ext E n).2.2 m).mono fun _ _ h => h.kindsKept c.module)
        (fun m q ob => ((parsing_ext E n).2.1 m q ob).mono fun _ _ h => h.kindsKept c.module)
        (fun _ _ => ⟨fun h => h, fun _ _ => rfl⟩) name bases body
        (kindsKept_baseUpdates c name)).of_eq h1
      have hb := many { module := c.module, parent := c.parent ++ [name] } body u t
        (hk.visited hv') h2 p
      rw [kindsDeclared, ← List.singleton_append, lastKind_append, Option.or_assoc, lastKind_single]
      rw [← kindAt_addKind c [name] .class_ s p]
      exact hb.trans (by rw [hk.kinds hv' p]; rfl)
    | ifStmt test body orelse =>
      simp only [visit] at h
      obtain ⟨b, u, h1, h2⟩ := bind_ok h
      have hk := (evaluateTest_pres hK hr E c test).of_eq h1
      have hb := evaluateTest_ok ho h1
      rw [kindsDeclared]
      subst hb
      rw [← hk.kinds hv p]
      cases ht : o test with
      | true =>
        simp only [ht, if_true] at h2 ⊢
        exact many c body u t (hk.visited hv) h2 p
      | false =>
        simp only [ht, Bool.false_eq_true, if_false] at h2 ⊢
        exact many c orelse u t (hk.visited hv) h2 p
    | import_ names =>
      simp only [visit] at h
      exact (Pres.of_eq (Pres.each hK _ fun _ _ => Pres.each hK _ fun _ _ => href _ _) h).kinds hv p
    | importFrom m names level =>
      simp only [visit] at h
      refine (Pres.of_eq (R := KindsKept c.module) ?_ h).kinds hv p
      unfold visitImportFrom
      refine Pres.bind hK (Pres.lift hK _) fun _ => Pres.each hK _ fun a _ => ?_
      split <;> exact fun _ => ⟨fun h => h, fun _ _ => rfl⟩
    | other tag body =>
      simp only [visit] at h
      rw [kindsDeclared]
      exact many c body s t hv h p

theorem parse_kinds {E : StubFiles} {o : Expr → Bool} (ho : Decides E o) {n : Nat} {m : Path}
    {s t : ParseState} {scope : Scope} {body : List Stmt} (hm : m ∉ s.visited)
    (hsrc : E.source m = some body) (h : parseScope E n m s = (.ok scope, t)) (p : Path) :
    kindAt t m p = lastKind (kindsDeclaredAll o [] body) p := by
  cases n with
  | zero => rw [parseScope] at h; cases congrArg Prod.fst h
  | succ n =>
    rw [parse_source E n hm hsrc] at h
    obtain ⟨_, u, h1, h2⟩ := bind_ok h
    have htu : u = t := by
      have := item_state ParseState.definitions m u
      rw [h2] at this
      exact this.symm
    subst htu
    have key := visit_kinds ho (n + 1) { module := m, parent := [] } (.other "" body) (started m s) u
      List.mem_cons_self (by rw [visit]; exact h1) p
    rw [kindsDeclared] at key
    refine key.trans ?_
    have : kindAt (started m s) m p = none := by
      unfold kindAt
      rw [show (started m s).kinds.lookup m = some [] from lookup_dictSet_self _ _ _]
      rfl
    rw [this, Option.or_none]

/-! ### Declarations and their kinds -/

mutual

theorem kinds_of_declared (o : Expr → Bool) (parent : Path) : ∀ (node : Stmt) (p : Path) (f : FunctionDef),
    (p, Stmt.functionDef f) ∈ declared o parent node →
    (p, if f.isAsync then .asyncFunction else .function) ∈ kindsDeclared o parent node
  | .annAssign .., p, f, h => by
    rw [declared] at h
    split at h
    · cases h
    · cases List.mem_singleton.1 h
  | .assign .., p, f, h => by
    rw [declared] at h
    split at h
    · cases h
    · obtain ⟨_, _, e⟩ := List.mem_map.1 h
      cases e
  | .functionDef g, p, f, h => by
    rw [declared] at h
    cases List.mem_singleton.1 h
    rw [kindsDeclared]
    exact List.mem_singleton.2 rfl
  | .classDef name bases decorators body, p, f, h => by
    rw [declared] at h
    rw [kindsDeclared]
    exact List.mem_cons_of_mem _ (kinds_of_declaredAll o _ body p f h)
  | .ifStmt test body orelse, p, f, h => by
    rw [declared] at h
    rw [kindsDeclared]
    split at h
    · rw [if_pos (by assumption)]; exact kinds_of_declaredAll o _ body p f h
    · rw [if_neg (by assumption)]; exact kinds_of_declaredAll o _ orelse p f h
  | .import_ _, p, f, h => by rw [declared] at h; cases h
  | .importFrom .., p, f, h => by rw [declared] at h; cases h
  | .other _ body, p, f, h => by
    rw [declared] at h
    rw [kindsDeclared]
    exact kinds_of_declaredAll o _ body p f h

theorem kinds_of_declaredAll (o : Expr → Bool) (parent : Path) : ∀ (body : List Stmt) (p : Path)
    (f : FunctionDef), (p, Stmt.functionDef f) ∈ declaredAll o parent body →
    (p, if f.isAsync then .asyncFunction else .function) ∈ kindsDeclaredAll o parent body
  | [], p, f, h => by rw [declaredAll] at h; cases h
  | node :: nodes, p, f, h => by
    rw [declaredAll, List.mem_append] at h
    rw [kindsDeclaredAll, List.mem_append]
    exact h.imp (kinds_of_declared o parent node p f) (kinds_of_declaredAll o parent nodes p f)

end

mutual

theorem classes_of_kinds (o : Expr → Bool) (parent : Path) : ∀ (node : Stmt) (p : Path),
    (p, NodeKind.class_) ∈ kindsDeclared o parent node → p ∈ classPaths o parent node
  | .annAssign .., p, h => by
    rw [kindsDeclared] at h
    split at h
    · cases h
    · cases List.mem_singleton.1 h
  | .assign .., p, h => by
    rw [kindsDeclared] at h
    split at h
    · cases h
    · obtain ⟨_, _, e⟩ := List.mem_map.1 h
      cases e
  | .functionDef g, p, h => by
    rw [kindsDeclared] at h
    have := congrArg Prod.snd (List.mem_singleton.1 h)
    dsimp only at this
    split at this <;> cases this
  | .classDef name bases decorators body, p, h => by
    rw [kindsDeclared] at h
    rw [classPaths]
    rcases List.mem_cons.1 h with e | h
    · cases e; exact List.mem_cons_self
    · exact List.mem_cons_of_mem _ (classes_of_kindsAll o _ body p h)
  | .ifStmt test body orelse, p, h => by
    rw [kindsDeclared] at h
    rw [classPaths]
    split at h
    · rw [if_pos (by assumption)]; exact classes_of_kindsAll o _ body p h
    · rw [if_neg (by assumption)]; exact classes_of_kindsAll o _ orelse p h
  | .import_ _, p, h => by rw [kindsDeclared] at h; cases h
  | .importFrom .., p, h => by rw [kindsDeclared] at h; cases h
  | .other _ body, p, h => by
    rw [kindsDeclared] at h
    rw [classPaths]
    exact classes_of_kindsAll o _ body p h

theorem classes_of_kindsAll (o : Expr → Bool) (parent : Path) : ∀ (body : List Stmt) (p : Path),
    (p, NodeKind.class_) ∈ kindsDeclaredAll o parent body → p ∈ classPathsAll o parent body
  | [], p, h => by rw [kindsDeclaredAll] at h; cases h
  | node :: nodes, p, h => by
    rw [kindsDeclaredAll, List.mem_append] at h
    rw [classPathsAll, List.mem_append]
    exact h.imp (classes_of_kinds o parent node p) (classes_of_kindsAll o parent nodes p)

end

theorem lastKind_some {l : List (Path × NodeKind)} {p : Path} {kind : NodeKind}
    (h : (p, kind) ∈ l) : ∃ k, lastKind l p = some k := by
  unfold lastKind
  cases hl : ((l.filter (fun e => e.1 == p)).map Prod.snd).getLast? with
  | some k => exact ⟨k, rfl⟩
  | none =>
    rw [List.getLast?_eq_none_iff, List.map_eq_nil_iff] at hl
    have : (p, kind) ∈ l.filter (fun e => e.1 == p) := List.mem_filter.2 ⟨h, by simp⟩
    rw [hl] at this
    cases this

theorem lastKind_mem {l : List (Path × NodeKind)} {p : Path} {kind : NodeKind}
    (h : lastKind l p = some kind) : (p, kind) ∈ l := by
  obtain ⟨⟨q, k⟩, hx, rfl⟩ := List.mem_map.1 (List.mem_of_getLast? h)
  obtain ⟨h1, h2⟩ := List.mem_filter.1 hx
  have : q = p := by simpa using h2
  exact this ▸ h1

end Paradigm
