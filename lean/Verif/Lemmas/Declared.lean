import Verif.Lemmas.Parsing

/-!
# Lemmas about the stub parser: what it records
-/

namespace Paradigm

open Spec

/-! ### Successful computations -/

theorem bind_ok {α β : Type} {x : P α} {f : α → P β} {s t : ParseState} {b : β}
    (h : (x >>= f) s = (.ok b, t)) : ∃ a u, x s = (.ok a, u) ∧ f a u = (.ok b, t) := by
  have h' : P.bind x f s = (.ok b, t) := h
  unfold P.bind at h'
  cases hx : x s with
  | mk r u =>
    rw [hx] at h'
    cases r with
    | error e => simp at h'
    | ok a => exact ⟨a, u, rfl, h'⟩

theorem lift_ok {α : Type} {r : Except PyErr α} {s t : ParseState} {a : α}
    (h : P.lift r s = (.ok a, t)) : r = .ok a ∧ t = s := by
  unfold P.lift at h
  exact ⟨congrArg Prod.fst h, (congrArg Prod.snd h).symm⟩

theorem each_cons_ok {α : Type} {f : α → P Unit} {x : α} {xs : List α} {s t : ParseState}
    (h : P.each f (x :: xs) s = (.ok (), t)) :
    ∃ u, f x s = (.ok (), u) ∧ P.each f xs u = (.ok (), t) := by
  obtain ⟨_, u, h1, h2⟩ := bind_ok (x := f x) (f := fun _ => P.each f xs) h
  exact ⟨u, h1, h2⟩

theorem Pres.of_eq {R : ParseState → ParseState → Prop} {α : Type} {x : P α} (h : Pres R x)
    {s t : ParseState} {r : Except PyErr α} (e : x s = (r, t)) : R s t := by
  have := h s
  rw [e] at this
  exact this

/-! ### Names -/

theorem toMaybePath_eq : ∀ e : Expr, toMaybePath e = dotted e
  | .name .. => rfl
  | .attribute value attr _ => by
    rw [toMaybePath, dotted, toMaybePath_eq value]
    cases dotted value <;> rfl
  | .subscript .. => rfl
  | .tuple .. => rfl
  | .list _ => rfl
  | .call .. => rfl
  | .constant _ => rfl
  | .binOp .. => rfl
  | .other .. => rfl

theorem toPath_ok : ∀ {e : Expr} {path : Path}, toPath e = .ok path → dotted e = some path
  | .name .., _, h => by simp only [toPath, Except.ok.injEq] at h; rw [← h]; rfl
  | .attribute value attr _, path, h => by
    rw [toPath] at h
    rw [dotted]
    cases hv : toPath value with
    | error e => rw [hv] at h; cases h
    | ok p =>
      rw [hv] at h
      simp only [Except.ok.injEq] at h
      rw [toPath_ok hv, ← h]
      rfl
  | .subscript .., _, h => by cases h
  | .tuple .., _, h => by cases h
  | .list _, _, h => by cases h
  | .call .., _, h => by cases h
  | .constant _, _, h => by cases h
  | .binOp .., _, h => by cases h
  | .other .., _, h => by cases h

/-! ### Statements recorded -/

/-- The nodes of a visited module are kept, but for the paths of `K`. -/
structure NodesKept (m : Path) (K : Path → Prop) (s t : ParseState) : Prop where
  visited : m ∈ s.visited → m ∈ t.visited
  nodes : m ∈ s.visited → ∀ p, ¬ K p → nodesAt t m p = nodesAt s m p

theorem nodesKept_preorder (m : Path) (K : Path → Prop) : Preorder' (NodesKept m K) where
  refl _ := ⟨fun h => h, fun _ _ _ => rfl⟩
  trans h h' := ⟨fun x => h'.visited (h.visited x),
    fun x p hp => (h'.nodes (h.visited x) p hp).trans (h.nodes x p hp)⟩

theorem Ext.nodesKept {s t : ParseState} (h : Ext (fun _ => False) s t) (m : Path)
    (K : Path → Prop) : NodesKept m K s t :=
  ⟨h.visited m, fun hm p _ => by
    unfold nodesAt
    rw [(h.same m hm id).nodes]⟩

theorem nodesAt_addNode (c : Place) (path : Path) (node : Stmt) (s : ParseState) (p : Path) :
    nodesAt (addNode c path node s) c.module p
      = nodesAt s c.module p ++ if p = c.parent ++ path then [node] else [] := by
  unfold nodesAt
  simp only [addNode, lookup_dictUpdate_self, Option.getD_some]
  by_cases e : p = c.parent ++ path
  · subst e
    simp [lookup_dictUpdate_self]
  · simp [lookup_dictUpdate_ne _ _ _ e, e]

theorem nodesKept_baseUpdates (c : Place) (name : String) :
    BaseUpdates (NodesKept c.module (· = c.parent ++ [name])) c name where
  base _ _ := ⟨fun h => h, fun _ _ _ => rfl⟩
  tuple f q s := ⟨fun h => h, fun _ p hp => by
    show nodesAt (addNode c [name] (.functionDef f) s) c.module p = _
    rw [nodesAt_addNode, if_neg hp, List.append_nil]⟩
  clear _ := ⟨fun h => h, fun _ _ _ => rfl⟩
  generics _ _ := ⟨fun h => h, fun _ _ _ => rfl⟩

/-- The nodes at one path are the same. -/
def SameNodes (m p : Path) (s t : ParseState) : Prop := nodesAt t m p = nodesAt s m p

theorem sameNodes_reference (c : Place) (p path : Path) (q : QPath) :
    Pres (SameNodes c.module p) (P.update (addReference c path q)) := fun _ => rfl

theorem sameNodes_preorder (m p : Path) : Preorder' (SameNodes m p) :=
  ⟨fun _ => rfl, fun h h' => Eq.trans h' h⟩

theorem declaredAt_append (l l' : List (Path × Stmt)) (p : Path) :
    declaredAt (l ++ l') p = declaredAt l p ++ declaredAt l' p := by
  simp [declaredAt]

theorem declaredAt_cons (q : Path) (node : Stmt) (l : List (Path × Stmt)) (p : Path) :
    declaredAt ((q, node) :: l) p = (if p = q then [node] else []) ++ declaredAt l p := by
  by_cases e : p = q
  · subst e; simp [declaredAt]
  · have : ¬ q = p := fun h => e h.symm
    simp [declaredAt, e, this]

theorem evaluateTest_ok {E : StubFiles} {o : Expr → Bool} (ho : Decides E o)
    {resolve : Path → Path → Path → P QPath} {c : Place} {test : Expr} {s t : ParseState} {b : Bool}
    (h : evaluateTest E resolve c test s = (.ok b, t)) : b = o test := by
  obtain ⟨ns, u, _, h2⟩ := bind_ok h
  exact ho _ _ _ (lift_ok h2).1

theorem bind_any {α β : Type} {x : P α} {f : α → P β} {s t : ParseState} {r : Except PyErr β}
    (h : (x >>= f) s = (r, t)) : (∃ e, x s = (.error e, t) ∧ r = .error e) ∨
      ∃ a u, x s = (.ok a, u) ∧ f a u = (r, t) := by
  have h' : P.bind x f s = (r, t) := h
  unfold P.bind at h'
  cases hx : x s with
  | mk r' u =>
    rw [hx] at h'
    cases r' with
    | error e =>
      simp only [Prod.mk.injEq] at h'
      exact .inl ⟨e, by rw [h'.2], h'.1.symm⟩
    | ok a => exact .inr ⟨a, u, rfl, h'⟩

/-- `ys` adds to `xs` a beginning of `D`, and all of `D` in case of success. -/
def Grown {α β : Type} (r : Except PyErr α) (xs ys D : List β) : Prop :=
  ∃ l, ys = xs ++ l ∧ l <+: D ∧ (∀ a, r = .ok a → l = D)

theorem Grown.done {α β : Type} {r : Except PyErr α} {xs ys D : List β} (h : ys = xs ++ D) :
    Grown r xs ys D := ⟨D, h, List.prefix_refl _, fun _ _ => rfl⟩

theorem Grown.failed {α β : Type} {e : PyErr} {xs ys D : List β} (h : ys = xs) :
    Grown (.error e : Except PyErr α) xs ys D :=
  ⟨[], by simp [h], List.nil_prefix, fun _ h => by cases h⟩

theorem Grown.failed_append {α γ β : Type} {e : PyErr} {xs ys D D' : List β}
    (h : Grown (.error e : Except PyErr α) xs ys D) :
    Grown (.error e : Except PyErr γ) xs ys (D ++ D') := by
  obtain ⟨l, h1, h2, _⟩ := h
  exact ⟨l, h1, h2.trans (List.prefix_append _ _), fun _ h => by cases h⟩

theorem Grown.comp {α γ β : Type} {a : α} {r : Except PyErr γ} {xs ys zs D D' : List β}
    (h : Grown (.ok a : Except PyErr α) xs ys D) (h' : Grown r ys zs D') :
    Grown r xs zs (D ++ D') := by
  obtain ⟨l, h1, _, h3⟩ := h
  obtain ⟨l', h4, h5, h6⟩ := h'
  have := h3 a rfl
  subst this
  refine ⟨l ++ l', by rw [h4, h1, List.append_assoc], ?_, fun b hb => by rw [h6 b hb]⟩
  exact List.prefix_append_right_inj l |>.2 h5

theorem Grown.pre {α β : Type} {r : Except PyErr α} {xs ys zs D : List β} (h : ys = xs)
    (h' : Grown r ys zs D) : Grown r xs zs D := h ▸ h'

/-- Composition along a list. -/
theorem each_grown {α β : Type} {f : α → P Unit} {look : ParseState → List β} {D : α → List β}
    {Inv : ParseState → Prop} : ∀ (xs : List α),
    (∀ x ∈ xs, ∀ s t r, Inv s → f x s = (r, t) → Inv t ∧ Grown r (look s) (look t) (D x)) →
    ∀ s t r, Inv s → P.each f xs s = (r, t) → Inv t ∧ Grown r (look s) (look t) (xs.flatMap D)
  | [], _, s, t, r, hi, h => by
    have ht : s = t := congrArg Prod.snd h
    subst ht
    exact ⟨hi, Grown.done (by simp)⟩
  | x :: xs, hf, s, t, r, hi, h => by
    rw [List.flatMap_cons]
    rcases bind_any (x := f x) (f := fun _ => P.each f xs) h with ⟨e, h1, rfl⟩ | ⟨a, u, h1, h2⟩
    · obtain ⟨hi', g⟩ := hf x List.mem_cons_self s t _ hi h1
      exact ⟨hi', g.failed_append⟩
    · obtain ⟨hi', g⟩ := hf x List.mem_cons_self s u _ hi h1
      obtain ⟨hi'', g'⟩ := each_grown xs (fun y hy => hf y (List.mem_cons_of_mem _ hy)) u t r hi' h2
      exact ⟨hi'', g.comp g'⟩

theorem declaredAt_flatMap {α : Type} (D : α → List (Path × Stmt)) (p : Path) : ∀ xs : List α,
    declaredAt (xs.flatMap D) p = xs.flatMap (fun x => declaredAt (D x) p)
  | [] => rfl
  | x :: xs => by
    rw [List.flatMap_cons, List.flatMap_cons, declaredAt_append, declaredAt_flatMap D p xs]

theorem declaredAll_eq (o : Expr → Bool) (parent : Path) : ∀ body : List Stmt,
    declaredAll o parent body = body.flatMap (declared o parent)
  | [] => rfl
  | x :: xs => by rw [declaredAll, List.flatMap_cons, declaredAll_eq o parent xs]

theorem mem_classPathsAll {o : Expr → Bool} {parent : Path} {p : Path} {x : Stmt} :
    ∀ {body : List Stmt}, x ∈ body → p ∈ classPaths o parent x → p ∈ classPathsAll o parent body
  | y :: ys, hx, hp => by
    rw [classPathsAll, List.mem_append]
    rcases List.mem_cons.1 hx with rfl | hx
    · exact .inl hp
    · exact .inr (mem_classPathsAll hx hp)

theorem visit_nodes {E : StubFiles} {o : Expr → Bool} (ho : Decides E o) : ∀ (n : Nat) (c : Place)
    (node : Stmt) (s t : ParseState) (r : Except PyErr Unit), c.module ∈ s.visited →
    visit E n c node s = (r, t) → ∀ p, p ∉ classPaths o c.parent node →
      Grown r (nodesAt s c.module p) (nodesAt t c.module p)
        (declaredAt (declared o c.parent node) p) := by
  intro n
  induction n with
  | zero =>
    intro c node s t r _ h p _
    rw [visit] at h
    cases h
    exact Grown.failed rfl
  | succ n ih =>
    have many : ∀ (c : Place) (body : List Stmt) (s t : ParseState) (r : Except PyErr Unit),
        c.module ∈ s.visited → P.each (visit E n c) body s = (r, t) →
        ∀ p, p ∉ classPathsAll o c.parent body →
        Grown r (nodesAt s c.module p) (nodesAt t c.module p)
          (declaredAt (declaredAll o c.parent body) p) := by
      intro c body s t r hv h p hp
      rw [declaredAll_eq, declaredAt_flatMap]
      refine (each_grown (look := fun s => nodesAt s c.module p)
        (Inv := fun s => c.module ∈ s.visited) body (fun x hx s t r hv h => ?_) s t r hv h).2
      exact ⟨(((parsing_ext E n).1 c x).of_eq h).visited _ hv,
        ih c x s t r hv h p fun hp' => hp (mem_classPathsAll hx hp')⟩
    intro c node s t r hv h p hp
    have hr : ∀ m q ob, Pres (NodesKept c.module (fun _ => False)) (resolveP E n m q ob) :=
      fun m q ob => ((parsing_ext E n).2.1 m q ob).mono fun _ _ h => h.nodesKept _ _
    have hq : ∀ ob, Pres (NodesKept c.module (fun _ => False)) (toQualified (resolveP E n) c ob) :=
      fun ob => toQualified_pres (nodesKept_preorder _ _) hr
        (fun _ _ => ⟨fun h => h, fun _ _ _ => rfl⟩) ob
    cases node with
    | annAssign target annotation value =>
      simp only [visit] at h
      rcases bind_any h with ⟨e, h1, rfl⟩ | ⟨path, u, h1, h2⟩
      · have : s = t := congrArg Prod.snd h1
        exact Grown.failed (by rw [this])
      obtain ⟨hpath, rfl⟩ := lift_ok h1
      have hval : value.bind toMaybePath = value.bind dotted := by
        cases value <;> simp [toMaybePath_eq]
      rw [declared, toPath_ok hpath]
      cases hvp : value.bind dotted with
      | none =>
        rw [hval, hvp] at h2
        have ht : t = addDefinition c path (addKind c path .annotatedAssignment
          (addNode c path (.annAssign target annotation value) u)) := (congrArg Prod.snd h2).symm
        have hal : isAlias value = false := by
          cases value with
          | none => rfl
          | some v => simp only [Option.bind_some] at hvp; simp [isAlias, hvp]
        rw [hal, if_neg (by simp), ht, declaredAt_cons]
        refine Grown.done ?_
        show nodesAt (addNode c path _ u) c.module p = _
        rw [nodesAt_addNode]
        simp [declaredAt]
      | some vp =>
        rw [hval, hvp] at h2
        have hal : isAlias value = true := by
          cases value with
          | none => cases hvp
          | some v => simp only [Option.bind_some] at hvp; simp [isAlias, hvp]
        rw [hal, if_pos rfl]
        rcases bind_any h2 with ⟨e, h3, rfl⟩ | ⟨q, v, h3, h4⟩
        · exact Grown.failed (((hq vp).of_eq h3).nodes hv p id)
        · have ht : t = addReference c path q v := (congrArg Prod.snd h4).symm
          refine Grown.done ?_
          rw [ht]
          show nodesAt v c.module p = _
          rw [((hq vp).of_eq h3).nodes hv p id]
          simp [declaredAt]
    | assign targets value =>
      simp only [visit, visitAssign] at h
      rw [toMaybePath_eq] at h
      rw [declared]
      cases hvp : dotted value with
      | none =>
        rw [hvp] at h
        have hal : isAlias (some value) = false := by simp [isAlias, hvp]
        rw [hal, if_neg (by simp)]
        have := (each_grown (look := fun s => nodesAt s c.module p) (Inv := fun _ => True)
          (D := fun target => declaredAt [(c.parent ++ (dotted target).getD [],
            Stmt.assign targets value)] p) targets (fun x _ s t r _ h => ⟨trivial, ?_⟩)
          s t r trivial h).2
        · rw [show targets.map (fun target => (c.parent ++ (dotted target).getD [],
              Stmt.assign targets value)) = targets.flatMap (fun target =>
              [(c.parent ++ (dotted target).getD [], Stmt.assign targets value)]) by
            rw [List.map_eq_flatMap], declaredAt_flatMap]
          exact this
        · rcases bind_any h with ⟨e, h1, rfl⟩ | ⟨path, u, h1, h2⟩
          · have : s = t := congrArg Prod.snd h1
            exact Grown.failed (by rw [this])
          obtain ⟨hpath, rfl⟩ := lift_ok h1
          have hu : t = addDefinition c path (addKind c path .assignment
            (addNode c path (.assign targets value) u)) := (congrArg Prod.snd h2).symm
          refine Grown.done ?_
          rw [declaredAt_cons, toPath_ok hpath, hu]
          show nodesAt (addNode c path _ u) c.module p = _
          rw [nodesAt_addNode]
          simp [declaredAt]
      | some vp =>
        rw [hvp] at h
        have hal : isAlias (some value) = true := by simp [isAlias, hvp]
        rw [hal, if_pos rfl]
        rcases bind_any h with ⟨e, h1, rfl⟩ | ⟨q, u, h1, h2⟩
        · exact Grown.failed (((hq vp).of_eq h1).nodes hv p id)
        have hS := sameNodes_preorder c.module p
        have h3 : nodesAt t c.module p = nodesAt u c.module p :=
          Pres.of_eq (R := SameNodes c.module p) (Pres.each hS targets fun x _ =>
            Pres.bind hS (Pres.lift hS _) fun _ => sameNodes_reference c p _ _) h2
        refine Grown.done ?_
        rw [h3, ((hq vp).of_eq h1).nodes hv p id]
        simp [declaredAt]
    | functionDef f =>
      have ht : t = addDefinition c [f.name] (addKind c [f.name]
        (if f.isAsync then .asyncFunction else .function)
        (addNode c [f.name] (.functionDef f) s)) := by
          simp only [visit] at h
          exact (congrArg Prod.snd h).symm
      rw [ht, declared, declaredAt_cons]
      refine Grown.done ?_
      show nodesAt (addNode c [f.name] _ s) c.module p = _
      rw [nodesAt_addNode]
      simp [declaredAt]
    | classDef name bases decorators body =>
      simp only [visit] at h
      rw [classPaths, List.mem_cons, not_or] at hp
      have hR := nodesKept_preorder c.module (· = c.parent ++ [name])
      have hk := fun {r u} (h1 : classTail (parseScope E n) (resolveP E n) c name bases body
          (addDefinition c [name] (addKind c [name] .class_ s)) = (r, u)) => (classTail_pres hR
        (fun m => ((parsing_ext E n).2.2 m).mono fun _ _ h => h.nodesKept c.module _)
        (fun m q ob => ((parsing_ext E n).2.1 m q ob).mono fun _ _ h => h.nodesKept c.module _)
        (fun _ _ => ⟨fun h => h, fun _ _ _ => rfl⟩) name bases body
        (nodesKept_baseUpdates c name)).of_eq h1
      have hv' : c.module ∈ (addDefinition c [name] (addKind c [name] .class_ s)).visited := hv
      rcases bind_any h with ⟨e, h1, rfl⟩ | ⟨_, u, h1, h2⟩
      · rw [visitClassHead_eq] at h1
        exact Grown.failed ((hk h1).nodes hv' p hp.1)
      · rw [visitClassHead_eq] at h1
        rw [declared]
        exact Grown.pre ((hk h1).nodes hv' p hp.1)
          (many { module := c.module, parent := c.parent ++ [name] } body u t r
            ((hk h1).visited hv') h2 p hp.2)
    | ifStmt test body orelse =>
      simp only [visit] at h
      have hk := fun {r u} (h1 : evaluateTest E (resolveP E n) c test s = (r, u)) =>
        (evaluateTest_pres (nodesKept_preorder c.module (fun _ => False)) hr E c test).of_eq h1
      rcases bind_any h with ⟨e, h1, rfl⟩ | ⟨b, u, h1, h2⟩
      · exact Grown.failed ((hk h1).nodes hv p id)
      have hb := evaluateTest_ok ho h1
      rw [classPaths] at hp
      rw [declared]
      subst hb
      cases ht : o test with
      | true =>
        simp only [ht, if_true] at h2 hp ⊢
        exact Grown.pre ((hk h1).nodes hv p id)
          (many c body u t r ((hk h1).visited hv) h2 p hp)
      | false =>
        simp only [ht, Bool.false_eq_true, if_false] at h2 hp ⊢
        exact Grown.pre ((hk h1).nodes hv p id)
          (many c orelse u t r ((hk h1).visited hv) h2 p hp)
    | import_ names =>
      simp only [visit] at h
      have hS := sameNodes_preorder c.module p
      have hk : nodesAt t c.module p = nodesAt s c.module p :=
        Pres.of_eq (R := SameNodes c.module p) (Pres.each hS _ fun _ _ =>
          Pres.each hS _ fun _ _ => sameNodes_reference c p _ _) h
      exact Grown.done (by rw [hk]; simp [declared, declaredAt])
    | importFrom m names level =>
      simp only [visit] at h
      have hS := sameNodes_preorder c.module p
      have hk : nodesAt t c.module p = nodesAt s c.module p := by
        refine Pres.of_eq (R := SameNodes c.module p) ?_ h
        unfold visitImportFrom
        refine Pres.bind hS (Pres.lift hS _) fun _ => Pres.each hS _ fun a _ => ?_
        split <;> exact fun _ => rfl
      exact Grown.done (by rw [hk]; simp [declared, declaredAt])
    | other tag body =>
      simp only [visit] at h
      rw [classPaths] at hp
      rw [declared]
      exact many c body s t r hv h p hp

theorem item_state {α β : Type} [BEq α] (d : ParseState → Dict α β) (k : α) (s : ParseState) :
    (P.item d k s).2 = s := by
  unfold P.item
  split <;> rfl

theorem body_nodes {E : StubFiles} {o : Expr → Bool} (ho : Decides E o) {n : Nat} {m : Path}
    {s t : ParseState} {r : Except PyErr Unit} {body : List Stmt}
    (h : P.each (visit E n { module := m, parent := [] }) body (started m s) = (r, t)) {p : Path}
    (hp : p ∉ classPathsAll o [] body) :
    Grown r [] (nodesAt t m p) (declaredAt (declaredAll o [] body) p) := by
  -- the module as one statement
  have key := visit_nodes ho (n + 1) { module := m, parent := [] } (.other "" body) (started m s) t
    r List.mem_cons_self (by rw [visit]; exact h) p (by rw [classPaths]; exact hp)
  rw [declared] at key
  refine Grown.pre ?_ key
  unfold nodesAt
  rw [show (started m s).nodes.lookup m = some [] from lookup_dictSet_self _ _ _]
  rfl

theorem parse_nodes {E : StubFiles} {o : Expr → Bool} (ho : Decides E o) {n : Nat} {m : Path}
    {s t : ParseState} {scope : Scope} {body : List Stmt} (hm : m ∉ s.visited)
    (hsrc : E.source m = some body) (h : parseScope E n m s = (.ok scope, t)) {p : Path}
    (hp : p ∉ classPathsAll o [] body) :
    nodesAt t m p = declaredAt (declaredAll o [] body) p := by
  cases n with
  | zero => rw [parseScope] at h; cases congrArg Prod.fst h
  | succ n =>
    rw [parse_source E n hm hsrc] at h
    obtain ⟨_, u, h1, h2⟩ := bind_ok h
    have htu : u = t := by
      have := item_state ParseState.definitions m u
      rw [h2] at this
      exact this.symm
    subst htu
    obtain ⟨l, h3, _, h5⟩ := body_nodes ho h1 hp
    rw [h3, h5 _ rfl]
    rfl

/-- What is recorded for a module is a beginning of what its source declares. -/
def Begun (E : StubFiles) (o : Expr → Bool) (t : ParseState) (m : Path) : Prop :=
  (E.source m = none → ∀ p, nodesAt t m p = []) ∧
  ∀ body, E.source m = some body → ∀ p, p ∉ classPathsAll o [] body →
    nodesAt t m p <+: declaredAt (declaredAll o [] body) p

/-- Nothing is recorded for modules not visited. -/
def Clean (s : ParseState) : Prop := ∀ m, m ∉ s.visited → s.nodes.lookup m = none

/-- Modules visited meanwhile have a beginning of their declarations recorded. -/
def BegunNew (E : StubFiles) (o : Expr → Bool) (K : Path → Prop) (s t : ParseState) : Prop :=
  Ext K s t ∧ (Clean s → Clean t ∧ ∀ m ∈ t.visited, m ∉ s.visited → Begun E o t m)

theorem Begun.same {E : StubFiles} {o : Expr → Bool} {t u : ParseState} {m : Path}
    (h : Begun E o t m) (hs : SameAt t u m) : Begun E o u m := by
  unfold Begun nodesAt at *
  rw [hs.nodes]
  exact h

theorem begunNew_trans {E : StubFiles} {o : Expr → Bool} {K : Path → Prop} {s t u : ParseState}
    (hK : ∀ m, K m → m ∈ s.visited) (h : BegunNew E o K s t) (h' : BegunNew E o K t u) :
    BegunNew E o K s u := by
  refine ⟨(ext_preorder K).trans h.1 h'.1, fun hc => ?_⟩
  obtain ⟨ct, hb⟩ := h.2 hc
  obtain ⟨cu, hb'⟩ := h'.2 ct
  refine ⟨cu, fun m hm hs => ?_⟩
  by_cases ht : m ∈ t.visited
  · exact (hb m ht hs).same (h'.1.same m ht fun k => hs (hK m k))
  · exact hb' m hm ht

theorem begunNew_local {E : StubFiles} {o : Expr → Bool} {c : Place} {s t : ParseState}
    (hv : c.module ∈ s.visited) (he : Ext (· = c.module) s t) (hvis : t.visited = s.visited)
    (hn : ∀ m, m ≠ c.module → t.nodes.lookup m = s.nodes.lookup m) :
    BegunNew E o (· = c.module) s t :=
  ⟨he, fun hc => ⟨fun m hm => (hn m fun e => hm (hvis ▸ e ▸ hv)).trans (hc m (hvis ▸ hm)),
    fun m hm hs => absurd (hvis ▸ hm) hs⟩⟩

theorem begun_rels {E : StubFiles} {o : Expr → Bool} (ho : Decides E o) : Rels E
    (fun c s t => c.module ∈ s.visited → BegunNew E o (· = c.module) s t)
    (fun c _ s t => c.module ∈ s.visited → BegunNew E o (· = c.module) s t)
    (BegunNew E o (fun _ => False)) := by
  have refl : ∀ K s, BegunNew E o K s s := fun K s =>
    ⟨(ext_preorder K).refl s, fun hc => ⟨hc, fun m hm hs => absurd hm hs⟩⟩
  have pre : ∀ c : Place, Preorder' (fun s t => c.module ∈ s.visited →
      BegunNew E o (· = c.module) s t) := fun c =>
    ⟨fun s _ => refl _ s, fun h h' hv => begunNew_trans (fun m e => e ▸ hv) (h hv)
      (h' ((h hv).1.visited _ hv))⟩
  have weaken : ∀ (c : Place) s t, BegunNew E o (fun _ => False) s t → c.module ∈ s.visited →
      BegunNew E o (· = c.module) s t := fun c s t h _ => ⟨h.1.mono fun _ => False.elim, h.2⟩
  refine { preV := pre, preW := fun c _ => pre c, preR := ⟨refl _, fun h h' =>
             begunNew_trans (fun _ => False.elim) h h'⟩, RV := weaken,
           RW := fun c _ => weaken c, updates := fun c => ?_, definition := fun c name path s hv => ?_,
           baseUpdates := fun c name => ?_, head := fun c name s t h hv => ?_,
           child := fun _ _ _ _ h => h, asked := fun m s hm hsrc => ?_, started := ?_ }
  · have u := ext_updates c
    exact ⟨fun path s hv => begunNew_local hv (u.definition path s) rfl fun _ _ => rfl,
      fun path q s hv => begunNew_local hv (u.reference path q s) rfl fun _ _ => rfl,
      fun m s hv => begunNew_local hv (u.submodule m s) rfl fun _ _ => rfl,
      fun path node kind s hv => begunNew_local hv (u.node path node kind s) rfl fun m hm =>
        lookup_dictSet_ne _ _ hm⟩
  · exact begunNew_local hv ((ext_updates c).definition path s) rfl fun _ _ => rfl
  · have u := ext_baseUpdates c name
    exact ⟨fun b s hv => begunNew_local hv (u.base b s) rfl fun _ _ => rfl,
      fun f q s hv => begunNew_local hv (u.tuple f q s) rfl fun m hm => lookup_dictSet_ne _ _ hm,
      fun s hv => begunNew_local hv (u.clear s) rfl fun _ _ => rfl,
      fun ps s hv => begunNew_local hv (u.generics ps s) rfl fun _ _ => rfl⟩
  · exact begunNew_trans (fun m e => e ▸ hv)
      (begunNew_local hv (ext_classHead c name s) rfl fun _ _ => rfl) (h hv)
  · refine ⟨(ext_rels E).asked m s hm hsrc, fun hc => ⟨fun x hx => hc x fun h =>
      hx (List.mem_cons_of_mem _ h), fun x hx hs => ?_⟩⟩
    have : x = m := (List.mem_cons.1 hx).resolve_right hs
    subst this
    have empty : ∀ p, nodesAt (asked x s) x p = [] := by
      intro p
      unfold nodesAt
      rw [show (asked x s).nodes.lookup x = none from hc x hs]
      rfl
    refine ⟨fun _ => empty, fun body _ p _ => ?_⟩
    rw [empty]
    exact List.nil_prefix
  · rintro m s t hm ⟨n, body, r, hsrc, hrun⟩ h
    have h := h List.mem_cons_self
    refine ⟨(ext_rels E).started m s t hm ⟨n, body, r, hsrc, hrun⟩ h.1, fun hc => ?_⟩
    have hc' : Clean (started m s) := by
      intro x hx
      have hne : x ≠ m := fun e => hx (e ▸ List.mem_cons_self)
      exact (lookup_dictSet_ne _ _ hne).trans (hc x fun hx' => hx (List.mem_cons_of_mem _ hx'))
    obtain ⟨ct, hb⟩ := h.2 hc'
    refine ⟨ct, fun x hx hs => ?_⟩
    by_cases e : x = m
    · subst e
      refine ⟨(fun hn => by rw [hsrc] at hn; cases hn), fun body' hsrc' p hp => ?_⟩
      rw [hsrc] at hsrc'
      cases hsrc'
      obtain ⟨l, h1, h2, _⟩ := body_nodes ho hrun hp
      rw [h1]
      exact h2
    · exact hb x hx fun hx' => (List.mem_cons.1 hx').elim e hs

/-! ### Branches not taken -/

theorem annotatedFields_prune (o : Expr → Bool) : ∀ body : List Stmt,
    annotatedFields (pruneAll o body) = annotatedFields body
  | [] => rfl
  | node :: body => by
    rw [pruneAll]
    cases node <;> simp only [prune, annotatedFields, annotatedFields_prune o body]
    split <;> simp only [annotatedFields, annotatedFields_prune o body]

theorem namedTuple_prune (o : Expr → Bool) (name : String) (body : List Stmt) :
    namedTupleConstructor name (pruneAll o body) = namedTupleConstructor name body := by
  unfold namedTupleConstructor
  rw [annotatedFields_prune]

theorem visitBase_prune (o : Expr → Bool) (parse : Path → P Scope)
    (resolve : Path → Path → Path → P QPath) (c : Place) (name : String) (body : List Stmt) :
    visitBase parse resolve c name (pruneAll o body) = visitBase parse resolve c name body := by
  funext base
  cases base <;> simp only [visitBase, namedTuple_prune]

theorem each_congr {α : Type} {f g : α → P Unit} : ∀ xs : List α, (∀ x ∈ xs, f x = g x) →
    P.each f xs = P.each g xs
  | [], _ => rfl
  | x :: xs, h => by
    rw [P.each, P.each, h x List.mem_cons_self,
      each_congr xs fun y hy => h y (List.mem_cons_of_mem _ hy)]

theorem bind_congr_ok {α β : Type} {x : P α} {f g : α → P β}
    (h : ∀ s a u, x s = (.ok a, u) → f a = g a) : (x >>= f) = (x >>= g) := by
  funext s
  show P.bind x f s = P.bind x g s
  unfold P.bind
  cases hx : x s with
  | mk r u =>
    cases r with
    | error e => rfl
    | ok a => simp only [h s a u hx]

theorem pruned_same {E : StubFiles} {o : Expr → Bool} (ho : Decides E o) : ∀ n : Nat,
    (∀ c node, visit (pruned E o) n c (prune o node) = visit E n c node) ∧
    (∀ m p ob, resolveP (pruned E o) n m p ob = resolveP E n m p ob) ∧
    (∀ m, parseScope (pruned E o) n m = parseScope E n m)
  | 0 => by
    refine ⟨fun c node => ?_, fun m p ob => ?_, fun m => ?_⟩
    · simp only [visit]
    · simp only [resolveP]
    · simp only [parseScope]
  | n + 1 => by
    obtain ⟨hv, hr, hp⟩ := pruned_same ho n
    have hr' : resolveP (pruned E o) n = resolveP E n := by
      funext m p ob; exact hr m p ob
    have hp' : parseScope (pruned E o) n = parseScope E n := funext hp
    have many : ∀ c body, P.each (visit (pruned E o) n c) (pruneAll o body)
        = P.each (visit E n c) body := by
      intro c body
      induction body with
      | nil => rfl
      | cons x xs ih => rw [pruneAll, P.each, P.each, hv c x, ih]
    refine ⟨fun c node => ?_, fun m p ob => ?_, fun m => ?_⟩
    · cases node
      case classDef name bases decorators body =>
        simp only [prune, visit, visitClassHead, many, hr', hp', visitBase_prune]
      case ifStmt test body orelse =>
        have hif : visit E (n + 1) c (.ifStmt test body orelse)
            = evaluateTest E (resolveP E n) c test >>= fun _ =>
              P.each (visit E n c) (if o test then body else orelse) := by
          simp only [visit]
          refine bind_congr_ok fun s b u h => ?_
          rw [evaluateTest_ok ho h]
        rw [hif, prune]
        cases ht : o test with
        | true =>
          simp only [if_true]
          simp only [visit, hr']
          refine bind_congr_ok (x := evaluateTest E (resolveP E n) c test) fun s b u h => ?_
          rw [evaluateTest_ok ho h, ht]
          exact many c body
        | false =>
          simp only [Bool.false_eq_true, if_false]
          simp only [visit, hr']
          refine bind_congr_ok (x := evaluateTest E (resolveP E n) c test) fun s b u h => ?_
          rw [evaluateTest_ok ho h, ht]
          exact many c orelse
      case other tag body => simp only [prune, visit, many]
      case importFrom => simp only [prune, visit, visitImportFrom, pruned]
      all_goals simp only [prune, visit, hr']
    · cases ob <;> simp only [resolveP, hp', hr']
    · funext s
      by_cases hm : m ∈ s.visited
      · rw [parse_visited _ n hm, parse_visited _ n hm]
      · cases hs : E.source m with
        | none =>
          rw [parse_missing E n hm hs, parse_missing _ n hm (by simp [pruned, hs])]
        | some body =>
          rw [parse_source E n hm hs,
            parse_source _ n hm (body := pruneAll o body) (by simp [pruned, hs]), many]

end Paradigm
