import Verif.Spec.WrittenBases
import Verif.Lemmas.Assignments
import Verif.Lemmas.Reading
import Verif.Lemmas.Classes
import Verif.Lemmas.Resolving
import Verif.Lemmas.Imports
import Verif.Lemmas.Scoping

/-!
# Lemmas about hierarchies of classes written in stub files
-/

namespace Paradigm

open Spec

/-- The names of `A` are no other names in `m` than they are said to be. -/
def RefsFrom (m : Path) (A : List (Path × Option QPath)) (s : ParseState) : Prop :=
  ∀ a ∈ A, ∀ q, referenceAt s m a.1 = some q → a.2 = some q

/-- And `m` star-imports nothing. -/
structure OwnNames (m : Path) (A : List (Path × Option QPath)) (s : ParseState) : Prop where
  references : RefsFrom m A s
  submodules : (s.submodules.lookup m).getD [] = []

/-- Nor does the class have parameters, or a superclass recorded for a named tuple. -/
structure OwnClass (m p : Path) (A : List (Path × Option QPath)) (s : ParseState) : Prop extends OwnNames m A s where
  generics : s.generics.lookup (m, p) = none
  superclasses : supersAt s m p = []

theorem RefsFrom.of_eq {m : Path} {A : List (Path × Option QPath)} {s t : ParseState}
    (hr : t.references.lookup m = s.references.lookup m) (h : RefsFrom m A s) : RefsFrom m A t := by
  intro a ha q hq
  refine h a ha q ?_
  unfold referenceAt at *
  rw [← hr]
  exact hq

/-! ### Names stay other names -/

/-- What `t` does not have, `s` does not have either. -/
def BackTo (m : Path) (s t : ParseState) : Prop :=
  m ∈ s.visited → m ∈ t.visited ∧ ((t.submodules.lookup m).getD [] = [] → (s.submodules.lookup m).getD [] = []) ∧
    ∀ path, referenceAt t m path = none → referenceAt s m path = none

theorem backTo_preorder (m : Path) : Preorder' (BackTo m) :=
  ⟨fun _ h => ⟨h, id, fun _ => id⟩, fun h h' hm => ⟨(h' (h hm).1).1, fun ho => (h hm).2.1 ((h' (h hm).1).2.1 ho),
    fun path ho => (h hm).2.2 path ((h' (h hm).1).2.2 path ho)⟩⟩

theorem backTo_same {m : Path} {s t : ParseState} (hv : ∀ x ∈ s.visited, x ∈ t.visited)
    (hr : t.references.lookup m = s.references.lookup m)
    (hs : t.submodules.lookup m = s.submodules.lookup m) : BackTo m s t := by
  refine fun hm => ⟨hv m hm, fun ho => ?_, fun path ho => ?_⟩
  · rw [← hs]
    exact ho
  · unfold referenceAt at *
    rw [← hr]
    exact ho

theorem backTo_updates (m : Path) (c : Place) : Updates (BackTo m) c where
  definition _ _ := backTo_same (fun _ h => h) rfl rfl
  reference path q s hm := by
    refine ⟨hm, id, fun x this => ?_⟩
    unfold referenceAt addReference at this
    dsimp only at this
    unfold referenceAt
    by_cases he : m = c.module
    · subst he
      rw [lookup_dictUpdate_self, Option.getD_some, lookup_dictSet] at this
      split at this
      · cases this
      · exact this
    · rw [lookup_dictUpdate_ne _ _ _ he] at this
      exact this
  submodule x s hm := by
    refine ⟨hm, fun this => ?_, fun _ => id⟩
    unfold addSubmodule at this
    dsimp only at this
    by_cases he : m = c.module
    · subst he
      rw [lookup_dictUpdate_self, Option.getD_some] at this
      simp at this
    · rw [lookup_dictUpdate_ne _ _ _ he] at this
      exact this
  node _ _ _ _ := backTo_same (fun _ h => h) rfl rfl

theorem backTo_rels (E : StubFiles) (m : Path) : Rels E (fun _ => BackTo m) (fun _ _ => BackTo m) (BackTo m) where
  preV _ := backTo_preorder m
  preW _ _ := backTo_preorder m
  preR := backTo_preorder m
  RV _ _ _ h := h
  RW _ _ _ _ h := h
  updates c := backTo_updates m c
  definition _ _ _ _ := backTo_same (fun _ h => h) rfl rfl
  baseUpdates _ _ := ⟨fun _ _ => backTo_same (fun _ h => h) rfl rfl, fun _ _ _ => backTo_same (fun _ h => h) rfl rfl,
    fun _ => backTo_same (fun _ h => h) rfl rfl, fun _ _ => backTo_same (fun _ h => h) rfl rfl⟩
  head c name s _ h := (backTo_preorder m).trans
    (backTo_same (t := addDefinition c [name] (addKind c [name] .class_ s)) (fun _ h => h) rfl rfl) h
  child _ _ _ _ h := h
  asked _ _ _ _ := backTo_same (fun _ h => List.mem_cons_of_mem _ h) rfl rfl
  started x s t hx _ h hm := by
    have hne : m ≠ x := fun e => hx (e ▸ hm)
    exact (backTo_preorder m).trans
      (backTo_same (t := started x s) (fun _ h => List.mem_cons_of_mem _ h)
        (lookup_dictSet_ne s.references _ hne) rfl) h hm

/-! ### Bases -/

/-- A name that `A` tells of is looked for in the module and among the builtins. -/
theorem resolveP_own {E : StubFiles} {n : Nat} {m parent : Path} {A : List (Path × Option QPath)} {s t : ParseState}
    {path : Path} (ho : OwnNames m A s) (hm : m ∈ s.visited) (hb : ToldBy A path) {r : Except PyErr QPath}
    (h : resolveP E n m parent path s = (r, t)) :
    t = s ∧ ∀ q, r = .ok q → q.1 = m ∨ q.1 = ["builtins"] ∨ OrdinaryBase q := by
  have hend : ∀ {r' : Except PyErr QPath} {u : ParseState}, (r', u) = (r, t) → u = s →
      (∀ q, r' = .ok q → q.1 = m ∨ q.1 = ["builtins"] ∨ OrdinaryBase q) →
      t = s ∧ ∀ q, r = .ok q → q.1 = m ∨ q.1 = ["builtins"] ∨ OrdinaryBase q := by
    intro r' u e hu hq
    cases e
    exact ⟨hu, hq⟩
  obtain ⟨head, rest, rfl⟩ := List.exists_cons_of_ne_nil hb.1
  match n with
  | 0 => rw [resolveP] at h; exact hend h rfl (fun _ h => nomatch h)
  | 1 =>
    rw [resolveP] at h
    refine hend (r' := .error .recursionError) (u := s) ?_ rfl (fun _ h => nomatch h)
    rw [← h]
    show _ = P.bind (parseScope E 0 m) _ s
    unfold P.bind
    rw [parseScope]
    rfl
  | n + 2 =>
    rw [resolveP] at h
    change P.bind (parseScope E (n + 1) m) _ s = _ at h
    unfold P.bind at h
    rw [parse_visited E n hm] at h
    cases hd : s.definitions.lookup m with
    | none =>
      unfold P.item at h
      rw [hd] at h
      exact hend h rfl (fun _ h => nomatch h)
    | some defs =>
      rw [item_ok hd] at h
      dsimp only at h
      unfold resolveIn at h
      split at h
      · exact hend h rfl fun q e => by cases e; exact .inl rfl
      · split at h
        · exact hend h rfl fun q e => by cases e; exact .inl rfl
        · rw [bind_of_ok (show P.get s = (.ok s, s) from rfl), ho.submodules] at h
          rw [P.firstFound] at h
          change P.bind (P.item ParseState.references m) _ s = _ at h
          unfold P.bind at h
          cases hr : s.references.lookup m with
          | none =>
            unfold P.item at h
            rw [hr] at h
            exact hend h rfl (fun _ h => nomatch h)
          | some refs =>
            rw [item_ok hr] at h
            dsimp only at h
            cases hno : longestReference refs (head :: rest) (rest.length + 1) with
            | some kq =>
              obtain ⟨k, rm, ro⟩ := kq
              rw [hno] at h
              obtain ⟨h1, h2, h3, -⟩ := longestReference_some hno
              obtain ⟨a, ha, ha1, ha2⟩ := hb.2 k (by omega) (by simpa using h2)
              refine hend h rfl fun q e => .inr (.inr ?_)
              cases e
              refine ha2 (rm, ro) (ho.references a ha _ ?_)
              unfold referenceAt
              rw [hr, Option.getD_some, ha1]
              exact h3
            | none =>
            rw [hno] at h
            dsimp only at h
            change P.bind (P.item ParseState.definitions builtinsPath) _ s = _ at h
            unfold P.bind at h
            cases hbd : s.definitions.lookup builtinsPath with
            | none =>
              unfold P.item at h
              rw [hbd] at h
              exact hend h rfl (fun _ h => nomatch h)
            | some scope =>
              rw [item_ok hbd] at h
              dsimp only at h
              split at h
              · exact hend h rfl fun q e => by cases e; exact .inr (.inl rfl)
              · exact hend h rfl (fun _ h => nomatch h)

/-- It is taken for something of the module or of the builtins, or for what is imported. -/
theorem toQualified_own {E : StubFiles} {n : Nat} {c : Place} {A : List (Path × Option QPath)} {s t : ParseState}
    {path : Path} (ho : OwnNames c.module A s) (hm : c.module ∈ s.visited) (hb : ToldBy A path)
    {r : Except PyErr QPath} (h : toQualified (resolveP E n) c path s = (r, t)) :
    (t = s ∨ t = addDefinition c path s) ∧
      ∀ q, r = .ok q → q.1 = c.module ∨ q.1 = ["builtins"] ∨ OrdinaryBase q := by
  unfold toQualified P.orNotFound at h
  cases hr : resolveP E n c.module c.parent path s with
  | mk r' u =>
    obtain ⟨h1, h2⟩ := resolveP_own ho hm hb hr
    subst h1
    rw [hr] at h
    split at h
    · rename_i e
      cases e
      cases h
      exact ⟨.inr rfl, fun q e => by cases e; exact .inl rfl⟩
    · cases h
      exact ⟨.inl rfl, h2⟩

theorem no_special {m : Path} (hm : m ≠ ["typing"]) {q : QPath}
    (h : q.1 = m ∨ q.1 = ["builtins"] ∨ OrdinaryBase q) :
    (q == namedTuplePath) = false ∧ (q == protocolPath) = false ∧ (q == genericPath) = false := by
  have : OrdinaryBase q := by
    have key : q.1 ≠ ["typing"] → OrdinaryBase q := fun hne => by
      refine ⟨?_, ?_, ?_⟩ <;>
      · rintro rfl
        exact hne rfl
    rcases h with h | h | h
    · exact key (by rw [h]; exact hm)
    · exact key (by rw [h]; decide)
    · exact h
  exact ⟨beq_eq_false_iff_ne.2 this.1, beq_eq_false_iff_ne.2 this.2.1, beq_eq_false_iff_ne.2 this.2.2⟩

/-- A base that is a name `A` tells of is recorded, and nothing else. -/
theorem visitBase_own {E : StubFiles} {n : Nat} {c : Place} {A : List (Path × Option QPath)} {s t : ParseState} {e : Expr}
    {name : String} {path : Path} {body : List Stmt} (hty : c.module ≠ ["typing"])
    (ho : OwnNames c.module A s) (hm : c.module ∈ s.visited) (hb : ToldBy A path) (he : dotted e = some path)
    {r : Except PyErr (List Path)}
    (h : visitBase (parseScope E n) (resolveP E n) c name body e s = (r, t)) :
    (∀ tvs, r = .ok tvs → tvs = [] ∧ ∃ u, (u = s ∨ u = addDefinition c path s) ∧
      t = addBase (c.module, c.parent ++ [name]) e u) ∧
    ((∃ err, r = .error err) → t = s ∨ t = addDefinition c path s) := by
  have hne : ∀ v w l, e ≠ .subscript v w l := by
    rintro v w l rfl
    cases he
  have key : visitBase (parseScope E n) (resolveP E n) c name body e =
      (toQualified (resolveP E n) c path >>= fun q =>
        if q == namedTuplePath then do
          let constructor ← P.lift (namedTupleConstructor name body)
          P.update (addNode c [name] (.functionDef constructor))
          P.update (addSuperclass c.module (c.parent ++ [name]) q)
          pure []
        else if q == protocolPath then pure []
        else if q == genericPath then P.fail .assertionError
        else do
          P.update (addBase (c.module, c.parent ++ [name]) e)
          pure []) := by
    cases e <;> simp only [visitBase] <;> first | exact absurd rfl (hne _ _ _) | (rw [toPath_of_dotted he]; rfl)
  rw [key] at h
  rcases bind_any h with ⟨err, h1, rfl⟩ | ⟨q, u, h1, h2⟩
  · exact ⟨(fun _ h => nomatch h), fun _ => (toQualified_own ho hm hb h1).1⟩
  · obtain ⟨hu, hq⟩ := toQualified_own ho hm hb h1
    obtain ⟨n1, n2, n3⟩ := no_special hty (hq q rfl)
    rw [n1, n2, n3] at h2
    cases h2
    exact ⟨fun tvs h => ⟨(Except.ok.inj h).symm, u, hu, rfl⟩, fun ⟨_, h⟩ => nomatch h⟩

/-! ### What the source does not say is not recorded -/

/-- Modules stay visited, and nothing is recorded against `RefsFrom` and `OwnClass`. -/
def KeepsOwn (m p : Path) (A : List (Path × Option QPath)) (k : Path) (s t : ParseState) : Prop :=
  (∀ x ∈ s.visited, x ∈ t.visited) ∧ (RefsFrom m A s → RefsFrom m A t) ∧
    (k ∈ s.visited → OwnClass m p A s → OwnClass m p A t)

/-- The same while no module in particular is visited. -/
def KeepsOwn' (m p : Path) (A : List (Path × Option QPath)) (s t : ParseState) : Prop :=
  (∀ x ∈ s.visited, x ∈ t.visited) ∧ (RefsFrom m A s → RefsFrom m A t) ∧ (OwnClass m p A s → OwnClass m p A t)

theorem keepsOwn_preorder (m p : Path) (A : List (Path × Option QPath)) (k : Path) :
    Preorder' (KeepsOwn m p A k) :=
  ⟨fun _ => ⟨fun _ h => h, id, fun _ h => h⟩, fun h h' => ⟨fun x hx => h'.1 x (h.1 x hx),
    fun hr => h'.2.1 (h.2.1 hr), fun hk ho => h'.2.2 (h.1 k hk) (h.2.2 hk ho)⟩⟩

theorem keepsOwn'_preorder (m p : Path) (A : List (Path × Option QPath)) : Preorder' (KeepsOwn' m p A) :=
  ⟨fun _ => ⟨fun _ h => h, id, fun h => h⟩, fun h h' => ⟨fun x hx => h'.1 x (h.1 x hx),
    fun hr => h'.2.1 (h.2.1 hr), fun ho => h'.2.2 (h.2.2 ho)⟩⟩

theorem KeepsOwn'.at {m p : Path} {A : List (Path × Option QPath)} {s t : ParseState} (h : KeepsOwn' m p A s t)
    (k : Path) : KeepsOwn m p A k s t := ⟨h.1, h.2.1, fun _ => h.2.2⟩

/-- Other tables. -/
theorem keepsOwn_aside {m p : Path} {A : List (Path × Option QPath)} {s t : ParseState}
    (hv : ∀ x ∈ s.visited, x ∈ t.visited) (hr : t.references.lookup m = s.references.lookup m)
    (hs : t.submodules.lookup m = s.submodules.lookup m) (hg : t.generics.lookup (m, p) = s.generics.lookup (m, p))
    (hc : supersAt t m p = supersAt s m p) : KeepsOwn' m p A s t :=
  ⟨hv, RefsFrom.of_eq hr, fun ho => ⟨⟨ho.references.of_eq hr, by rw [hs]; exact ho.submodules⟩,
    by rw [hg]; exact ho.generics, by rw [hc]; exact ho.superclasses⟩⟩

theorem keepsOwn_other {m p : Path} {A : List (Path × Option QPath)} {k : Path} (s t : ParseState)
    (hv : t.visited = s.visited) (hr : t.references = s.references) (hs : t.submodules = s.submodules)
    (hg : t.generics = s.generics) (hc : t.superclasses = s.superclasses) : KeepsOwn m p A k s t :=
  (keepsOwn_aside (s := s) (t := t) (fun x h => by rw [hv]; exact h) (by rw [hr]) (by rw [hs]) (by rw [hg])
    (by unfold supersAt; rw [hc])).at k

theorem keepsOwn_reference {m p : Path} {A : List (Path × Option QPath)} (c : Place) (path : Path) (q : QPath)
    (s : ParseState) (h : c.module = m → ∀ a ∈ A, path = a.1 → a.2 = some q) :
    KeepsOwn' m p A s (addReference c path q s) := by
  by_cases he : m = c.module
  · have key : RefsFrom m A s → RefsFrom m A (addReference c path q s) := by
      intro ho a ha q' hq'
      subst he
      unfold referenceAt addReference at hq'
      dsimp only at hq'
      rw [lookup_dictUpdate_self, Option.getD_some, lookup_dictSet] at hq'
      split at hq'
      · rename_i e
        cases hq'
        exact h rfl a ha (eq_of_beq e).symm
      · exact ho a ha q' hq'
    exact ⟨fun _ h => h, key, fun ho => ⟨⟨key ho.references, ho.submodules⟩, ho.generics, ho.superclasses⟩⟩
  · refine keepsOwn_aside (s := s) (t := addReference c path q s) (fun _ h => h) ?_ rfl rfl rfl
    unfold addReference
    dsimp only
    rw [lookup_dictUpdate_ne _ _ _ he]

theorem keepsOwn_submodule {m p : Path} {A : List (Path × Option QPath)} (c : Place) (x : Path) (s : ParseState)
    (h : c.module ≠ m) : KeepsOwn' m p A s (addSubmodule c x s) := by
  refine keepsOwn_aside (s := s) (t := addSubmodule c x s) (fun _ h => h) rfl ?_ rfl rfl
  unfold addSubmodule
  dsimp only
  rw [lookup_dictUpdate_ne _ _ _ (Ne.symm h)]

theorem supersAt_addSuperclass {m p x y : Path} {q : QPath} {s : ParseState} (h : (x, y) ≠ (m, p)) :
    supersAt (addSuperclass x y q s) m p = supersAt s m p := by
  unfold supersAt addSuperclass
  dsimp only
  by_cases he : m = x
  · subst he
    have hy : p ≠ y := fun e => h (by rw [e])
    rw [lookup_dictUpdate_self, Option.getD_some, lookup_dictUpdate_ne _ _ _ hy]
  · rw [lookup_dictUpdate_ne _ _ _ he]

theorem keepsOwn_baseUpdates {m p : Path} {A : List (Path × Option QPath)} (c : Place) (name : String)
    (h : (c.module, c.parent ++ [name]) ≠ (m, p)) (k : Path) : BaseUpdates (KeepsOwn m p A k) c name where
  base _ _ := keepsOwn_other _ _ rfl rfl rfl rfl rfl
  tuple f q s := (keepsOwn_aside (s := s)
    (t := addSuperclass c.module (c.parent ++ [name]) q (addNode c [name] (.functionDef f) s)) (fun _ h => h) rfl rfl rfl
    (supersAt_addSuperclass h)).at k
  clear _ := keepsOwn_other _ _ rfl rfl rfl rfl rfl
  generics ps s := (keepsOwn_aside (s := s)
    (t := { s with generics := dictSet s.generics (c.module, c.parent ++ [name]) ps }) (fun _ h => h) rfl rfl
    (lookup_dictSet_ne s.generics _ (Ne.symm h)) rfl).at k

theorem Pres.bind_ok {R : ParseState → ParseState → Prop} (hR : Preorder' R) {α β : Type} {x : P α} {f : α → P β}
    (hx : Pres R x) (hf : ∀ s a t, x s = (.ok a, t) → R t (f a t).2) : Pres R (x >>= f) := by
  intro s
  show R s (P.bind x f s).2
  unfold P.bind
  have h1 := hx s
  cases hs : x s with
  | mk r t =>
    rw [hs] at h1
    cases r with
    | error e => exact h1
    | ok a => exact hR.trans h1 (hf s a t hs)

/-- The loop over plain bases. -/
theorem map_own {E : StubFiles} {n : Nat} {c : Place} {A : List (Path × Option QPath)} {name : String} {body : List Stmt}
    (hty : c.module ≠ ["typing"]) : ∀ (bases : List Expr), NamesOnly A bases → ∀ (s t : ParseState)
    (r : Except PyErr (List (List Path))), c.module ∈ s.visited → OwnNames c.module A s →
    P.map (visitBase (parseScope E n) (resolveP E n) c name body) bases s = (r, t) →
    (∀ x ∈ s.visited, x ∈ t.visited) ∧ t.references = s.references ∧ t.submodules = s.submodules ∧
      t.generics = s.generics ∧ t.superclasses = s.superclasses ∧
      ∀ tvs, r = .ok tvs → tvs.flatten = [] ∧ ∀ l, s.classesBases.lookup (c.module, c.parent ++ [name]) = some l →
        t.classesBases.lookup (c.module, c.parent ++ [name]) = some (l ++ bases)
  | [], _, s, t, r, _, _, h => by
    cases h
    exact ⟨fun _ h => h, rfl, rfl, rfl, rfl, fun tvs e => by cases e; exact ⟨rfl, fun l hl => by simpa using hl⟩⟩
  | e :: es, hB, s, t, r, hm, ho, h => by
    obtain ⟨b, he, hb⟩ := hB e List.mem_cons_self
    rcases bind_any (x := visitBase (parseScope E n) (resolveP E n) c name body e) h with
      ⟨err, h1, rfl⟩ | ⟨tv, u, h1, h2⟩
    · rcases (visitBase_own hty ho hm hb he h1).2 ⟨_, rfl⟩ with rfl | rfl
      · exact ⟨fun _ h => h, rfl, rfl, rfl, rfl, fun _ h => nomatch h⟩
      · exact ⟨fun _ h => h, rfl, rfl, rfl, rfl, fun _ h => nomatch h⟩
    · obtain ⟨rfl, v, hv, hu⟩ := (visitBase_own hty ho hm hb he h1).1 _ rfl
      have hvs : v.visited = s.visited ∧ v.references = s.references ∧ v.submodules = s.submodules ∧
          v.generics = s.generics ∧ v.superclasses = s.superclasses ∧ v.classesBases = s.classesBases := by
        rcases hv with rfl | rfl <;> exact ⟨rfl, rfl, rfl, rfl, rfl, rfl⟩
      obtain ⟨v1, v2, v3, v4, v5, v6⟩ := hvs
      have hmu : c.module ∈ u.visited := by rw [hu]; show _ ∈ v.visited; rw [v1]; exact hm
      have hou : OwnNames c.module A u := by
        rw [hu]
        refine ⟨ho.references.of_eq (show v.references.lookup c.module = _ by rw [v2]), ?_⟩
        · show (v.submodules.lookup c.module).getD [] = []
          rw [v3]
          exact ho.submodules
      have hbase : ∀ l, s.classesBases.lookup (c.module, c.parent ++ [name]) = some l →
          u.classesBases.lookup (c.module, c.parent ++ [name]) = some (l ++ [e]) := by
        intro l hl
        rw [hu]
        exact addBase_lookup (by rw [v6]; exact hl)
      rcases bind_any (x := P.map (visitBase (parseScope E n) (resolveP E n) c name body) es) h2 with
        ⟨err, h3, rfl⟩ | ⟨tvs, w, h3, h4⟩
      · obtain ⟨i1, i2, i3, i4, i5, -⟩ := map_own hty es (fun x hx => hB x (List.mem_cons_of_mem _ hx)) u t _ hmu hou h3
        rw [hu] at i1 i2 i3 i4 i5
        exact ⟨fun x hx => i1 x (show x ∈ v.visited by rw [v1]; exact hx), i2.trans v2, i3.trans v3, i4.trans v4,
          i5.trans v5, fun _ h => nomatch h⟩
      · obtain ⟨i1, i2, i3, i4, i5, i6⟩ := map_own hty es (fun x hx => hB x (List.mem_cons_of_mem _ hx)) u w _ hmu hou h3
        rw [hu] at i1 i2 i3 i4 i5
        cases h4
        refine ⟨fun x hx => i1 x (show x ∈ v.visited by rw [v1]; exact hx), i2.trans v2, i3.trans v3, i4.trans v4,
          i5.trans v5, fun tvs' e' => ?_⟩
        cases e'
        obtain ⟨j1, j2⟩ := i6 tvs rfl
        refine ⟨by simpa using j1, fun l hl => ?_⟩
        rw [j2 _ (hbase l hl), List.append_assoc]
        rfl

/-- The head of a class statement with plain bases. -/
theorem classHead_own {E : StubFiles} {n : Nat} {c : Place} {A : List (Path × Option QPath)} {name : String} {body : List Stmt}
    {bases : List Expr} (hty : c.module ≠ ["typing"]) (hB : NamesOnly A bases) {s t : ParseState}
    {r : Except PyErr Unit} (hm : c.module ∈ s.visited) (ho : OwnNames c.module A s)
    (h : visitClassHead (parseScope E n) (resolveP E n) c name bases body s = (r, t)) :
    (∀ x ∈ s.visited, x ∈ t.visited) ∧ t.references = s.references ∧ t.submodules = s.submodules ∧
      t.generics = s.generics ∧ t.superclasses = s.superclasses ∧
      (r = .ok () → t.classesBases.lookup (c.module, c.parent ++ [name]) = some bases) := by
  rw [visitClassHead_eq] at h
  unfold classTail at h
  obtain ⟨_, u, h1, h2⟩ := (bind_any h).resolve_left (by rintro ⟨err, h1, -⟩; cases h1)
  cases h1
  rcases bind_any h2 with ⟨err, h3, rfl⟩ | ⟨tvs, v, h3, h4⟩
  · obtain ⟨i1, i2, i3, i4, i5, -⟩ := map_own hty bases hB _ _ _ (by exact hm) (by exact ⟨ho.references, ho.submodules⟩) h3
    exact ⟨i1, i2, i3, i4, i5, fun h => nomatch h⟩
  · obtain ⟨i1, i2, i3, i4, i5, i6⟩ := map_own hty bases hB _ _ _ (by exact hm) (by exact ⟨ho.references, ho.submodules⟩) h3
    obtain ⟨j1, j2⟩ := i6 tvs rfl
    have hnil : (dedup tvs.flatten).isEmpty = true := by rw [j1]; rfl
    rw [if_pos hnil] at h4
    cases h4
    exact ⟨i1, i2, i3, i4, i5, fun _ => j2 [] (lookup_dictSet_self _ _ _)⟩

/-- What is said about a statement of the module. -/
def Saying (E : StubFiles) (o : Expr → Bool) (m p : Path) (A : List (Path × Option QPath)) (c : Place) (node : Stmt) : Prop :=
  c.module = m → (∀ a ∈ A, ∀ r ∈ refers E.isPackage o m node, r.1 = a.1 → a.2.isSome = true ∧ r.2 = a.2) ∧ starsOf E.isPackage m node = [] ∧
    ∀ e ∈ classDefs o c.parent node, e.1 = p → NamesOnly A e.2

/-- What is said about statements of the module. -/
def SayingAll (E : StubFiles) (o : Expr → Bool) (m p : Path) (A : List (Path × Option QPath)) (c : Place) (body : List Stmt) :
    Prop :=
  c.module = m → (∀ a ∈ A, ∀ r ∈ refersAll E.isPackage o m body, r.1 = a.1 → a.2.isSome = true ∧ r.2 = a.2) ∧ starsAll E.isPackage m body = [] ∧
    ∀ e ∈ classDefsAll o c.parent body, e.1 = p → NamesOnly A e.2

theorem SayingAll.mem {E : StubFiles} {o : Expr → Bool} {m p : Path} {A : List (Path × Option QPath)} {c : Place} :
    ∀ {body : List Stmt}, SayingAll E o m p A c body → ∀ node ∈ body, Saying E o m p A c node
  | x :: xs, h, node, hm => by
    intro hc
    obtain ⟨h1, h2, h3⟩ := h hc
    rw [starsAll, List.append_eq_nil_iff] at h2
    rcases List.mem_cons.1 hm with rfl | hm
    · exact ⟨fun b hb r hin => h1 b hb r (by rw [refersAll]; exact List.mem_append_left _ hin), h2.1,
        fun e he => h3 e (by rw [classDefsAll]; exact List.mem_append_left _ he)⟩
    · exact SayingAll.mem (body := xs) (fun _ => ⟨fun b hb r hin => h1 b hb r (by
        rw [refersAll]; exact List.mem_append_right _ hin), h2.2,
        fun e he => h3 e (by rw [classDefsAll]; exact List.mem_append_right _ he)⟩) node hm hc

/-- The head of a class makes no other names. -/
theorem head_refs {m : Path} {A : List (Path × Option QPath)} {parse : Path → P Scope}
    {resolve : Path → Path → Path → P QPath}
    (hp : ∀ x, Pres (fun s t => RefsFrom m A s → RefsFrom m A t) (parse x))
    (hr : ∀ x y z, Pres (fun s t => RefsFrom m A s → RefsFrom m A t) (resolve x y z)) (c : Place) (name : String)
    (bases : List Expr) (body : List Stmt) :
    Pres (fun s t => RefsFrom m A s → RefsFrom m A t) (visitClassHead parse resolve c name bases body) := by
  intro s h
  rw [visitClassHead_eq]
  exact classTail_pres (R := fun s t => RefsFrom m A s → RefsFrom m A t) ⟨fun _ h => h, fun h h' x => h' (h x)⟩ hp hr
    (fun _ _ h => h.of_eq rfl) name bases body ⟨fun _ _ h => h.of_eq rfl, fun _ _ _ h => h.of_eq rfl,
      fun _ h => h.of_eq rfl, fun _ _ h => h.of_eq rfl⟩ _ (h.of_eq rfl)

section

variable {m p : Path} {A : List (Path × Option QPath)} {k : Path} {resolve : Path → Path → Path → P QPath}
  (hr : ∀ x y z, Pres (KeepsOwn m p A k) (resolve x y z))

include hr in
theorem visitAnnAssign_own (c : Place) (node : Stmt) (target : Expr) (value : Option Expr)
    (h : c.module = m → isAlias value = true → ∀ a ∈ A, (dotted target).getD [] ≠ a.1) :
    Pres (KeepsOwn m p A k) (visitAnnAssign resolve c node target value) := by
  have hR := keepsOwn_preorder m p A k
  unfold visitAnnAssign
  refine Pres.lift_bind hR fun path hpath => ?_
  split
  · exact fun s => keepsOwn_other _ _ rfl rfl rfl rfl rfl
  · rename_i valuePath hv
    refine Pres.bind hR (toQualified_pres hR hr
      (fun _ _ => keepsOwn_other _ _ rfl rfl rfl rfl rfl) _) fun q => Pres.update fun s =>
        (keepsOwn_reference c path q s fun hc => ?_).at k
    have ha : isAlias value = true := by
      cases value with
      | none => cases hv
      | some v =>
        rw [Option.bind_some, toMaybePath_eq] at hv
        show (dotted v).isSome = true
        rw [hv]
        rfl
    have := h hc ha
    rw [toPath_ok hpath] at this
    exact fun a hin e => absurd e (this a hin)

include hr in
theorem visitAssign_own (c : Place) (node : Stmt) (targets : List Expr) (value : Expr)
    (h : c.module = m → isAlias (some value) = true → ∀ target ∈ targets, ∀ a ∈ A, (dotted target).getD [] ≠ a.1) :
    Pres (KeepsOwn m p A k) (visitAssign resolve c node targets value) := by
  have hR := keepsOwn_preorder m p A k
  unfold visitAssign
  split
  · exact Pres.each hR _ fun t _ => Pres.lift_bind hR fun path _ =>
      fun s => keepsOwn_other _ _ rfl rfl rfl rfl rfl
  · rename_i valuePath hv
    have ha : isAlias (some value) = true := by
      rw [toMaybePath_eq] at hv
      show (dotted value).isSome = true
      rw [hv]
      rfl
    refine Pres.bind hR (toQualified_pres hR hr
      (fun _ _ => keepsOwn_other _ _ rfl rfl rfl rfl rfl) _) fun q =>
      Pres.each hR _ fun t ht => Pres.lift_bind hR fun path hpath => Pres.update fun s =>
        (keepsOwn_reference c path q s fun hc => ?_).at k
    have := h hc ha t ht
    rw [toPath_ok hpath] at this
    exact fun a hin e => absurd e (this a hin)

end

theorem importBindings_imported {a : Alias} :
    importBindings pathFromString a = (imported a).map fun x => (x.1, x.2, []) := by
  unfold importBindings imported
  cases a.asname with
  | none => rw [List.map_map]; rfl
  | some name => rfl

theorem pathFromString_single {x b : String} (h : pathFromString x = [b]) : x = b := by
  have := names_pathFromString x
  rw [h] at this
  have := this.2.2
  simp only [List.map_cons, List.map_nil, List.intercalate_singleton] at this
  exact String.toList_inj.1 this

theorem parsing_own {E : StubFiles} {o : Expr → Bool} (ho : Decides E o) {m p : Path} {A : List (Path × Option QPath)}
    {source : List Stmt} (hsrc : E.source m = some source) (hty : m ≠ ["typing"])
    (hd : PlainlyDerived E.isPackage o m source p A) : ∀ n,
    (∀ c node, Saying E o m p A c node → Pres (KeepsOwn m p A c.module) (visit E n c node)) ∧
    (∀ x y z, Pres (KeepsOwn' m p A) (resolveP E n x y z)) ∧
    (∀ x, Pres (KeepsOwn' m p A) (parseScope E n x))
  | 0 => by
    refine ⟨fun c node _ => ?_, fun x y z => ?_, fun x => ?_⟩
    · simp only [visit]; exact Pres.fail (keepsOwn_preorder _ _ _ _) _
    · simp only [resolveP]; exact Pres.fail (keepsOwn'_preorder _ _ _) _
    · simp only [parseScope]; exact Pres.fail (keepsOwn'_preorder _ _ _) _
  | n + 1 => by
    obtain ⟨hv, hr', hp'⟩ := parsing_own ho hsrc hty hd n
    have hR' := keepsOwn'_preorder m p A
    refine ⟨fun c node h => ?_, fun x y z => ?_, fun x => ?_⟩
    · have hR := keepsOwn_preorder m p A c.module
      have hr : ∀ x y z, Pres (KeepsOwn m p A c.module) (resolveP E n x y z) :=
        fun x y z => (hr' x y z).mono fun _ _ h => h.at _
      have hp : ∀ x, Pres (KeepsOwn m p A c.module) (parseScope E n x) := fun x => (hp' x).mono fun _ _ h => h.at _
      have hdef : ∀ path s, KeepsOwn m p A c.module s (addDefinition c path s) :=
        fun _ _ => keepsOwn_other _ _ rfl rfl rfl rfl rfl
      cases node <;> simp only [visit]
      case annAssign target annotation value =>
        refine visitAnnAssign_own hr c _ target value fun hc ha b hb e => ?_
        obtain ⟨h1, h2⟩ := (h hc).1 b hb (b.1, none) (by
          rw [refers, if_pos ha, e]
          exact List.mem_singleton.2 rfl) rfl
        rw [← h2] at h1
        cases h1
      case assign targets value =>
        refine visitAssign_own hr c _ targets value fun hc ha t ht b hb e => ?_
        obtain ⟨h1, h2⟩ := (h hc).1 b hb (b.1, none) (by
          rw [refers, if_pos ha]
          exact List.mem_map.2 ⟨t, ht, by rw [e]⟩) rfl
        rw [← h2] at h1
        cases h1
      case functionDef f => exact fun s => keepsOwn_other _ _ rfl rfl rfl rfl rfl
      case classDef name bases decorators body =>
        refine Pres.bind hR ?_ fun _ => Pres.each hR _ fun child hc =>
          hv ⟨c.module, c.parent ++ [name]⟩ child (SayingAll.mem (fun hm => ?_) child hc)
        · by_cases he : (c.module, c.parent ++ [name]) = (m, p)
          · intro s
            have hc : c.module = m := congrArg Prod.fst he
            have hB : NamesOnly A bases := (h hc).2.2 (c.parent ++ [name], bases)
              (by rw [classDefs]; exact List.mem_cons_self) (congrArg Prod.snd he)
            cases hh : visitClassHead (parseScope E n) (resolveP E n) c name bases body s with
            | mk r t =>
            have hkv : ∀ x ∈ s.visited, x ∈ t.visited := by
              rw [visitClassHead_eq] at hh
              exact ((classTail_pres (ext_preorder (· = c.module))
                (fun x => ((parsing_ext E n).2.2 x).mono fun _ _ h => h.mono fun _ => False.elim)
                (fun x y z => ((parsing_ext E n).2.1 x y z).mono fun _ _ h => h.mono fun _ => False.elim)
                (ext_updates c).definition name bases body (ext_baseUpdates c name)).of_eq hh).visited
            refine ⟨hkv, (head_refs (fun x s => (hp' x s).2.1) (fun x y z s => (hr' x y z s).2.1) c name bases body).of_eq
              hh, fun hk how => ?_⟩
            obtain ⟨-, i2, i3, i4, i5, -⟩ := classHead_own (hc ▸ hty) hB hk (hc ▸ how.toOwnNames) hh
            exact (keepsOwn_aside hkv (by rw [i2]) (by rw [i3]) (by rw [i4]) (by unfold supersAt; rw [i5])).2.2 how
          · intro s
            rw [visitClassHead_eq]
            refine hR.trans (keepsOwn_other s (addDefinition c [name] (addKind c [name] .class_ s)) rfl rfl rfl rfl
              rfl) ?_
            exact classTail_pres hR hp hr hdef name bases body (keepsOwn_baseUpdates c name he _) _
        · obtain ⟨h1, h2, h3⟩ := h hm
          rw [starsOf] at h2
          exact ⟨fun b hb r hin => h1 b hb r (by rw [refers]; exact hin), h2,
            fun e he => h3 e (by rw [classDefs]; exact List.mem_cons_of_mem _ he)⟩
      case ifStmt test body orelse =>
        refine Pres.bind_ok hR (evaluateTest_pres hR hr E c test) fun s b t hb => ?_
        have hbo := evaluateTest_ok ho hb
        refine Pres.each hR _ (fun child hc => hv c child (SayingAll.mem (fun hm => ?_) child hc)) t
        obtain ⟨h1, h2, h3⟩ := h hm
        rw [starsOf, List.append_eq_nil_iff] at h2
        rw [refers] at h1
        rw [classDefs] at h3
        rw [← hbo] at h1 h3
        cases b
        · exact ⟨h1, h2.2, h3⟩
        · exact ⟨h1, h2.1, h3⟩
      case import_ names =>
        refine Pres.each hR _ fun a ha => Pres.each hR _ fun x hx => Pres.update fun s =>
          (keepsOwn_reference c x.1 x.2 s fun hc => ?_).at _
        intro b hb e
        refine ((h hc).1 b hb (x.1, some x.2) ?_ e).2.symm
        rw [refers]
        rw [importBindings_imported] at hx
        obtain ⟨y, hy, rfl⟩ := List.mem_map.1 hx
        exact List.mem_flatMap.2 ⟨a, ha, List.mem_map.2 ⟨y, hy, rfl⟩⟩
      case importFrom module names level =>
        unfold visitImportFrom
        refine Pres.lift_bind hR fun target htarget => Pres.each hR _ fun a ha => ?_
        split
        · rename_i hstar
          refine Pres.update fun s => (keepsOwn_submodule c target s fun hc => ?_).at _
          have := (h hc).2.1
          rw [starsOf, ← hc, htarget] at this
          dsimp only at this
          rw [if_pos (List.any_eq_true.2 ⟨a, ha, by rw [hstar]; rfl⟩)] at this
          cases this
        · refine Pres.update fun s => (keepsOwn_reference c _ _ s fun hc b hb e => ?_).at _
          refine ((h hc).1 b hb (b.1, some (target, pathFromString a.name)) ?_ rfl).2.symm
          rw [refers]
          refine List.mem_map.2 ⟨a, ha, ?_⟩
          rw [← hc, htarget]
          rw [← e]
          cases a.asname <;> rfl
      case other tag body =>
        refine Pres.each hR _ fun child hc => hv c child (SayingAll.mem (fun hm => ?_) child hc)
        obtain ⟨h1, h2, h3⟩ := h hm
        rw [refers] at h1
        rw [starsOf] at h2
        rw [classDefs] at h3
        exact ⟨h1, h2, h3⟩
    · cases z <;> simp only [resolveP]
      · exact Pres.fail hR' _
      · exact Pres.bind hR' (hp' _) fun defs => resolveIn_pres hR' hr' _ _ _ _ _
    · refine parse_pres E n x hR'.refl
        (fun s _ _ => keepsOwn_aside (fun _ h => List.mem_cons_of_mem _ h) rfl rfl rfl rfl) fun s body hx hs => ?_
      have hstart : KeepsOwn' m p A s (started x s) := by
        have key : RefsFrom m A s → RefsFrom m A (started x s) := by
          intro how
          by_cases e : m = x
          · subst e
            intro a _ q hq
            change ((((dictSet s.references m []).lookup m).getD []).lookup a.1) = some q at hq
            rw [lookup_dictSet_self] at hq
            cases hq
          · exact how.of_eq (lookup_dictSet_ne s.references _ e)
        exact ⟨fun _ h => List.mem_cons_of_mem _ h, key, fun how => ⟨⟨key how.references, how.submodules⟩, how.generics,
          how.superclasses⟩⟩
      have hbody := Pres.each (keepsOwn_preorder m p A x) body (f := visit E n ⟨x, []⟩)
        (fun child hc => hv ⟨x, []⟩ child (SayingAll.mem (fun hm => by
          dsimp only at hm
          subst hm
          rw [hsrc] at hs
          cases hs
          exact ⟨hd.own, hd.stars, hd.bases⟩) child hc)) (started x s)
      exact ⟨fun y hy => hbody.1 y (hstart.1 y hy), fun hr => hbody.2.1 (hstart.2.1 hr),
        fun how => hbody.2.2 List.mem_cons_self (hstart.2.2 how)⟩

theorem parseAll_own {E : StubFiles} {o : Expr → Bool} (ho : Decides E o) {m p : Path} {A : List (Path × Option QPath)}
    {source : List Stmt} (hsrc : E.source m = some source) (hty : m ≠ ["typing"])
    (hd : PlainlyDerived E.isPackage o m source p A) (n : Nat) (modules : List Path) :
    OwnClass m p A (parseAll E n modules {}).2 :=
  ((parseAll_pres (keepsOwn'_preorder m p A) (parsing_own ho hsrc hty hd n).2.2 modules) {}).2.2
    ⟨⟨(fun _ _ _ h => nomatch h), rfl⟩, rfl, rfl⟩

/-! ### What the source says is recorded -/

theorem visit_own_bases {E : StubFiles} {o : Expr → Bool} (ho : Decides E o) {m p : Path}
    {A : List (Path × Option QPath)} {source : List Stmt} (hsrc : E.source m = some source)
    (hty : m ≠ ["typing"]) (hd : PlainlyDerived E.isPackage o m source p A) : ∀ (n : Nat) (c : Place)
    (node : Stmt) (s t : ParseState), c.module = m → m ∈ s.visited → RefsFrom m A s →
    (t.submodules.lookup m).getD [] = [] → Saying E o m p A c node → visit E n c node s = (.ok (), t) →
    t.classesBases.lookup (m, p) = (lastAt (classDefs o c.parent node) p).or (s.classesBases.lookup (m, p))
  | 0, c, node, s, t, _, _, _, _, _, h => by rw [visit] at h; cases congrArg Prod.fst h
  | n + 1, c, node, s, t, hc, hm, hrefs, hsubs, hsay, h => by
    have back : ∀ (c : Place) node {s t : ParseState} {r}, visit E n c node s = (r, t) → BackTo m s t :=
      fun c node _ _ _ h => ((parsing_rels (backTo_rels E m) n).1 c node).of_eq h
    have many : ∀ (c : Place), c.module = m → ∀ (body : List Stmt) (s t : ParseState), m ∈ s.visited → RefsFrom m A s →
        (t.submodules.lookup m).getD [] = [] → SayingAll E o m p A c body →
        P.each (visit E n c) body s = (.ok (), t) → (s.submodules.lookup m).getD [] = [] ∧
        t.classesBases.lookup (m, p) = (lastAt (classDefsAll o c.parent body) p).or (s.classesBases.lookup (m, p)) := by
      intro c hc body
      induction body with
      | nil =>
        intro s t hm hrefs hsubs hsay h
        have : s = t := congrArg Prod.snd h
        subst this
        exact ⟨hsubs, rfl⟩
      | cons node body ih =>
        intro s t hm hrefs hsubs hsay h
        obtain ⟨u, h1, h2⟩ := each_cons_ok h
        have hb := back c node h1 hm
        have hnode : Saying E o m p A c node := hsay.mem node List.mem_cons_self
        have hrest : SayingAll E o m p A c body := by
          intro hc
          obtain ⟨h1, h2, h3⟩ := hsay hc
          rw [starsAll, List.append_eq_nil_iff] at h2
          exact ⟨fun b hb r hin => h1 b hb r (by rw [refersAll]; exact List.mem_append_right _ hin), h2.2,
            fun e he => h3 e (by rw [classDefsAll]; exact List.mem_append_right _ he)⟩
        obtain ⟨i1, i2⟩ := ih u t hb.1 ((((parsing_own ho hsrc hty hd n).1 c node hnode).of_eq h1).2.1 hrefs) hsubs hrest h2
        have := visit_own_bases ho hsrc hty hd n c node s u hc hm hrefs i1 hnode h1
        refine ⟨hb.2.1 i1, ?_⟩
        rw [i2, this, classDefsAll, lastAt_append, Option.or_assoc]
    subst hc
    have hR := classesKept_preorder c.module (fun _ => False)
    have hr : ∀ m q ob, Pres (ClassesKept c.module (fun _ => False)) (resolveP E n m q ob) :=
      fun m q ob => ((parsing_ext E n).2.1 m q ob).mono fun _ _ h => h.classesKept id _
    have hU := classesKept_updates c
    have kept : ∀ {t}, ClassesKept c.module (fun _ => False) s t →
        t.classesBases.lookup (c.module, p) = s.classesBases.lookup (c.module, p) := fun h => h.bases hm p id
    cases node with
    | annAssign target annotation value =>
      rw [visit] at h
      exact kept ((visitAnnAssign_pres hR hr hU _ _ _).of_eq h)
    | assign targets value =>
      rw [visit] at h
      exact kept ((visitAssign_pres hR hr hU _ _ _).of_eq h)
    | functionDef f =>
      rw [visit] at h
      have : _ = t := congrArg Prod.snd h
      subst this
      rfl
    | import_ names =>
      rw [visit] at h
      exact kept ((visitImport_pres hR hU names).of_eq h)
    | importFrom module names level =>
      rw [visit] at h
      exact kept ((visitImportFrom_pres hR E hU module names level).of_eq h)
    | ifStmt test body orelse =>
      rw [visit] at h
      obtain ⟨b, u, h1, h2⟩ := bind_ok h
      have hb := evaluateTest_ok ho h1
      have hk := (evaluateTest_pres hR hr E c test).of_eq h1
      have hu : RefsFrom c.module A u :=
        ((evaluateTest_pres (keepsOwn_preorder c.module p A c.module)
          (fun x y z => ((parsing_own ho hsrc hty hd n).2.1 x y z).mono fun _ _ h => h.at _) E c test).of_eq h1).2.1 hrefs
      obtain ⟨k1, k2, k3⟩ := hsay rfl
      rw [starsOf, List.append_eq_nil_iff] at k2
      rw [refers] at k1
      rw [classDefs] at k3 ⊢
      rw [← kept hk]
      cases b with
      | true =>
        rw [if_pos hb.symm] at k1 k3 ⊢
        rw [if_pos rfl] at h2
        exact (many c rfl body u t (hk.onward _ hm) hu hsubs (fun _ => ⟨k1, k2.1, k3⟩) h2).2
      | false =>
        rw [if_neg (by rw [← hb]; simp)] at k1 k3 ⊢
        rw [if_neg (by simp)] at h2
        exact (many c rfl orelse u t (hk.onward _ hm) hu hsubs (fun _ => ⟨k1, k2.2, k3⟩) h2).2
    | other tag body =>
      rw [visit] at h
      obtain ⟨k1, k2, k3⟩ := hsay rfl
      rw [starsOf] at k2
      rw [refers] at k1
      rw [classDefs] at k3 ⊢
      exact (many c rfl body s t hm hrefs hsubs (fun _ => ⟨k1, k2, k3⟩) h).2
    | classDef name bases decorators body =>
      rw [visit] at h
      obtain ⟨k1, k2, k3⟩ := hsay rfl
      rw [starsOf] at k2
      rw [refers] at k1
      rw [classDefs] at k3 ⊢
      obtain ⟨_, u, h1, h2⟩ := bind_ok h
      have H := backTo_rels E c.module
      have hsu : BackTo c.module s u := by
        have h1' := h1
        rw [visitClassHead_eq] at h1'
        exact H.head c name s u ((classTail_pres (H.preW c name) ((parsing_rels H n).2.2)
          ((parsing_rels H n).2.1) (H.definition c name) name bases body (H.baseUpdates c name)).of_eq h1')
      have hou : RefsFrom c.module A u := (head_refs (fun x s => ((parsing_own ho hsrc hty hd n).2.2 x s).2.1)
        (fun x y z s => ((parsing_own ho hsrc hty hd n).2.1 x y z s).2.1) c name bases body).of_eq h1 hrefs
      obtain ⟨hsu', hbody⟩ := many { module := c.module, parent := c.parent ++ [name] } rfl body u t
        (hsu hm).1 hou hsubs (fun _ => ⟨k1, k2, fun e he => k3 e (List.mem_cons_of_mem _ he)⟩) h2
      rw [hbody, show ∀ (x : Path × List Expr) l, x :: l = [x] ++ l from fun _ _ => rfl, lastAt_append, Option.or_assoc]
      congr 1
      by_cases e : p = c.parent ++ [name]
      · subst e
        have : lastAt [(c.parent ++ [name], bases)] (c.parent ++ [name]) = some bases := by
          simp [lastAt]
        rw [this]
        exact (classHead_own hty (k3 _ List.mem_cons_self rfl) hm ⟨hrefs, (hsu hm).2.1 hsu'⟩ h1).2.2.2.2.2 rfl
      · have : lastAt [(c.parent ++ [name], bases)] p = none := by
          have : ¬ c.parent ++ [name] = p := fun h => e h.symm
          simp [lastAt, this]
        rw [this, Option.none_or]
        have H := classes_rels E
        rw [visitClassHead_eq] at h1
        exact (Pres.of_eq (classTail_pres (H.preW c name) (fun m => ((parsing_rels H n).2.2 m).mono (H.RW c name))
          (fun m q ob => ((parsing_rels H n).2.1 m q ob).mono (H.RW c name)) (H.definition c name) name
          bases body (H.baseUpdates c name)) h1).2.bases hm p e

theorem each_made (c : Place) (target : Path) {b : Path} {q : QPath} : ∀ (names : List Alias) (s t : ParseState),
    c.module ∈ s.visited →
    (b, q) ∈ (names.filter fun a => a.name != "*" && pathFromString a.name == [a.name]).map
      (fun a => ([a.asname.getD a.name], target, [a.name])) →
    P.each (fun alias : Alias =>
      if alias.name = "*" then P.update (addSubmodule c target)
      else
        P.update (addReference c
          (match alias.asname with
            | none => pathFromString alias.name
            | some asname => [asname]) (target, pathFromString alias.name))) names s = (.ok (), t) →
    referenceAt t c.module b ≠ none
  | [], _, _, _, hin, _ => by cases hin
  | a :: names, s, t, hm, hin, h => by
    obtain ⟨u, h3, h4⟩ := each_cons_ok h
    have hU := backTo_updates c.module c
    have hu : BackTo c.module s u := by
      split at h3
      · cases h3; exact hU.submodule _ _
      · cases h3; exact hU.reference _ _ _
    by_cases hrest : (b, q) ∈ (names.filter fun a => a.name != "*" && pathFromString a.name == [a.name]).map
        (fun a => ([a.asname.getD a.name], target, [a.name]))
    · exact each_made c target names u t (hu hm).1 hrest h4
    · have ha : a.name ≠ "*" ∧ pathFromString a.name = [a.name] ∧ b = [a.asname.getD a.name] := by
        obtain ⟨a', ha', e⟩ := List.mem_map.1 hin
        obtain ⟨ha1, ha2⟩ := List.mem_filter.1 ha'
        rcases List.mem_cons.1 ha1 with rfl | ha1
        · have : a'.name ≠ "*" ∧ pathFromString a'.name = [a'.name] := by simpa using ha2
          exact ⟨this.1, this.2, (congrArg Prod.fst e).symm⟩
        · exact absurd (List.mem_map.2 ⟨a', List.mem_filter.2 ⟨ha1, ha2⟩, e⟩) hrest
      obtain ⟨a1, a2, a3⟩ := ha
      rw [if_neg a1] at h3
      have hu' : referenceAt u c.module b ≠ none := by
        cases h3
        rw [a3, referenceAt_addReference]
        cases has : a.asname with
        | none => simp [a2]
        | some x => simp
      have hlast := (Pres.each (backTo_preorder c.module) names (f := fun alias : Alias =>
        if alias.name = "*" then P.update (addSubmodule c target)
        else
          P.update (addReference c
            (match alias.asname with
              | none => pathFromString alias.name
              | some asname => [asname]) (target, pathFromString alias.name))) fun a _ => by
          split
          · exact fun s => hU.submodule _ _
          · exact fun s => hU.reference _ _ _).of_eq h4 (hu hm).1
      exact fun e => hu' (hlast.2.2 _ e)

theorem bindings_made (c : Place) {b : Path} {q : QPath} : ∀ (l : List (Path × QPath)) (s t : ParseState),
    c.module ∈ s.visited → (b, q) ∈ l →
    P.each (fun b : Path × QPath => P.update (addReference c b.1 b.2)) l s = (.ok (), t) →
    referenceAt t c.module b ≠ none
  | [], _, _, _, hin, _ => by cases hin
  | x :: l, s, t, hm, hin, h => by
    obtain ⟨u, h3, h4⟩ := each_cons_ok h
    have hU := backTo_updates c.module c
    have hu : BackTo c.module s u := by
      cases h3
      exact hU.reference _ _ _
    rcases List.mem_cons.1 hin with rfl | hin
    · have hu' : referenceAt u c.module b ≠ none := by
        cases h3
        rw [referenceAt_addReference]
        simp
      have hlast := (Pres.each (backTo_preorder c.module) l
        (f := fun b : Path × QPath => P.update (addReference c b.1 b.2)) fun _ _ =>
          fun s => hU.reference _ _ _).of_eq h4 (hu hm).1
      exact fun e => hu' (hlast.2.2 _ e)
    · exact bindings_made c l u t (hu hm).1 hin h4

theorem import_made (c : Place) {b : Path} {q : QPath} : ∀ (names : List Alias) (s t : ParseState),
    c.module ∈ s.visited → (b, q) ∈ names.flatMap (fun a => (imported a).map fun x => (x.1, x.2, [])) →
    visitImport c names s = (.ok (), t) → referenceAt t c.module b ≠ none
  | [], _, _, _, hin, _ => by cases hin
  | a :: names, s, t, hm, hin, h => by
    unfold visitImport at h
    obtain ⟨u, h3, h4⟩ := each_cons_ok h
    have hU := backTo_updates c.module c
    have hb : Pres (BackTo c.module) (P.each (fun b : Path × QPath => P.update (addReference c b.1 b.2))
        (importBindings pathFromString a)) :=
      Pres.each (backTo_preorder c.module) _ fun _ _ => fun s => hU.reference _ _ _
    have hu := hb.of_eq h3
    rw [List.flatMap_cons] at hin
    rcases List.mem_append.1 hin with hin | hin
    · rw [← importBindings_imported] at hin
      have hu' := bindings_made c _ s u hm hin h3
      have hlast := (visitImport_pres (backTo_preorder c.module) hU names).of_eq h4 (hu hm).1
      exact fun e => hu' (hlast.2.2 _ e)
    · exact import_made c names u t (hu hm).1 hin h4

/-- A name that is imported is recorded. -/
theorem visit_made {E : StubFiles} {o : Expr → Bool} (ho : Decides E o) {m : Path} {b : Path} {q : QPath} :
    ∀ (n : Nat) (c : Place) (node : Stmt) (s t : ParseState), c.module = m → m ∈ s.visited →
    (b, q) ∈ imports E.isPackage o m node → visit E n c node s = (.ok (), t) → referenceAt t m b ≠ none
  | 0, c, node, s, t, _, _, _, h => by rw [visit] at h; cases congrArg Prod.fst h
  | n + 1, c, node, s, t, hc, hm, hin, h => by
    have back : ∀ (c : Place) node {s t : ParseState} {r}, visit E n c node s = (r, t) → BackTo m s t :=
      fun c node _ _ _ h => ((parsing_rels (backTo_rels E m) n).1 c node).of_eq h
    have many : ∀ (body : List Stmt) (s t : ParseState), m ∈ s.visited → (b, q) ∈ importsAll E.isPackage o m body →
        P.each (visit E n c) body s = (.ok (), t) → referenceAt t m b ≠ none := by
      intro body
      induction body with
      | nil => intro _ _ _ hin; cases hin
      | cons node body ih =>
        intro s t hm hin h
        obtain ⟨u, h1, h2⟩ := each_cons_ok h
        have hb := back c node h1 hm
        rw [importsAll] at hin
        rcases List.mem_append.1 hin with hin | hin
        · have hmade := visit_made ho n c node s u hc hm hin h1
          have hrest := (Pres.each (backTo_preorder m) body (f := visit E n c) fun child _ =>
            (parsing_rels (backTo_rels E m) n).1 c child).of_eq h2 hb.1
          exact fun e => hmade (hrest.2.2 _ e)
        · exact ih u t hb.1 hin h2
    cases node with
    | ifStmt test body orelse =>
      rw [visit] at h
      obtain ⟨b', u, h1, h2⟩ := bind_ok h
      have hb := evaluateTest_ok ho h1
      have hu : BackTo m s u := (evaluateTest_pres (backTo_preorder m)
        (fun x y z => (parsing_rels (backTo_rels E m) n).2.1 x y z) E c test).of_eq h1
      rw [imports] at hin
      cases b' with
      | true =>
        rw [if_pos hb.symm] at hin
        exact many body u t (hu hm).1 hin h2
      | false =>
        rw [if_neg (by rw [← hb]; simp)] at hin
        exact many orelse u t (hu hm).1 hin h2
    | other tag body =>
      rw [visit] at h
      rw [imports] at hin
      exact many body s t hm hin h
    | importFrom module names level =>
      rw [visit] at h
      unfold visitImportFrom at h
      obtain ⟨target, u, h1, h2⟩ := bind_ok h
      have htarget : toParentModulePath E.isPackage (module.map pathFromString) level m = .ok target := by
        rw [← hc]
        exact congrArg Prod.fst h1
      have hu : s = u := congrArg Prod.snd h1
      subst hu
      rw [imports, htarget] at hin
      dsimp only at hin
      subst hc
      exact each_made c target names s t hm hin h2
    | annAssign target annotation value => simp [imports] at hin
    | assign targets value => simp [imports] at hin
    | functionDef f => simp [imports] at hin
    | import_ names =>
      rw [visit] at h
      rw [imports] at hin
      subst hc
      exact import_made c names s t hm hin h
    | classDef name bases decorators body => simp [imports] at hin

/-- A module read to the end has the bases of the class as they are written. -/
theorem bases_written {E : StubFiles} {o : Expr → Bool} (ho : Decides E o) {m p : Path} {A : List (Path × Option QPath)}
    {source : List Stmt} (hsrc : E.source m = some source) (hty : m ≠ ["typing"])
    (hd : PlainlyDerived E.isPackage o m source p A) {n : Nat} {modules : List Path}
    (hread : ReadToEnd E (parseAll E n modules {}).2 m) {bases : List Expr}
    (hp : lastAt (classDefsAll o [] source) p = some bases) :
    (parseAll E n modules {}).2.classesBases.lookup (m, p) = some bases := by
  have hown := parseAll_own ho hsrc hty hd n modules
  obtain ⟨k, s, scope, t, hm, h, hsame⟩ := hread
  rw [hsame.classesBases]
  have hsubs : (t.submodules.lookup m).getD [] = [] := by
    rw [← hsame.submodules]
    exact hown.submodules
  cases k with
  | zero => rw [parseScope] at h; cases congrArg Prod.fst h
  | succ k =>
    rw [parse_source E k hm hsrc] at h
    obtain ⟨_, u, h1, h2⟩ := bind_ok h
    have htu := item_state ParseState.definitions m u
    rw [h2] at htu
    cases htu
    have hstart : RefsFrom m A (started m s) := by
      intro a _ q hq
      change ((((dictSet s.references m []).lookup m).getD []).lookup a.1) = some q at hq
      rw [lookup_dictSet_self] at hq
      cases hq
    have key := visit_own_bases ho hsrc hty hd (k + 1) { module := m, parent := [] } (.other "" source)
      (started m s) t rfl List.mem_cons_self hstart hsubs
      (fun _ => ⟨by rw [refers]; exact hd.own, by rw [starsOf]; exact hd.stars, by rw [classDefs]; exact hd.bases⟩)
      (by rw [visit]; exact h1)
    rw [key, classDefs, hp]
    rfl

/-- A module read to the end has the names it imports. -/
theorem imports_written {E : StubFiles} {o : Expr → Bool} (ho : Decides E o) {m : Path} {source : List Stmt}
    (hsrc : E.source m = some source) {n : Nat} {modules : List Path}
    (hread : ReadToEnd E (parseAll E n modules {}).2 m) {b : Path} {q : QPath}
    (hin : (b, q) ∈ importsAll E.isPackage o m source) :
    referenceAt (parseAll E n modules {}).2 m b ≠ none := by
  obtain ⟨k, s, scope, t, hm, h, hsame⟩ := hread
  unfold referenceAt
  rw [hsame.references]
  cases k with
  | zero => rw [parseScope] at h; cases congrArg Prod.fst h
  | succ k =>
    rw [parse_source E k hm hsrc] at h
    obtain ⟨_, u, h1, h2⟩ := bind_ok h
    have htu := item_state ParseState.definitions m u
    rw [h2] at htu
    cases htu
    exact visit_made ho (k + 1) { module := m, parent := [] } (.other "" source) (started m s) t rfl List.mem_cons_self
      (by rw [imports]; exact hin) (by rw [visit]; exact h1)

end Paradigm
