import Verif.Lemmas.Orders
import Verif.Lemmas.Imports
import Verif.Lemmas.Resolving
import Verif.Lemmas.Terminates

/-!
# Lemmas about tests and the order in which their names are visited
-/

namespace Paradigm

open Spec

/-- The computations do the same in every state with `K`, which stays; `post` holds of their results. -/
def SameRun {α : Type} (K : ParseState → Prop) (x y : P α) (post : α → Prop) : Prop :=
  ∀ s, K s → x s = y s ∧ K (x s).2 ∧ ∀ a, (x s).1 = .ok a → post a

namespace SameRun

variable {α β : Type} {K : ParseState → Prop}

theorem mono {x y : P α} {post post' : α → Prop} (h : SameRun K x y post) (hp : ∀ a, post a → post' a) :
    SameRun K x y post' := fun s hs => ⟨(h s hs).1, (h s hs).2.1, fun a ha => hp a ((h s hs).2.2 a ha)⟩

theorem bind {x y : P α} {f g : α → P β} {mid : α → Prop} {post : β → Prop} (h : SameRun K x y mid)
    (hf : ∀ a, mid a → SameRun K (f a) (g a) post) : SameRun K (x >>= f) (y >>= g) post := by
  intro s hs
  obtain ⟨h1, h2, h3⟩ := h s hs
  show P.bind x f s = P.bind y g s ∧ K (P.bind x f s).2 ∧ ∀ a, (P.bind x f s).1 = .ok a → post a
  unfold P.bind
  rw [← h1]
  cases hx : x s with
  | mk r t =>
    rw [hx] at h2 h3
    cases r with
    | error e => exact ⟨rfl, h2, fun a ha => nomatch ha⟩
    | ok a => exact hf a (h3 a rfl) t h2

protected theorem pure {post : α → Prop} {a : α} (h : post a) : SameRun K (pure a) (pure a) post :=
  fun _ hs => ⟨rfl, hs, fun b hb => by cases hb; exact h⟩

theorem fail (e : PyErr) {post : α → Prop} : SameRun K (P.fail e) (P.fail e) post :=
  fun _ hs => ⟨rfl, hs, fun _ hb => nomatch hb⟩

theorem lift (r : Except PyErr α) : SameRun K (P.lift r) (P.lift r) (fun a => r = .ok a) :=
  fun _ hs => ⟨rfl, hs, fun _ hb => hb⟩

theorem item {α β : Type} [BEq α] (d : ParseState → Dict α β) (k : α) :
    SameRun K (P.item d k) (P.item d k) (fun v => ∃ s, K s ∧ (d s).lookup k = some v) := by
  intro s hs
  unfold P.item
  cases h : (d s).lookup k with
  | none => exact ⟨rfl, hs, fun _ hb => nomatch hb⟩
  | some v => exact ⟨rfl, hs, fun a ha => ⟨s, hs, by cases ha; exact h⟩⟩

theorem update {f : ParseState → ParseState} (h : ∀ s, K s → K (f s)) :
    SameRun K (P.update f) (P.update f) (fun _ => True) := fun s hs => ⟨rfl, h s hs, fun _ _ => trivial⟩

theorem get : SameRun K P.get P.get K := fun _ hs => ⟨rfl, hs, fun _ ha => by cases ha; exact hs⟩

theorem orNotFound {x y x' y' : P α} {post : α → Prop} (h : SameRun K x y post) (h' : SameRun K x' y' post) :
    SameRun K (P.orNotFound x x') (P.orNotFound y y') post := by
  intro s hs
  obtain ⟨h1, h2, h3⟩ := h s hs
  unfold P.orNotFound
  rw [← h1]
  cases hx : x s with
  | mk r t =>
    rw [hx] at h2 h3
    cases r with
    | ok a => exact ⟨rfl, h2, h3⟩
    | error e =>
      cases e
      case objectNotFound => exact h' t h2
      all_goals exact ⟨rfl, h2, fun _ hb => nomatch hb⟩

theorem each {γ : Type} {f g : γ → P Unit} : ∀ (xs : List γ),
    (∀ x ∈ xs, SameRun K (f x) (g x) (fun _ => True)) → SameRun K (P.each f xs) (P.each g xs) (fun _ => True)
  | [], _ => SameRun.pure trivial
  | x :: xs, h => (h x List.mem_cons_self).bind fun _ _ =>
      each xs fun y hy => h y (List.mem_cons_of_mem _ hy)

theorem map {γ : Type} {f g : γ → P α} : ∀ (xs : List γ),
    (∀ x ∈ xs, SameRun K (f x) (g x) (fun _ => True)) → SameRun K (P.map f xs) (P.map g xs) (fun _ => True)
  | [], _ => SameRun.pure trivial
  | x :: xs, h => (h x List.mem_cons_self).bind fun _ _ =>
      (map xs fun y hy => h y (List.mem_cons_of_mem _ hy)).bind fun _ _ => SameRun.pure trivial

theorem filter {γ : Type} {f g : γ → P Bool} : ∀ (xs : List γ),
    (∀ x ∈ xs, SameRun K (f x) (g x) (fun _ => True)) →
      SameRun K (P.filter f xs) (P.filter g xs) (fun _ => True)
  | [], _ => SameRun.pure trivial
  | x :: xs, h => (h x List.mem_cons_self).bind fun _ _ =>
      (filter xs fun y hy => h y (List.mem_cons_of_mem _ hy)).bind fun _ _ => SameRun.pure trivial

theorem firstFound {γ : Type} {f g : γ → P α} {x y : P α} {post : α → Prop} (h : SameRun K x y post) :
    ∀ (xs : List γ), (∀ x ∈ xs, SameRun K (f x) (g x) post) →
      SameRun K (P.firstFound f x xs) (P.firstFound g y xs) post
  | [], _ => h
  | x :: xs, h' => orNotFound (h' x List.mem_cons_self)
      (firstFound h xs fun y hy => h' y (List.mem_cons_of_mem _ hy))

end SameRun

/-! ### What holds while files are read -/

/-- No table leads to a module `__specializations`, and modules recorded as star-imported are. -/
structure Plain (E : StubFiles) (V : List Path) (s : ParseState) : Prop where
  definitions : ∀ m, (s.definitions.lookup m).isSome → Elsewhere m
  submodules : ∀ m subs, s.submodules.lookup m = some subs → ∀ x ∈ subs, Elsewhere x ∧ StarImports E m x
  references : ∀ m refs, s.references.lookup m = some refs → ∀ path q, refs.lookup path = some q →
    Elsewhere q.1
  superclasses : ∀ m classes, s.superclasses.lookup m = some classes → ∀ path supers,
    classes.lookup path = some supers → ∀ q ∈ supers, Elsewhere q.1
  bases : ∀ cls, (s.classesBases.lookup cls).isSome → Elsewhere cls.1
  generics : ∀ cls, (s.generics.lookup cls).isSome → Elsewhere cls.1
  visited : ∀ m ∈ V, m ∈ s.visited

/-- A place of a module that is being read. -/
structure At (E : StubFiles) (V : List Path) (c : Place) : Prop where
  elsewhere : Elsewhere c.module
  visited : c.module ∈ V

theorem isSome_dictUpdate_inv {α β : Type} [BEq α] [LawfulBEq α] {d : Dict α β} {k x : α} {z : β} {f : β → β}
    (h : ((dictUpdate d k z f).lookup x).isSome) : x = k ∨ (d.lookup x).isSome := by
  by_cases hx : x = k
  · exact .inl hx
  · rw [lookup_dictUpdate_ne _ _ _ hx] at h; exact .inr h

theorem isSome_dictSet_inv {α β : Type} [BEq α] [LawfulBEq α] {d : Dict α β} {k x : α} {z : β}
    (h : ((dictSet d k z).lookup x).isSome) : x = k ∨ (d.lookup x).isSome := by
  by_cases hx : x = k
  · exact .inl hx
  · rw [lookup_dictSet_ne _ _ hx] at h; exact .inr h

section

variable {E : StubFiles} {V : List Path} {c : Place}

theorem plain_addNode {s : ParseState} (h : Plain E V s) (path : Path) (node : Stmt) :
    Plain E V (addNode c path node s) :=
  ⟨h.definitions, h.submodules, h.references, h.superclasses, h.bases, h.generics, h.visited⟩

theorem plain_addKind {s : ParseState} (h : Plain E V s) (path : Path) (kind : NodeKind) :
    Plain E V (addKind c path kind s) :=
  ⟨h.definitions, h.submodules, h.references, h.superclasses, h.bases, h.generics, h.visited⟩

theorem plain_addDefinition {s : ParseState} (h : Plain E V s) (hc : At E V c) (path : Path) :
    Plain E V (addDefinition c path s) := by
  refine ⟨fun m hm => ?_, h.submodules, h.references, h.superclasses, h.bases, h.generics, h.visited⟩
  simp only [addDefinition] at hm
  rcases isSome_dictUpdate_inv hm with rfl | hm
  · exact hc.elsewhere
  · exact h.definitions m hm

theorem plain_addReference {s : ParseState} (h : Plain E V s) {q : QPath} (hq : Elsewhere q.1)
    (path : Path) : Plain E V (addReference c path q s) := by
  refine ⟨h.definitions, h.submodules, fun m refs hr p r hp => ?_, h.superclasses, h.bases, h.generics,
    h.visited⟩
  simp only [addReference] at hr
  by_cases hm : m = c.module
  · subst hm
    rw [lookup_dictUpdate_self] at hr
    cases hr
    rw [lookup_dictSet] at hp
    split at hp
    · cases hp; exact hq
    · cases hl : s.references.lookup c.module with
      | none => rw [hl] at hp; cases hp
      | some refs => rw [hl] at hp; exact h.references _ _ hl p r hp
  · rw [lookup_dictUpdate_ne _ _ _ hm] at hr
    exact h.references m refs hr p r hp

theorem plain_addSubmodule {s : ParseState} (h : Plain E V s) {x : Path} (hx : Elsewhere x)
    (hi : StarImports E c.module x) : Plain E V (addSubmodule c x s) := by
  refine ⟨h.definitions, fun m subs hs y hy => ?_, h.references, h.superclasses, h.bases, h.generics,
    h.visited⟩
  simp only [addSubmodule] at hs
  by_cases hm : m = c.module
  · subst hm
    rw [lookup_dictUpdate_self] at hs
    cases hs
    rcases List.mem_append.1 hy with hy | hy
    · cases hl : s.submodules.lookup c.module with
      | none => rw [hl] at hy; cases hy
      | some subs => rw [hl] at hy; exact h.submodules _ _ hl y hy
    · rw [List.mem_singleton] at hy
      subst hy
      exact ⟨hx, hi⟩
  · rw [lookup_dictUpdate_ne _ _ _ hm] at hs
    exact h.submodules m subs hs y hy

theorem plain_addSuperclass {s : ParseState} (h : Plain E V s) {q : QPath} (hq : Elsewhere q.1)
    (m child : Path) : Plain E V (addSuperclass m child q s) := by
  refine ⟨h.definitions, h.submodules, h.references, fun m' classes hc p l hl r hr => ?_, h.bases,
    h.generics, h.visited⟩
  have hl' : (addSuperclass m child q s).tables.supers m' p = some l := by
    rw [Tables.supers]
    show List.lookup p ((List.lookup m' (addSuperclass m child q s).superclasses).getD []) = _
    rw [hc]
    exact hl
  have old : ∀ l, s.tables.supers m' p = some l → ∀ r ∈ l, Elsewhere r.1 := by
    intro l hl r hr
    rw [Tables.supers] at hl
    cases hc : s.superclasses.lookup m' with
    | none => simp [ParseState.tables, hc] at hl
    | some classes =>
      simp only [ParseState.tables, hc, Option.getD_some] at hl
      exact h.superclasses m' classes hc p l hl r hr
  rcases supersOf_addSuperclass hl' with hl' | ⟨before, hb, rfl⟩
  · exact old l hl' r hr
  · rcases List.mem_append.1 hr with hr | hr
    · rcases hb with rfl | hb
      · cases hr
      · exact old _ hb r hr
    · rw [List.mem_singleton] at hr
      subst hr
      exact hq

theorem plain_addBase {s : ParseState} (h : Plain E V s) {cls : QPath} (hq : Elsewhere cls.1)
    (base : Expr) : Plain E V (addBase cls base s) := by
  refine ⟨h.definitions, h.submodules, h.references, h.superclasses, fun d hd => ?_, h.generics, h.visited⟩
  simp only [addBase] at hd
  rcases isSome_dictUpdate_inv hd with rfl | hd
  · exact hq
  · exact h.bases d hd

theorem plain_clear {s : ParseState} (h : Plain E V s) {cls : QPath} (hq : Elsewhere cls.1) :
    Plain E V { s with classesBases := dictSet s.classesBases cls [] } := by
  refine ⟨h.definitions, h.submodules, h.references, h.superclasses, fun d hd => ?_, h.generics, h.visited⟩
  dsimp only at hd
  rcases isSome_dictSet_inv hd with rfl | hd
  · exact hq
  · exact h.bases d hd

theorem plain_generics {s : ParseState} (h : Plain E V s) {cls : QPath} (hq : Elsewhere cls.1)
    (params : List Path) : Plain E V { s with generics := dictSet s.generics cls params } := by
  refine ⟨h.definitions, h.submodules, h.references, h.superclasses, h.bases, fun d hd => ?_, h.visited⟩
  dsimp only at hd
  rcases isSome_dictSet_inv hd with rfl | hd
  · exact hq
  · exact h.generics d hd

theorem plain_asked {s : ParseState} (h : Plain E V s) (m : Path) : Plain E (m :: V) (asked m s) :=
  ⟨h.definitions, h.submodules, h.references, h.superclasses, h.bases, h.generics, fun x hx => by
    rcases List.mem_cons.1 hx with rfl | hx
    · exact List.mem_cons_self
    · exact List.mem_cons_of_mem _ (h.visited x hx)⟩

theorem plain_started {s : ParseState} (h : Plain E V s) {m : Path} (hm : Elsewhere m) :
    Plain E (m :: V) (started m s) := by
  have ha := plain_asked h m
  refine ⟨fun x hx => ?_, ha.submodules, fun x refs hr p q hp => ?_, ha.superclasses, ha.bases, ha.generics,
    ha.visited⟩
  · simp only [started] at hx
    rcases isSome_dictSet_inv hx with rfl | hx
    · exact hm
    · exact h.definitions x hx
  · simp only [started] at hr
    rw [lookup_dictSet] at hr
    split at hr
    · cases hr; cases hp
    · exact h.references x refs hr p q hp

theorem Plain.less {s : ParseState} {m : Path} (h : Plain E (m :: V) s) : Plain E V s :=
  ⟨h.definitions, h.submodules, h.references, h.superclasses, h.bases, h.generics,
    fun x hx => h.visited x (List.mem_cons_of_mem _ hx)⟩

/-! ### Reading -/

theorem addNode_runs (path : Path) (node : Stmt) :
    SameRun (Plain E V) (P.update (addNode c path node)) (P.update (addNode c path node)) fun _ => True :=
  SameRun.update fun _ hs => plain_addNode hs _ _

theorem addKind_runs (path : Path) (kind : NodeKind) :
    SameRun (Plain E V) (P.update (addKind c path kind)) (P.update (addKind c path kind)) fun _ => True :=
  SameRun.update fun _ hs => plain_addKind hs _ _

theorem addDefinition_runs (hc : At E V c) (path : Path) :
    SameRun (Plain E V) (P.update (addDefinition c path)) (P.update (addDefinition c path)) fun _ => True :=
  SameRun.update fun _ hs => plain_addDefinition hs hc _

theorem addReference_runs {q : QPath} (hq : Elsewhere q.1) (path : Path) :
    SameRun (Plain E V) (P.update (addReference c path q)) (P.update (addReference c path q)) fun _ => True :=
  SameRun.update fun _ hs => plain_addReference hs hq _

theorem addBase_runs {cls : QPath} (hq : Elsewhere cls.1) (base : Expr) :
    SameRun (Plain E V) (P.update (addBase cls base)) (P.update (addBase cls base)) fun _ => True :=
  SameRun.update fun _ hs => plain_addBase hs hq _

theorem addSuperclass_runs {q : QPath} (hq : Elsewhere q.1) (m child : Path) :
    SameRun (Plain E V) (P.update (addSuperclass m child q)) (P.update (addSuperclass m child q))
      fun _ => True :=
  SameRun.update fun _ hs => plain_addSuperclass hs hq _ _

variable {parse parse' : Path → P Scope} {resolve resolve' : Path → Path → Path → P QPath}
  (hparse : ∀ m, SameRun (Plain E V) (parse m) (parse' m) fun _ => True)
  (hresolve : ∀ m p o, SameRun (Plain E V) (resolve m p o) (resolve' m p o) fun q => Elsewhere q.1)

include hresolve in
theorem resolveIn_runs {defs : Scope} {m parent : Path} (hm : Elsewhere m) {head : String} {rest : Path} :
    SameRun (Plain E V) (resolveIn resolve defs m parent head rest)
      (resolveIn resolve' defs m parent head rest) fun q => Elsewhere q.1 := by
  unfold resolveIn
  split
  · exact SameRun.pure hm
  · split
    · exact SameRun.pure hm
    · refine SameRun.get.bind fun s hs => SameRun.firstFound ?_ _ fun sub _ => hresolve _ _ _
      refine (SameRun.item _ _).bind fun refs hr => ?_
      obtain ⟨t, ht, hrefs⟩ := hr
      cases hl : longestReference refs (head :: rest) (rest.length + 1) with
      | some kq =>
        obtain ⟨k, rm, ro⟩ := kq
        obtain ⟨-, -, hlk, -⟩ := longestReference_some hl
        exact SameRun.pure (post := fun q : QPath => Elsewhere q.1) (a := (rm, ro ++ (head :: rest).drop k))
          (ht.references m refs hrefs _ (rm, ro) hlk)
      | none =>
        refine (SameRun.item _ _).bind fun bs _ => ?_
        split
        · exact SameRun.pure (post := fun q : QPath => Elsewhere q.1)
            (show Elsewhere builtinsPath from ⟨by decide, by decide⟩)
        · exact SameRun.fail _

include hresolve in
theorem toQualified_runs (hc : At E V c) (object : Path) :
    SameRun (Plain E V) (toQualified resolve c object) (toQualified resolve' c object)
      fun q => Elsewhere q.1 :=
  SameRun.orNotFound (hresolve _ _ _)
    ((addDefinition_runs hc _).bind fun _ _ =>
      SameRun.pure (post := fun q : QPath => Elsewhere q.1) hc.elsewhere)

include hparse hresolve in
theorem isTypeVar_runs (hc : At E V c) (object : Path) :
    SameRun (Plain E V) (isTypeVar parse resolve c object) (isTypeVar parse' resolve' c object)
      fun _ => True := by
  unfold isTypeVar
  refine (toQualified_runs hresolve hc _).bind fun q _ => (hparse _).bind fun _ _ =>
    (SameRun.item _ _).bind fun nodes _ => ?_
  split
  · split
    · exact SameRun.pure trivial
    · exact (hresolve _ _ _).bind fun _ _ => SameRun.pure trivial
  · exact SameRun.pure trivial

include hparse hresolve in
theorem visitBase_runs (hc : At E V c) (name : String) (body : List Stmt) (base : Expr) :
    SameRun (Plain E V) (visitBase parse resolve c name body base)
      (visitBase parse' resolve' c name body base) fun _ => True := by
  have other : ∀ e, SameRun (Plain E V) (do
      let path ← P.lift (toPath e)
      let q ← toQualified resolve c path
      if q == namedTuplePath then
        let constructor ← P.lift (namedTupleConstructor name body)
        P.update (addNode c [name] (.functionDef constructor))
        P.update (addSuperclass c.module (c.parent ++ [name]) q)
        pure []
      else if q == protocolPath then pure []
      else if q == genericPath then P.fail .assertionError
      else
        P.update (addBase (c.module, c.parent ++ [name]) e)
        pure [] : P (List Path)) (do
      let path ← P.lift (toPath e)
      let q ← toQualified resolve' c path
      if q == namedTuplePath then
        let constructor ← P.lift (namedTupleConstructor name body)
        P.update (addNode c [name] (.functionDef constructor))
        P.update (addSuperclass c.module (c.parent ++ [name]) q)
        pure []
      else if q == protocolPath then pure []
      else if q == genericPath then P.fail .assertionError
      else
        P.update (addBase (c.module, c.parent ++ [name]) e)
        pure [] : P (List Path)) fun _ => True := by
    intro e
    refine (SameRun.lift _).bind fun path _ => (toQualified_runs hresolve hc _).bind fun q hq => ?_
    split
    · exact (SameRun.lift _).bind fun f _ => (addNode_runs _ _).bind fun _ _ =>
        (addSuperclass_runs hq _ _).bind fun _ _ => SameRun.pure trivial
    · split
      · exact SameRun.pure trivial
      · split
        · exact SameRun.fail _
        · exact (addBase_runs hc.elsewhere _).bind fun _ _ => SameRun.pure trivial
  cases base
  case subscript value slice load =>
    simp only [visitBase]
    refine (SameRun.filter _ fun x _ => isTypeVar_runs hparse hresolve hc _).bind fun tv _ => ?_
    split
    · exact (addBase_runs hc.elsewhere _).bind fun _ _ => SameRun.pure trivial
    · refine (hresolve _ _ _).bind fun q _ => ?_
      split
      · exact SameRun.pure trivial
      · exact (addBase_runs hc.elsewhere _).bind fun _ _ => SameRun.pure trivial
  all_goals exact other _

include hparse hresolve in
theorem visitClassHead_runs (hc : At E V c) (name : String) (bases : List Expr) (body : List Stmt) :
    SameRun (Plain E V) (visitClassHead parse resolve c name bases body)
      (visitClassHead parse' resolve' c name bases body) fun _ => True := by
  unfold visitClassHead
  refine (addKind_runs _ _).bind fun _ _ => ?_
  refine (addDefinition_runs hc _).bind fun _ _ => ?_
  refine (SameRun.update (K := Plain E V) fun _ hs => plain_clear hs hc.elsewhere).bind fun _ _ => ?_
  refine (SameRun.map _ fun base _ => visitBase_runs hparse hresolve hc name body base).bind fun tv _ => ?_
  show SameRun _ (if (dedup tv.flatten).isEmpty then pure () else _)
    (if (dedup tv.flatten).isEmpty then pure () else _) _
  split
  · exact SameRun.pure trivial
  · exact SameRun.update (K := Plain E V) fun _ hs => plain_generics hs hc.elsewhere _

include hresolve in
theorem visitAnnAssign_runs (hc : At E V c) (node : Stmt) (target : Expr) (value : Option Expr) :
    SameRun (Plain E V) (visitAnnAssign resolve c node target value)
      (visitAnnAssign resolve' c node target value) fun _ => True := by
  unfold visitAnnAssign
  refine (SameRun.lift _).bind fun path _ => ?_
  split
  · exact (addNode_runs _ _).bind fun _ _ =>
      (addKind_runs _ _).bind fun _ _ =>
        addDefinition_runs hc _
  · exact (toQualified_runs hresolve hc _).bind fun q hq =>
      addReference_runs hq _

include hresolve in
theorem visitAssign_runs (hc : At E V c) (node : Stmt) (targets : List Expr) (value : Expr) :
    SameRun (Plain E V) (visitAssign resolve c node targets value)
      (visitAssign resolve' c node targets value) fun _ => True := by
  unfold visitAssign
  split
  · exact SameRun.each _ fun t _ => (SameRun.lift _).bind fun path _ =>
      (addNode_runs _ _).bind fun _ _ =>
        (addKind_runs _ _).bind fun _ _ =>
          addDefinition_runs hc _
  · exact (toQualified_runs hresolve hc _).bind fun q hq => SameRun.each _ fun t _ =>
      (SameRun.lift _).bind fun path _ => addReference_runs hq _

theorem visitFunctionDef_runs (hc : At E V c) (f : FunctionDef) :
    SameRun (Plain E V) (visitFunctionDef c f) (visitFunctionDef c f) fun _ => True :=
  (addNode_runs _ _).bind fun _ _ =>
    (addKind_runs _ _).bind fun _ _ =>
      addDefinition_runs hc _

theorem pathFromString_nonempty (x : String) : pathFromString x ≠ [] := by
  unfold pathFromString
  simp [splitDots_ne_nil]

theorem visitImport_runs {names : List Alias}
    (h : ∀ x ∈ importedOf E.isPackage c.module (.import_ names), Elsewhere x) :
    SameRun (Plain E V) (visitImport c names) (visitImport c names) fun _ => True := by
  refine SameRun.each _ fun alias ha => SameRun.each _ fun b hb => addReference_runs ?_ _
  obtain ⟨h1, h2⟩ := h _ (List.mem_map.2 ⟨alias, ha, rfl⟩)
  unfold importBindings at hb
  split at hb
  · obtain ⟨i, hi, rfl⟩ := List.mem_map.1 hb
    cases hp : pathFromString alias.name with
    | nil => exact absurd hp h1
    | cons x xs =>
      rw [hp] at h2
      exact ⟨by simp, h2⟩
  · rw [List.mem_singleton] at hb
    subst hb
    exact ⟨h1, h2⟩

theorem visitImportFrom_runs {module : Option String} {names : List Alias} {level : Nat}
    (h : ∀ x ∈ importedOf E.isPackage c.module (.importFrom module names level), Elsewhere x)
    (hs : ∀ x ∈ starsOf E.isPackage c.module (.importFrom module names level), StarImports E c.module x) :
    SameRun (Plain E V) (visitImportFrom E c module names level) (visitImportFrom E c module names level)
      fun _ => True := by
  unfold visitImportFrom
  refine (SameRun.lift _).bind fun m hm => SameRun.each _ fun alias ha => ?_
  have hel : Elsewhere m := h m (by rw [importedOf, hm]; exact List.mem_singleton.2 rfl)
  split
  · rename_i hstar
    refine SameRun.update (K := Plain E V) fun s hp => plain_addSubmodule hp hel (hs m ?_)
    rw [starsOf, hm]
    have : names.any (fun alias => alias.name == "*") = true :=
      List.any_eq_true.2 ⟨alias, ha, by simp [hstar]⟩
    simp [this]
  · exact addReference_runs hel _

/-! ### Tests -/

theorem mapExcept_only {α β : Type} {g : α → Except PyErr β} {e : PyErr}
    (hg : ∀ x e', g x = .error e' → e' = e) : ∀ {l : List α} {e' : PyErr},
    mapExcept g l = .error e' → e' = e
  | [], _, h => nomatch h
  | x :: l, e', h => by
    rw [mapExcept] at h
    cases hx : g x with
    | error e'' => rw [hx] at h; cases h; exact hg x _ hx
    | ok y =>
      rw [hx] at h
      cases hl : mapExcept g l with
      | error e'' => rw [hl] at h; cases h; exact mapExcept_only hg hl
      | ok ys => rw [hl] at h; cases h

theorem mapExcept_perm {α β : Type} {g : α → Except PyErr β} {e : PyErr}
    (hg : ∀ x e', g x = .error e' → e' = e) {l l' : List α} (h : l.Perm l') :
    (mapExcept g l = .error e ∧ mapExcept g l' = .error e) ∨
      ∃ ys ys', mapExcept g l = .ok ys ∧ mapExcept g l' = .ok ys' ∧ ys.Perm ys' := by
  induction h with
  | nil => exact .inr ⟨[], [], rfl, rfl, .nil⟩
  | @cons x l l' _ ih =>
    simp only [mapExcept]
    cases hx : g x with
    | error e' => exact .inl ⟨by rw [hg x e' hx], by rw [hg x e' hx]⟩
    | ok y =>
      rcases ih with ⟨h1, h2⟩ | ⟨ys, ys', h1, h2, h3⟩
      · rw [h1, h2]; exact .inl ⟨rfl, rfl⟩
      · rw [h1, h2]; exact .inr ⟨_, _, rfl, rfl, h3.cons y⟩
  | @swap x y l =>
    simp only [mapExcept]
    cases hx : g x with
    | error e' =>
      cases hg x e' hx
      cases hy : g y with
      | error e'' => cases hg y e'' hy; exact .inl ⟨rfl, rfl⟩
      | ok b => exact .inl ⟨rfl, rfl⟩
    | ok a =>
      cases hy : g y with
      | error e'' => cases hg y e'' hy; exact .inl ⟨rfl, rfl⟩
      | ok b =>
        cases hl : mapExcept g l with
        | error e' =>
          have := mapExcept_only hg hl
          cases this
          exact .inl ⟨rfl, rfl⟩
        | ok ys => exact .inr ⟨_, _, rfl, rfl, .swap _ _ _⟩
  | trans _ _ ih1 ih2 =>
    rcases ih1 with ⟨h1, h2⟩ | ⟨ys, ys', h1, h2, h3⟩
    · rcases ih2 with ⟨h4, h5⟩ | ⟨zs, zs', h4, h5, h6⟩
      · exact .inl ⟨h1, h5⟩
      · rw [h2] at h4; cases h4
    · rcases ih2 with ⟨h4, h5⟩ | ⟨zs, zs', h4, h5, h6⟩
      · rw [h2] at h4; cases h4
      · rw [h2] at h4; cases h4; exact .inr ⟨_, _, h1, h5, h3.trans h6⟩

theorem map_still {α β : Type} {f : α → P β} {g : α → Except PyErr β} {s : ParseState}
    (h : ∀ x, f x s = (g x, s)) : ∀ l : List α, P.map f l s = (mapExcept g l, s)
  | [] => rfl
  | x :: l => by
    show P.bind (f x) _ s = _
    unfold P.bind
    rw [h x, mapExcept]
    cases g x with
    | error e => rfl
    | ok y =>
      show P.bind (P.map f l) _ s = _
      unfold P.bind
      rw [map_still h l]
      cases mapExcept g l <;> rfl

/-- In a module that is being read and has no star imports, nothing more is read to look up a name. -/
theorem resolveP_still {s : ParseState} {m : Path} (hm : m ∈ s.visited)
    (hsub : (s.submodules.lookup m).getD [] = []) (n : Nat) (parent : Path) : ∃ e, ∀ name, ∃ r,
      resolveP E n m parent [name] s = (r, s) ∧ ∀ e', r = .error e' → e' = e := by
  cases n with
  | zero => exact ⟨.recursionError, fun name => ⟨_, rfl, fun e' h => by cases h; rfl⟩⟩
  | succ n =>
    cases n with
    | zero => exact ⟨.recursionError, fun name => ⟨_, rfl, fun e' h => by cases h; rfl⟩⟩
    | succ n =>
      have hp := parse_visited E n hm
      cases hd : s.definitions.lookup m with
      | none =>
        have hi : parseScope E (n + 1) m s = (.error .keyError, s) := by
          rw [hp]; unfold P.item; rw [hd]
        refine ⟨.keyError, fun name => ⟨.error .keyError, ?_, fun e' h => by cases h; rfl⟩⟩
        rw [resolveP]
        show P.bind _ _ s = _
        unfold P.bind
        rw [hi]
      | some defs =>
        have hi : parseScope E (n + 1) m s = (.ok defs, s) := by
          rw [hp]; exact item_ok (d := ParseState.definitions) hd
        have hrun : ∀ name, resolveP E (n + 1 + 1) m parent [name] s
            = resolveIn (resolveP E (n + 1)) defs m parent name [] s := fun name => by
          rw [resolveP]
          exact bind_of_ok hi
        simp only [hrun]
        have hgo : ∀ name, resolveIn (resolveP E (n + 1)) defs m parent name [] s
            = if scopeContains defs (parent ++ [name]) then (.ok (m, parent ++ [name]), s)
              else if (defs.get? name).isSome then (.ok (m, [name]), s)
              else (do
                let refs ← P.item ParseState.references m
                match longestReference refs [name] 1 with
                | some (k, rm, ro) => pure (rm, ro ++ [name].drop k)
                | none =>
                  let builtins ← P.item ParseState.definitions builtinsPath
                  if scopeContains builtins [name] then pure (builtinsPath, [name])
                  else P.fail .objectNotFound : P QPath) s := by
          intro name
          unfold resolveIn
          split
          · rfl
          · split
            · rfl
            · show P.firstFound _ _ ((s.submodules.lookup m).getD []) s = _
              rw [hsub]
              rfl
        simp only [hgo]
        have hout : ∀ {e : PyErr} {name : String} {r : Except PyErr QPath},
            (do
              let refs ← P.item ParseState.references m
              match longestReference refs [name] 1 with
              | some (k, rm, ro) => pure (rm, ro ++ [name].drop k)
              | none =>
                let builtins ← P.item ParseState.definitions builtinsPath
                if scopeContains builtins [name] then pure (builtinsPath, [name])
                else P.fail .objectNotFound : P QPath) s = (r, s) →
            (∀ e', r = .error e' → e' = e) → ∃ r,
            (if scopeContains defs (parent ++ [name]) then (.ok (m, parent ++ [name]), s)
              else if (defs.get? name).isSome then (.ok (m, [name]), s)
              else (do
                let refs ← P.item ParseState.references m
                match longestReference refs [name] 1 with
                | some (k, rm, ro) => pure (rm, ro ++ [name].drop k)
                | none =>
                  let builtins ← P.item ParseState.definitions builtinsPath
                  if scopeContains builtins [name] then pure (builtinsPath, [name])
                  else P.fail .objectNotFound : P QPath) s) = (r, s) ∧ ∀ e', r = .error e' → e' = e := by
          intro e name r h1 h2
          split
          · exact ⟨_, rfl, fun _ h => nomatch h⟩
          · split
            · exact ⟨_, rfl, fun _ h => nomatch h⟩
            · exact ⟨r, h1, h2⟩
        cases hr : s.references.lookup m with
        | none =>
          refine ⟨.keyError, fun name => hout (r := .error .keyError) ?_ fun e' h => by cases h; rfl⟩
          show P.bind _ _ s = _
          unfold P.bind P.item
          rw [hr]
        | some refs =>
          have hitem := item_ok (d := ParseState.references) hr
          cases hb : s.definitions.lookup builtinsPath with
          | none =>
            refine ⟨.keyError, fun name => ?_⟩
            cases hl : longestReference refs [name] 1 with
            | some kq =>
              obtain ⟨k, rm, ro⟩ := kq
              refine hout (r := .ok (rm, ro ++ [name].drop k)) ?_ fun e' h => nomatch h
              rw [bind_of_ok hitem, hl]
              rfl
            | none =>
              refine hout (r := .error .keyError) ?_ fun e' h => by cases h; rfl
              rw [bind_of_ok hitem, hl]
              show P.bind _ _ s = _
              unfold P.bind P.item
              rw [hb]
          | some bs =>
            have hitemb := item_ok (d := ParseState.definitions) hb
            refine ⟨.objectNotFound, fun name => ?_⟩
            cases hl : longestReference refs [name] 1 with
            | some kq =>
              obtain ⟨k, rm, ro⟩ := kq
              refine hout (r := .ok (rm, ro ++ [name].drop k)) ?_ fun e' h => nomatch h
              rw [bind_of_ok hitem, hl]
              rfl
            | none =>
              by_cases hc : scopeContains bs [name] = true
              · refine hout (r := .ok (builtinsPath, [name])) ?_ fun e' h => nomatch h
                rw [bind_of_ok hitem, hl]
                simp only
                rw [bind_of_ok hitemb, if_pos hc]
                rfl
              · refine hout (r := .error .objectNotFound) ?_ fun e' h => by cases h; rfl
                rw [bind_of_ok hitem, hl]
                simp only
                rw [bind_of_ok hitemb, if_neg hc]
                rfl

theorem single_order {l : List String} (hl : l.Nodup) (h : ∀ x ∈ l, ∀ y ∈ l, x = y)
    {l' : List String} (hp : l'.Perm l) : l' = l := by
  match l, hl, h with
  | [], _, _ => exact List.perm_nil.1 hp
  | [x], _, _ => exact List.perm_singleton.1 hp
  | x :: y :: l, hl, h =>
    have := h x List.mem_cons_self y (List.mem_cons_of_mem _ List.mem_cons_self)
    subst this
    simp at hl

theorem dedup_nodup : ∀ l : List String, (dedup l).Nodup
  | [] => List.nodup_nil
  | x :: l => by
    rw [dedup, List.nodup_cons]
    refine ⟨fun h => ?_, (dedup_nodup l).filter _⟩
    have := (List.mem_filter.1 h).2
    simp at this

end

section

variable {E : StubFiles} {o : SetOrder} {V : List Path} {c : Place}

theorem evaluateTest_runs (hE : ByMeaning E) {n : Nat}
    (hresolve : ∀ m p o', SameRun (Plain E V) (resolveP E n m p o') (resolveP (reordered E o) n m p o')
      fun q => Elsewhere q.1) (hc : At E V c) {test : Expr} (ht : PlainTest E c.module test) :
    SameRun (Plain E V) (evaluateTest E (resolveP E n) c test)
      (evaluateTest (reordered E o) (resolveP (reordered E o) n) c test) fun _ => True := by
  unfold evaluateTest
  rcases ht with hone | hstars
  · have h1 : E.order test.dependencies = test.dependencies :=
      single_order (dedup_nodup _) (fun x hx y hy => hone x (dependencies_sound x hx) y
        (dependencies_sound y hy)) (E.order_perm _)
    have h2 : (reordered E o).order test.dependencies = test.dependencies :=
      single_order (dedup_nodup _) (fun x hx y hy => hone x (dependencies_sound x hx) y
        (dependencies_sound y hy)) (o.order_perm _)
    rw [h1, h2]
    refine (SameRun.map _ fun name _ => (hresolve _ _ _).bind fun q _ => SameRun.pure trivial).bind
      fun ns _ => (SameRun.lift _).mono fun _ _ => trivial
  · intro s hs
    have hsub : (s.submodules.lookup c.module).getD [] = [] := by
      cases hl : s.submodules.lookup c.module with
      | none => rfl
      | some subs =>
        cases subs with
        | nil => rfl
        | cons x subs => exact absurd (hs.submodules _ _ hl x List.mem_cons_self).2 (hstars x)
    obtain ⟨e, he⟩ := resolveP_still (E := E) (hs.visited _ hc.visited) hsub n c.parent
    have hg : ∃ g : String → Except PyErr QPath, ∀ name,
        resolveP E n c.module c.parent [name] s = (g name, s) ∧ ∀ e', g name = .error e' → e' = e :=
      ⟨fun name => (he name).choose, fun name => (he name).choose_spec⟩
    obtain ⟨g, hg⟩ := hg
    have hrun : ∀ name, (do
        let q ← resolveP E n c.module c.parent [name]
        pure (name, q) : P (String × QPath)) s = ((g name).map (fun q => (name, q)), s) := by
      intro name
      show P.bind _ _ s = _
      unfold P.bind
      rw [(hg name).1]
      cases g name <;> rfl
    have hrun' : ∀ name, (do
        let q ← resolveP (reordered E o) n c.module c.parent [name]
        pure (name, q) : P (String × QPath)) s = ((g name).map (fun q => (name, q)), s) := by
      intro name
      rw [← hrun name]
      show P.bind _ _ s = P.bind _ _ s
      unfold P.bind
      rw [(hresolve c.module c.parent [name] s hs).1]
    have hm := map_still hrun (E.order test.dependencies)
    have hm' := map_still hrun' ((reordered E o).order test.dependencies)
    have herr : ∀ name e', (g name).map (fun q => (name, q)) = .error e' → e' = e := by
      intro name e' h
      cases hgn : g name with
      | error e'' => rw [hgn] at h; cases h; exact (hg name).2 _ hgn
      | ok q => rw [hgn] at h; cases h
    have hperm : (E.order test.dependencies).Perm ((reordered E o).order test.dependencies) :=
      (E.order_perm _).trans (o.order_perm _).symm
    show P.bind _ _ s = P.bind _ _ s ∧ Plain E V (P.bind _ _ s).2 ∧ _
    unfold P.bind
    rw [hm, hm']
    rcases mapExcept_perm herr hperm with ⟨h1, h2⟩ | ⟨ys, ys', h1, h2, h3⟩
    · rw [h1, h2]
      exact ⟨rfl, hs, fun _ _ => trivial⟩
    · rw [h1, h2]
      refine ⟨?_, hs, fun _ _ => trivial⟩
      show (E.condition test ys, s) = (E.condition test ys', s)
      rw [hE test ys ys' h3]

theorem importedOf_sub (isPackage : Path → Bool) (m : Path) : ∀ {nodes : List Stmt} {node : Stmt},
    node ∈ nodes → ∀ x ∈ importedOf isPackage m node, x ∈ importedAll isPackage m nodes
  | _ :: nodes, node, h, x, hx => by
    rw [importedAll, List.mem_append]
    rcases List.mem_cons.1 h with rfl | h
    · exact .inl hx
    · exact .inr (importedOf_sub isPackage m h x hx)

theorem testsOf_sub : ∀ {nodes : List Stmt} {node : Stmt},
    node ∈ nodes → ∀ x ∈ testsOf node, x ∈ testsAll nodes
  | _ :: nodes, node, h, x, hx => by
    rw [testsAll, List.mem_append]
    rcases List.mem_cons.1 h with rfl | h
    · exact .inl hx
    · exact .inr (testsOf_sub h x hx)

/-- A statement of a module that is being read. -/
structure Looks (E : StubFiles) (m : Path) (node : Stmt) : Prop where
  stars : ∀ x ∈ starsOf E.isPackage m node, StarImports E m x
  imports : ∀ x ∈ importedOf E.isPackage m node, Elsewhere x
  tests : ∀ test ∈ testsOf node, PlainTest E m test

theorem reads_each {m : Path} {body : List Stmt} (h1 : ∀ x ∈ starsAll E.isPackage m body, StarImports E m x)
    (h2 : ∀ x ∈ importedAll E.isPackage m body, Elsewhere x)
    (h3 : ∀ test ∈ testsAll body, PlainTest E m test) : ∀ node ∈ body, Looks E m node :=
  fun _ hn => ⟨fun x hx => h1 x (starsOf_sub _ _ hn x hx), fun x hx => h2 x (importedOf_sub _ _ hn x hx),
    fun x hx => h3 x (testsOf_sub hn x hx)⟩

theorem reading_runs (hE : ByMeaning E) (hsrc : NeverSpecializations E)
    (htests : ∀ m body, E.source m = some body → ∀ test ∈ testsAll body, PlainTest E m test) :
    ∀ n : Nat,
      (∀ V c node, At E V c → Looks E c.module node →
        SameRun (Plain E V) (visit E n c node) (visit (reordered E o) n c node) fun _ => True) ∧
      (∀ V m p o', SameRun (Plain E V) (resolveP E n m p o') (resolveP (reordered E o) n m p o')
        fun q => Elsewhere q.1) ∧
      (∀ V m, SameRun (Plain E V) (parseScope E n m) (parseScope (reordered E o) n m) fun _ => Elsewhere m)
  | 0 => by
    refine ⟨fun V c node _ _ => ?_, fun V m p o' => ?_, fun V m => ?_⟩
    · unfold visit; exact SameRun.fail _
    · unfold resolveP; exact SameRun.fail _
    · unfold parseScope; exact SameRun.fail _
  | n + 1 => by
    obtain ⟨ihv, ihr, ihp⟩ := reading_runs hE hsrc htests n
    refine ⟨fun V c node hc hn => ?_, fun V m p o' => ?_, fun V m => ?_⟩
    · have hparse : ∀ m, SameRun (Plain E V) (parseScope E n m) (parseScope (reordered E o) n m)
          fun _ => True := fun m => (ihp V m).mono fun _ _ => trivial
      cases node with
      | annAssign target annotation value =>
        simp only [visit]
        exact visitAnnAssign_runs (ihr V) hc _ _ _
      | assign targets value =>
        simp only [visit]
        exact visitAssign_runs (ihr V) hc _ _ _
      | functionDef f =>
        simp only [visit]
        exact visitFunctionDef_runs hc f
      | classDef name bases decorators body =>
        simp only [visit]
        refine (visitClassHead_runs hparse (ihr V) hc _ _ _).bind fun _ _ => ?_
        refine SameRun.each _ fun child hchild => ihv V _ child ⟨hc.elsewhere, hc.visited⟩ ?_
        exact reads_each (fun x hx => hn.stars x (by rw [starsOf]; exact hx))
          (fun x hx => hn.imports x (by rw [importedOf]; exact hx))
          (fun x hx => hn.tests x (by rw [testsOf]; exact hx)) child hchild
      | ifStmt test body orelse =>
        simp only [visit]
        refine (evaluateTest_runs hE (ihr V) hc (hn.tests test (by rw [testsOf]; exact
          List.mem_cons_self))).bind fun b _ => ?_
        refine SameRun.each _ fun child hchild => ihv V c child hc ?_
        cases b with
        | true =>
          exact reads_each (fun x hx => hn.stars x (by rw [starsOf]; exact List.mem_append_left _ hx))
            (fun x hx => hn.imports x (by rw [importedOf]; exact List.mem_append_left _ hx))
            (fun x hx => hn.tests x (by
              rw [testsOf]; exact List.mem_cons_of_mem _ (List.mem_append_left _ hx))) child hchild
        | false =>
          exact reads_each (fun x hx => hn.stars x (by rw [starsOf]; exact List.mem_append_right _ hx))
            (fun x hx => hn.imports x (by rw [importedOf]; exact List.mem_append_right _ hx))
            (fun x hx => hn.tests x (by
              rw [testsOf]; exact List.mem_cons_of_mem _ (List.mem_append_right _ hx))) child hchild
      | import_ names =>
        simp only [visit]
        exact visitImport_runs hn.imports
      | importFrom module names level =>
        simp only [visit]
        exact visitImportFrom_runs hn.imports hn.stars
      | other tag body =>
        simp only [visit]
        refine SameRun.each _ fun child hchild => ihv V c child hc ?_
        exact reads_each (fun x hx => hn.stars x (by rw [starsOf]; exact hx))
          (fun x hx => hn.imports x (by rw [importedOf]; exact hx))
          (fun x hx => hn.tests x (by rw [testsOf]; exact hx)) child hchild
    · cases o' with
      | nil => unfold resolveP; exact SameRun.fail _
      | cons head rest =>
        unfold resolveP
        exact (ihp V m).bind fun defs hm => resolveIn_runs (ihr V) hm
    · intro s hs
      by_cases hm : m ∈ s.visited
      · rw [parse_visited E n hm, parse_visited (reordered E o) n hm]
        obtain ⟨h1, h2, h3⟩ := SameRun.item (K := Plain E V) ParseState.definitions m s hs
        refine ⟨h1, h2, fun a ha => ?_⟩
        obtain ⟨t, ht, hl⟩ := h3 a ha
        exact ht.definitions m (by rw [hl]; rfl)
      · cases hb : E.source m with
        | none =>
          rw [parse_missing E n hm hb, parse_missing (reordered E o) n hm hb]
          exact ⟨rfl, (plain_asked hs m).less, fun _ h => nomatch h⟩
        | some body =>
          rw [parse_source E n hm hb, parse_source (reordered E o) n hm hb]
          obtain ⟨hel, him⟩ := hsrc m body hb
          have hrun := (SameRun.each (K := Plain E (m :: V)) body fun node hnode =>
            ihv (m :: V) ⟨m, []⟩ node ⟨hel, List.mem_cons_self⟩
              (reads_each (fun x hx => ⟨body, hb, hx⟩) him (htests m body hb) node hnode)).bind
            (g := fun _ => P.item ParseState.definitions m) fun _ _ =>
              (SameRun.item ParseState.definitions m).mono (post' := fun _ => Elsewhere m) fun _ _ => hel
          obtain ⟨h1, h2, h3⟩ := hrun _ (plain_started hs hel)
          exact ⟨h1, h2.less, h3⟩

theorem plain_empty : Plain E [] {} := by
  refine ⟨fun m h => ?_, fun m subs h => ?_, fun m refs h => ?_, fun m cl h => ?_, fun c h => ?_,
    fun c h => ?_, fun m h => ?_⟩ <;> cases h

theorem parseAll_runs (hE : ByMeaning E) (hsrc : NeverSpecializations E)
    (htests : ∀ m body, E.source m = some body → ∀ test ∈ testsAll body, PlainTest E m test) (n : Nat)
    (modules : List Path) :
    SameRun (Plain E []) (parseAll E n modules) (parseAll (reordered E o) n modules) fun _ => True := by
  obtain ⟨-, -, hp⟩ := reading_runs (o := o) hE hsrc htests n
  unfold parseAll
  exact (hp [] builtinsPath).bind fun _ _ => SameRun.each _ fun m _ =>
    (hp [] m).bind fun _ _ => SameRun.pure trivial

theorem elsewhere_ne {m : Path} (h : Elsewhere m) : m ≠ ["__specializations"] := by
  rintro rfl
  exact h.2 rfl

theorem Plain.notImported {s : ParseState} (h : Plain E [] s) : NotImported s := by
  refine ⟨fun m subs hl hx => elsewhere_ne (h.submodules m subs hl _ hx).1 rfl,
    fun m refs hr path q hq => ?_, fun m classes hc path supers hl q hq =>
      elsewhere_ne (h.superclasses m classes hc path supers hl q hq), fun path => ?_, fun path => ?_⟩
  · have hel := h.references m refs hr path q hq
    refine ⟨elsewhere_ne hel, fun e => ?_⟩
    obtain ⟨m', p'⟩ := q
    cases m' with
    | nil => exact hel.1 rfl
    | cons x xs => exact hel.2 (by simpa using congrArg List.head? e)
  · cases hl : s.classesBases.lookup (["__specializations"], path) with
    | none => rfl
    | some l => exact absurd rfl (elsewhere_ne (h.bases _ (by rw [hl]; rfl)))
  · cases hl : s.generics.lookup (["__specializations"], path) with
    | none => rfl
    | some l => exact absurd rfl (elsewhere_ne (h.generics _ (by rw [hl]; rfl)))

end

end Paradigm
