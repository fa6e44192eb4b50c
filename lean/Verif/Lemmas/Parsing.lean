import Verif.Spec.Stubs
import Verif.Lemmas.Scoping

/-!
# Lemmas about the stub parser: what it leaves alone
-/

namespace Paradigm

open Spec

/-! ### Dictionaries -/

theorem lookup_dictSet {α β : Type} [BEq α] [LawfulBEq α] (d : Dict α β) (k : α) (v : β) (x : α) :
    (dictSet d k v).lookup x = if x == k then some v else d.lookup x := by
  induction d with
  | nil =>
    simp only [dictSet, List.lookup]
    cases x == k <;> rfl
  | cons e d ih =>
    obtain ⟨k', v'⟩ := e
    simp only [dictSet]
    by_cases hk : k' = k
    · subst hk
      simp only [beq_self_eq_true, if_true, List.lookup]
      cases hx : x == k' <;> simp
    · have : (k' == k) = false := by simpa using hk
      simp only [this, Bool.false_eq_true, if_false, List.lookup]
      cases hx : x == k' with
      | true =>
        have hx' : x = k' := eq_of_beq hx
        subst hx'
        simp [this]
      | false => simp only [ih]

theorem lookup_dictSet_self {α β : Type} [BEq α] [LawfulBEq α] (d : Dict α β) (k : α) (v : β) :
    (dictSet d k v).lookup k = some v := by
  rw [lookup_dictSet]; simp

theorem lookup_dictSet_ne {α β : Type} [BEq α] [LawfulBEq α] (d : Dict α β) {k x : α} (v : β)
    (h : x ≠ k) : (dictSet d k v).lookup x = d.lookup x := by
  rw [lookup_dictSet]; simp [h]

theorem lookup_dictUpdate_self {α β : Type} [BEq α] [LawfulBEq α] (d : Dict α β) (k : α) (z : β)
    (f : β → β) : (dictUpdate d k z f).lookup k = some (f ((d.lookup k).getD z)) :=
  lookup_dictSet_self ..

theorem lookup_dictUpdate_ne {α β : Type} [BEq α] [LawfulBEq α] (d : Dict α β) {k x : α} (z : β)
    (f : β → β) (h : x ≠ k) : (dictUpdate d k z f).lookup x = d.lookup x :=
  lookup_dictSet_ne _ _ h

/-! ### Computations -/

/-- Whatever happens, the tables before and after are related. -/
def Pres (R : ParseState → ParseState → Prop) {α : Type} (x : P α) : Prop := ∀ s, R s (x s).2

/-- A relation that can be composed. -/
structure Preorder' (R : ParseState → ParseState → Prop) : Prop where
  refl : ∀ s, R s s
  trans : ∀ {s t u}, R s t → R t u → R s u

namespace Pres

variable {R : ParseState → ParseState → Prop} {α β : Type}

theorem mono {R' : ParseState → ParseState → Prop} {x : P α} (h : Pres R x)
    (hR : ∀ s t, R s t → R' s t) : Pres R' x := fun s => hR _ _ (h s)

theorem pure' (hR : Preorder' R) (a : α) : Pres R (pure a : P α) := fun s => hR.refl s

theorem fail (hR : Preorder' R) (e : PyErr) : Pres R (P.fail e : P α) := fun s => hR.refl s

theorem lift (hR : Preorder' R) (r : Except PyErr α) : Pres R (P.lift r) := fun s => hR.refl s

theorem get (hR : Preorder' R) : Pres R P.get := fun s => hR.refl s

theorem item [BEq α] (hR : Preorder' R) (d : ParseState → Dict α β) (k : α) :
    Pres R (P.item d k) := by
  intro s
  unfold P.item
  split <;> exact hR.refl s

theorem bind (hR : Preorder' R) {x : P α} {f : α → P β} (hx : Pres R x)
    (hf : ∀ a, Pres R (f a)) : Pres R (x >>= f) := by
  intro s
  show R s (P.bind x f s).2
  have h := hx s
  unfold P.bind
  cases hxs : x s with
  | mk r s' =>
    rw [hxs] at h
    cases r with
    | error e => exact h
    | ok a => exact hR.trans h (hf a s')

theorem orNotFound (hR : Preorder' R) {x y : P α} (hx : Pres R x) (hy : Pres R y) :
    Pres R (P.orNotFound x y) := by
  intro s
  have h := hx s
  unfold P.orNotFound
  cases hxs : x s with
  | mk r s' =>
    rw [hxs] at h
    cases r with
    | ok a => exact h
    | error e =>
      cases e
      case objectNotFound => exact hR.trans h (hy s')
      all_goals exact h

theorem each (hR : Preorder' R) {f : α → P Unit} : ∀ xs : List α, (∀ x ∈ xs, Pres R (f x)) →
    Pres R (P.each f xs)
  | [], _ => fun s => hR.refl s
  | x :: xs, h =>
    bind hR (h x List.mem_cons_self) fun _ => each hR xs fun y hy => h y (List.mem_cons_of_mem _ hy)

theorem map (hR : Preorder' R) {f : α → P β} : ∀ xs : List α, (∀ x ∈ xs, Pres R (f x)) →
    Pres R (P.map f xs)
  | [], _ => fun s => hR.refl s
  | x :: xs, h =>
    bind hR (h x List.mem_cons_self) fun _ =>
      bind hR (map hR xs fun y hy => h y (List.mem_cons_of_mem _ hy)) fun _ s => hR.refl s

theorem filter (hR : Preorder' R) {f : α → P Bool} : ∀ xs : List α, (∀ x ∈ xs, Pres R (f x)) →
    Pres R (P.filter f xs)
  | [], _ => fun s => hR.refl s
  | x :: xs, h =>
    bind hR (h x List.mem_cons_self) fun _ =>
      bind hR (filter hR xs fun y hy => h y (List.mem_cons_of_mem _ hy)) fun _ s => hR.refl s

theorem firstFound (hR : Preorder' R) {f : α → P β} {y : P β} (hy : Pres R y) : ∀ xs : List α,
    (∀ x ∈ xs, Pres R (f x)) → Pres R (P.firstFound f y xs)
  | [], _ => hy
  | x :: xs, h =>
    orNotFound hR (h x List.mem_cons_self)
      (firstFound hR hy xs fun y hy => h y (List.mem_cons_of_mem _ hy))

end Pres

/-! ### Building blocks of the parser -/

section blocks

variable {R : ParseState → ParseState → Prop} (hR : Preorder' R)
  {parse : Path → P Scope} {resolve : Path → Path → Path → P QPath}
  (hp : ∀ m, Pres R (parse m)) (hr : ∀ m p o, Pres R (resolve m p o))

/-- The updates made while a statement of the place is visited. -/
structure Updates (R : ParseState → ParseState → Prop) (c : Place) : Prop where
  definition : ∀ path s, R s (addDefinition c path s)
  reference : ∀ path q s, R s (addReference c path q s)
  submodule : ∀ m s, R s (addSubmodule c m s)
  node : ∀ path node kind s,
    R s (addDefinition c path (addKind c path kind (addNode c path node s)))

/-- The updates made while the bases of a class of the place are visited. -/
structure BaseUpdates (R : ParseState → ParseState → Prop) (c : Place) (name : String) : Prop where
  base : ∀ base s, R s (addBase (c.module, c.parent ++ [name]) base s)
  tuple : ∀ f q s, R s (addSuperclass c.module (c.parent ++ [name]) q
    (addNode c [name] (.functionDef f) s))
  clear : ∀ s : ParseState, R s { s with
    classesBases := dictSet s.classesBases (c.module, c.parent ++ [name]) [] }
  generics : ∀ ps (s : ParseState), R s { s with
    generics := dictSet s.generics (c.module, c.parent ++ [name]) ps }

theorem Pres.update {f : ParseState → ParseState} (h : ∀ s, R s (f s)) : Pres R (P.update f) := h

include hR hr in
theorem resolveIn_pres (defs : Scope) (m parent : Path) (head : String) (rest : Path) :
    Pres R (resolveIn resolve defs m parent head rest) := by
  unfold resolveIn
  split
  · exact Pres.pure' hR _
  · split
    · exact Pres.pure' hR _
    · refine Pres.bind hR (Pres.get hR) fun s => Pres.firstFound hR ?_ _ fun sub _ => hr _ _ _
      refine Pres.bind hR (Pres.item hR _ _) fun refs => ?_
      split
      · exact Pres.pure' hR _
      · refine Pres.bind hR (Pres.item hR _ _) fun bs => ?_
        split
        · exact Pres.pure' hR _
        · exact Pres.fail hR _

include hR hr in
theorem toQualified_pres {c : Place} (hc : ∀ path s, R s (addDefinition c path s))
    (object : Path) : Pres R (toQualified resolve c object) :=
  Pres.orNotFound hR (hr _ _ _)
    (Pres.bind hR (Pres.update (hc _)) fun _ => Pres.pure' hR _)

include hR hr hp in
theorem isTypeVar_pres {c : Place} (hc : ∀ path s, R s (addDefinition c path s)) (object : Path) :
    Pres R (isTypeVar parse resolve c object) := by
  unfold isTypeVar
  refine Pres.bind hR (toQualified_pres hR hr hc _) fun q => Pres.bind hR (hp _) fun _ =>
    Pres.bind hR (Pres.item hR _ _) fun nodes => ?_
  split
  · split
    · exact Pres.pure' hR _
    · exact Pres.bind hR (hr _ _ _) fun _ => Pres.pure' hR _
  · exact Pres.pure' hR _

include hR hr hp in
theorem visitBase_pres {c : Place} (hc : ∀ path s, R s (addDefinition c path s)) (name : String)
    (body : List Stmt) (base : Expr) (hb : BaseUpdates R c name) :
    Pres R (visitBase parse resolve c name body base) := by
  have other : ∀ e, Pres R (do
      let path ← P.lift (toPath e)
      let q ← toQualified resolve c path
      if q == namedTuplePath then
        let constructor ← P.lift (namedTupleConstructor name body)
        P.update (addNode c [name] (.functionDef constructor))
        P.update (addSuperclass c.module (c.parent ++ [name]) q)
        pure []
      else if q == protocolPath then pure []
      else if q == genericPath then P.fail .assertionError
      else
        P.update (addBase (c.module, c.parent ++ [name]) e)
        pure [] : P (List Path)) := by
    intro e
    refine Pres.bind hR (Pres.lift hR _) fun path => Pres.bind hR (toQualified_pres hR hr hc _)
      fun q => ?_
    split
    · exact Pres.bind hR (Pres.lift hR _) fun f s => hb.tuple f q s
    · split
      · exact Pres.pure' hR _
      · split
        · exact Pres.fail hR _
        · exact Pres.bind hR (Pres.update (hb.base _)) fun _ => Pres.pure' hR _
  cases base
  case subscript value slice load =>
    simp only [visitBase]
    refine Pres.bind hR (Pres.filter hR _ fun x _ => isTypeVar_pres hR hp hr hc _) fun tv => ?_
    split
    · exact Pres.bind hR (Pres.update (hb.base _)) fun _ => Pres.pure' hR _
    · refine Pres.bind hR (hr _ _ _) fun q => ?_
      split
      · exact Pres.pure' hR _
      · exact Pres.bind hR (Pres.update (hb.base _)) fun _ => Pres.pure' hR _
  all_goals exact other _

include hR hr in
theorem visitAnnAssign_pres {c : Place} (hc : Updates R c) (node : Stmt) (target : Expr)
    (value : Option Expr) : Pres R (visitAnnAssign resolve c node target value) := by
  unfold visitAnnAssign
  refine Pres.bind hR (Pres.lift hR _) fun path => ?_
  split
  · exact fun s => hc.node _ _ _ s
  · exact Pres.bind hR (toQualified_pres hR hr hc.definition _) fun q =>
      Pres.update (hc.reference _ _)

include hR hr in
theorem visitAssign_pres {c : Place} (hc : Updates R c) (node : Stmt) (targets : List Expr)
    (value : Expr) : Pres R (visitAssign resolve c node targets value) := by
  unfold visitAssign
  split
  · exact Pres.each hR _ fun t _ => Pres.bind hR (Pres.lift hR _) fun path s => hc.node _ _ _ s
  · exact Pres.bind hR (toQualified_pres hR hr hc.definition _) fun q => Pres.each hR _ fun t _ =>
      Pres.bind hR (Pres.lift hR _) fun path => Pres.update (hc.reference _ _)

include hR hr in
theorem evaluateTest_pres (E : StubFiles) (c : Place) (test : Expr) :
    Pres R (evaluateTest E resolve c test) := by
  unfold evaluateTest
  exact Pres.bind hR (Pres.map hR _ fun n _ => Pres.bind hR (hr _ _ _) fun q => Pres.pure' hR _)
    fun ns => Pres.lift hR _

include hR in
theorem visitImport_pres {c : Place} (hc : Updates R c) (names : List Alias) :
    Pres R (visitImport c names) :=
  Pres.each hR _ fun _ _ => Pres.each hR _ fun _ _ => Pres.update (hc.reference _ _)

include hR in
theorem visitImportFrom_pres (E : StubFiles) {c : Place} (hc : Updates R c) (m : Option String)
    (names : List Alias) (level : Nat) : Pres R (visitImportFrom E c m names level) := by
  unfold visitImportFrom
  refine Pres.bind hR (Pres.lift hR _) fun m => Pres.each hR _ fun a _ => ?_
  split
  · exact Pres.update (hc.submodule _)
  · exact Pres.update (hc.reference _ _)

/-- `visitClassHead` after the class is recorded. -/
def classTail (parse : Path → P Scope) (resolve : Path → Path → Path → P QPath) (c : Place)
    (name : String) (bases : List Expr) (body : List Stmt) : P Unit := do
  P.update (fun s => { s with classesBases := dictSet s.classesBases (c.module, c.parent ++ [name]) [] })
  let typeVars ← P.map (visitBase parse resolve c name body) bases
  let parameters := dedup typeVars.flatten
  if parameters.isEmpty then pure ()
  else P.update (fun s =>
    { s with generics := dictSet s.generics (c.module, c.parent ++ [name]) parameters })

theorem visitClassHead_eq (c : Place) (name : String) (bases : List Expr) (body : List Stmt)
    (s : ParseState) : visitClassHead parse resolve c name bases body s
      = classTail parse resolve c name bases body
        (addDefinition c [name] (addKind c [name] .class_ s)) := rfl

include hR hr hp in
theorem classTail_pres {c : Place} (hc : ∀ path s, R s (addDefinition c path s)) (name : String)
    (bases : List Expr) (body : List Stmt) (hb : BaseUpdates R c name) :
    Pres R (classTail parse resolve c name bases body) := by
  refine Pres.bind hR (Pres.update hb.clear) fun _ => Pres.bind hR (Pres.map hR _ fun base _ =>
    visitBase_pres hR hp hr hc name body base hb) fun tv => ?_
  show Pres R (if (dedup tv.flatten).isEmpty then pure () else _)
  split
  · exact Pres.pure' hR _
  · exact Pres.update (hb.generics _)

end blocks

/-! ### Visited modules are left alone -/

theorem Spec.SameAt.rfl' (s : ParseState) (m : Path) : SameAt s s m :=
  ⟨rfl, rfl, rfl, rfl, rfl, rfl, fun _ => rfl, fun _ => rfl⟩

theorem Spec.SameAt.trans' {s t u : ParseState} {m : Path} (h : SameAt s t m) (h' : SameAt t u m) :
    SameAt s u m :=
  ⟨h'.1.trans h.1, h'.2.trans h.2, h'.3.trans h.3, h'.4.trans h.4, h'.5.trans h.5, h'.6.trans h.6,
   fun p => (h'.7 p).trans (h.7 p), fun p => (h'.8 p).trans (h.8 p)⟩

/-- Modules visited stay visited and, but for those of `K`, unchanged. -/
structure Ext (K : Path → Prop) (s t : ParseState) : Prop where
  visited : ∀ m ∈ s.visited, m ∈ t.visited
  same : ∀ m ∈ s.visited, ¬ K m → SameAt s t m

theorem ext_preorder (K : Path → Prop) : Preorder' (Ext K) where
  refl s := ⟨fun _ h => h, fun m _ _ => SameAt.rfl' s m⟩
  trans h h' := ⟨fun m hm => h'.visited m (h.visited m hm),
    fun m hm hk => (h.same m hm hk).trans' (h'.same m (h.visited m hm) hk)⟩

theorem Ext.mono {K K' : Path → Prop} {s t : ParseState} (h : Ext K s t) (hK : ∀ m, K m → K' m) :
    Ext K' s t := ⟨h.visited, fun m hm hk => h.same m hm (fun x => hk (hK m x))⟩

theorem pair_ne {m k : Path} (h : m ≠ k) (p q : Path) : ((m, p) : QPath) ≠ (k, q) :=
  fun e => h (congrArg Prod.fst e)

theorem same_of {s t : ParseState} {m : Path}
    (h1 : t.nodes.lookup m = s.nodes.lookup m) (h2 : t.kinds.lookup m = s.kinds.lookup m)
    (h3 : t.definitions.lookup m = s.definitions.lookup m)
    (h4 : t.references.lookup m = s.references.lookup m)
    (h5 : t.submodules.lookup m = s.submodules.lookup m)
    (h6 : t.superclasses.lookup m = s.superclasses.lookup m)
    (h7 : ∀ p, t.classesBases.lookup (m, p) = s.classesBases.lookup (m, p))
    (h8 : ∀ p, t.generics.lookup (m, p) = s.generics.lookup (m, p)) : SameAt s t m :=
  ⟨h1, h2, h3, h4, h5, h6, h7, h8⟩

/-- Proves that an update of one module leaves the others alone. -/
macro "same_elsewhere" : tactic => `(tactic| (
  refine ⟨fun _ h => h, fun m _ hk => same_of ?_ ?_ ?_ ?_ ?_ ?_ (fun p => ?_) (fun p => ?_)⟩
  all_goals simp only [addDefinition, addKind, addNode, addReference, addSubmodule, addSuperclass,
    addBase, dictUpdate]
  all_goals first
    | exact lookup_dictSet_ne _ _ hk
    | exact lookup_dictSet_ne _ _ (pair_ne hk _ _)))

theorem ext_updates (c : Place) : Updates (Ext (· = c.module)) c where
  definition path s := by same_elsewhere
  reference path q s := by same_elsewhere
  submodule x s := by same_elsewhere
  node path node kind s := by same_elsewhere

theorem ext_baseUpdates (c : Place) (name : String) :
    BaseUpdates (Ext (· = c.module)) c name where
  base b s := by same_elsewhere
  tuple f q s := by same_elsewhere
  clear s := by same_elsewhere
  generics ps s := by same_elsewhere

theorem ext_classHead (c : Place) (name : String) (s : ParseState) :
    Ext (· = c.module) s (addDefinition c [name] (addKind c [name] .class_ s)) := by
  same_elsewhere

/-! ### Cases of `parseScope` -/

/-- The tables when the source of a module is asked for. -/
def asked (m : Path) (s : ParseState) : ParseState :=
  { s with visited := m :: s.visited, reads := m :: s.reads }

/-- The tables when the first statement of a module is visited. -/
def started (m : Path) (s : ParseState) : ParseState :=
  { asked m s with
      definitions := dictSet s.definitions m (.mk [])
      kinds := dictSet s.kinds m []
      nodes := dictSet s.nodes m []
      references := dictSet s.references m [] }

theorem parse_visited (E : StubFiles) (n : Nat) {m : Path} {s : ParseState} (h : m ∈ s.visited) :
    parseScope E (n + 1) m s = P.item ParseState.definitions m s := by
  have h' : s.visited.contains m = true := by simpa using h
  rw [parseScope]
  show (if s.visited.contains m = true then _ else _ : P Scope) s = _
  rw [if_pos h']

theorem parse_missing (E : StubFiles) (n : Nat) {m : Path} {s : ParseState} (h : m ∉ s.visited)
    (hs : E.source m = none) :
    parseScope E (n + 1) m s = (.error .sourceNotFound, asked m s) := by
  have h' : ¬ s.visited.contains m = true := by simpa using h
  rw [parseScope]
  show (if s.visited.contains m = true then _ else _ : P Scope) s = _
  rw [if_neg h', hs]
  rfl

theorem parse_source (E : StubFiles) (n : Nat) {m : Path} {s : ParseState} (h : m ∉ s.visited)
    {body : List Stmt} (hs : E.source m = some body) :
    parseScope E (n + 1) m s = (P.each (visit E n { module := m, parent := [] }) body >>= fun _ =>
      P.item ParseState.definitions m) (started m s) := by
  have h' : ¬ s.visited.contains m = true := by simpa using h
  rw [parseScope]
  show (if s.visited.contains m = true then _ else _ : P Scope) s = _
  rw [if_neg h', hs]
  rfl

/-- A relation between the tables before and after, for the three functions. -/
theorem parse_pres {R : ParseState → ParseState → Prop} (E : StubFiles) (n : Nat) (m : Path)
    (hrefl : ∀ s, R s s) (hasked : ∀ s, m ∉ s.visited → E.source m = none → R s (asked m s))
    (hbody : ∀ s body, m ∉ s.visited → E.source m = some body →
      R s ((P.each (visit E n { module := m, parent := [] }) body) (started m s)).2) :
    Pres R (parseScope E (n + 1) m) := by
  intro s
  by_cases hm : m ∈ s.visited
  · rw [parse_visited E n hm]
    unfold P.item
    split <;> exact hrefl s
  · cases hs : E.source m with
    | none => rw [parse_missing E n hm hs]; exact hasked s hm hs
    | some body =>
      rw [parse_source E n hm hs]
      have h := hbody s body hm hs
      show R s ((P.bind _ _) _).2
      unfold P.bind
      cases hx : (P.each (visit E n { module := m, parent := [] }) body) (started m s) with
      | mk r t =>
        rw [hx] at h
        cases r with
        | error e => exact h
        | ok a =>
          simp only
          unfold P.item
          split <;> exact h

/-- Relations between the tables before and after: `V` for visits of statements, `W` for visits of
the bases of a class, `R` for everything else. -/
structure Rels (E : StubFiles) (V : Place → ParseState → ParseState → Prop)
    (W : Place → String → ParseState → ParseState → Prop) (R : ParseState → ParseState → Prop) :
    Prop where
  preV : ∀ c, Preorder' (V c)
  preW : ∀ c name, Preorder' (W c name)
  preR : Preorder' R
  RV : ∀ c s t, R s t → V c s t
  RW : ∀ c name s t, R s t → W c name s t
  updates : ∀ c, Updates (V c) c
  definition : ∀ c name path s, W c name s (addDefinition c path s)
  baseUpdates : ∀ c name, BaseUpdates (W c name) c name
  head : ∀ c name s t, W c name (addDefinition c [name] (addKind c [name] .class_ s)) t → V c s t
  child : ∀ c name s t, V { module := c.module, parent := c.parent ++ [name] } s t → V c s t
  asked : ∀ m s, m ∉ s.visited → E.source m = none → R s (asked m s)
  started : ∀ m s t, m ∉ s.visited → (∃ n body r, E.source m = some body ∧
    P.each (visit E n { module := m, parent := [] }) body (started m s) = (r, t)) →
    V { module := m, parent := [] } (started m s) t → R s t

theorem parsing_rels {E : StubFiles} {V : Place → ParseState → ParseState → Prop}
    {W : Place → String → ParseState → ParseState → Prop} {R : ParseState → ParseState → Prop}
    (H : Rels E V W R) : ∀ n,
    (∀ c node, Pres (V c) (visit E n c node)) ∧
    (∀ m p o, Pres R (resolveP E n m p o)) ∧
    (∀ m, Pres R (parseScope E n m))
  | 0 => by
    refine ⟨fun c node => ?_, fun m p o => ?_, fun m => ?_⟩
    · simp only [visit]; exact Pres.fail (H.preV _) _
    · simp only [resolveP]; exact Pres.fail H.preR _
    · simp only [parseScope]; exact Pres.fail H.preR _
  | n + 1 => by
    obtain ⟨hv, hr, hp⟩ := parsing_rels H n
    refine ⟨fun c node => ?_, fun m p o => ?_, fun m => ?_⟩
    · have hR := H.preV c
      have hr' : ∀ m p o, Pres (V c) (resolveP E n m p o) := fun m p o => (hr m p o).mono (H.RV c)
      have hc := H.updates c
      cases node <;> simp only [visit]
      case annAssign => exact visitAnnAssign_pres hR hr' hc _ _ _
      case assign => exact visitAssign_pres hR hr' hc _ _ _
      case functionDef f => exact fun s => hc.node _ _ _ s
      case classDef name bases decorators body =>
        refine Pres.bind hR (fun s => ?_) fun _ => Pres.each hR _ fun child _ =>
          (hv { module := c.module, parent := c.parent ++ [name] } child).mono (H.child c name)
        rw [visitClassHead_eq]
        exact H.head c name _ _ (classTail_pres (H.preW c name)
          (fun m => (hp m).mono (H.RW c name)) (fun m p o => (hr m p o).mono (H.RW c name))
          (H.definition c name) name bases body (H.baseUpdates c name) _)
      case ifStmt test body orelse =>
        exact Pres.bind hR (evaluateTest_pres hR hr' E c test) fun b =>
          Pres.each hR _ fun child _ => hv c child
      case import_ => exact visitImport_pres hR hc _
      case importFrom => exact visitImportFrom_pres hR E hc _ _ _
      case other => exact Pres.each hR _ fun child _ => hv c child
    · cases o <;> simp only [resolveP]
      · exact Pres.fail H.preR _
      · exact Pres.bind H.preR (hp _) fun defs => resolveIn_pres H.preR hr _ _ _ _ _
    · exact parse_pres E n m H.preR.refl (H.asked m) fun s body hm hs => H.started m s _ hm
        ⟨n, body, _, hs, rfl⟩
        (Pres.each (H.preV _) body (fun child _ => hv { module := m, parent := [] } child) _)

theorem ext_rels (E : StubFiles) : Rels E (fun c => Ext (· = c.module))
    (fun c _ => Ext (· = c.module)) (Ext (fun _ => False)) where
  preV _ := ext_preorder _
  preW _ _ := ext_preorder _
  preR := ext_preorder _
  RV _ _ _ h := h.mono fun _ => False.elim
  RW _ _ _ _ h := h.mono fun _ => False.elim
  updates := ext_updates
  definition c _ := (ext_updates c).definition
  baseUpdates := ext_baseUpdates
  head c name s _ h := (ext_preorder _).trans (ext_classHead c name s) h
  child _ _ _ _ h := h
  asked m s _ _ := ⟨fun _ hx => List.mem_cons_of_mem _ hx,
    fun _ _ _ => ⟨rfl, rfl, rfl, rfl, rfl, rfl, fun _ => rfl, fun _ => rfl⟩⟩
  started m s t hm _ h := by
    refine ⟨fun x hx => h.visited x (List.mem_cons_of_mem _ hx), fun x hx _ => ?_⟩
    have hk : x ≠ m := fun e => hm (e ▸ hx)
    refine SameAt.trans' ?_ (h.same x (List.mem_cons_of_mem _ hx) hk)
    exact ⟨lookup_dictSet_ne _ _ hk, lookup_dictSet_ne _ _ hk, lookup_dictSet_ne _ _ hk,
      lookup_dictSet_ne _ _ hk, rfl, rfl, fun _ => rfl, fun _ => rfl⟩

theorem parsing_ext (E : StubFiles) (n : Nat) :
    (∀ c node, Pres (Ext (· = c.module)) (visit E n c node)) ∧
    (∀ m p o, Pres (Ext (fun _ => False)) (resolveP E n m p o)) ∧
    (∀ m, Pres (Ext (fun _ => False)) (parseScope E n m)) :=
  parsing_rels (ext_rels E) n

/-! ### No source is read twice -/

/-- Only visited modules were read, and none twice. -/
def ReadOnce (s : ParseState) : Prop := (∀ m ∈ s.reads, m ∈ s.visited) ∧ s.reads.Nodup

/-- Kept. -/
def KeepsReadOnce (s t : ParseState) : Prop := ReadOnce s → ReadOnce t

theorem readOnce_preorder : Preorder' KeepsReadOnce :=
  ⟨fun _ h => h, fun h h' x => h' (h x)⟩

theorem readOnce_asked (m : Path) (s : ParseState) (hm : m ∉ s.visited) :
    KeepsReadOnce s (asked m s) := by
  intro h
  refine ⟨fun x hx => ?_, ?_⟩
  · rcases List.mem_cons.1 hx with rfl | hx
    · exact List.mem_cons_self
    · exact List.mem_cons_of_mem _ (h.1 x hx)
  · exact List.nodup_cons.2 ⟨fun hx => hm (h.1 m hx), h.2⟩

theorem readOnce_rels (E : StubFiles) : Rels E (fun _ => KeepsReadOnce) (fun _ _ => KeepsReadOnce)
    KeepsReadOnce where
  preV _ := readOnce_preorder
  preW _ _ := readOnce_preorder
  preR := readOnce_preorder
  RV _ _ _ h := h
  RW _ _ _ _ h := h
  updates _ := ⟨fun _ _ h => h, fun _ _ _ h => h, fun _ _ h => h, fun _ _ _ _ h => h⟩
  definition _ _ _ _ h := h
  baseUpdates _ _ := ⟨fun _ _ h => h, fun _ _ _ h => h, fun _ h => h, fun _ _ h => h⟩
  head _ _ _ _ h := h
  child _ _ _ _ h := h
  asked m s hm _ := readOnce_asked m s hm
  started m s _ hm _ h h' := h (readOnce_asked m s hm h')

theorem parseAll_pres {R : ParseState → ParseState → Prop} (hR : Preorder' R) {E : StubFiles}
    {n : Nat} (hp : ∀ m, Pres R (parseScope E n m)) (modules : List Path) :
    Pres R (parseAll E n modules) :=
  Pres.bind hR (hp _) fun _ => Pres.each hR _ fun m _ =>
    Pres.bind hR (hp m) fun _ => Pres.pure' hR _

/-! ### Everything recorded is defined -/

theorem defines_nil (path : Path) : Defines (.mk []) path ↔ path = [] := by
  cases path <;> simp [Defines, Scope.entries]

theorem defines_add_self : ∀ (path : Path) (scope : Scope), Defines (scope.add path) path
  | [], _ => trivial
  | _ :: path, _ => ⟨_, lookup_dictSet_self _ _ _, defines_add_self path _⟩

theorem defines_add_mono : ∀ (path : Path) (scope : Scope) (q : Path), Defines scope q →
    Defines (scope.add path) q
  | [], _, _, h => h
  | _ :: _, _, [], _ => trivial
  | part :: path, scope, name :: q, h => by
    obtain ⟨inner, hl, hd⟩ := h
    by_cases e : name = part
    · subst e
      refine ⟨_, lookup_dictSet_self _ _ _, defines_add_mono path _ q ?_⟩
      rw [Scope.get?, hl]
      exact hd
    · refine ⟨inner, ?_, hd⟩
      exact (lookup_dictSet_ne _ _ e).trans hl

/-- Everything recorded is defined, in visited modules. -/
structure Consistent (s : ParseState) : Prop where
  defined : ∀ m path, Recorded s m path → DefinedAt s m path
  visited : ∀ m path, DefinedAt s m path → m ∈ s.visited

/-- Nothing is forgotten. -/
structure Grows (s t : ParseState) : Prop where
  visited : ∀ m ∈ s.visited, m ∈ t.visited
  defined : ∀ m path, DefinedAt s m path → DefinedAt t m path

theorem Grows.trans' {s t u : ParseState} (h : Grows s t) (h' : Grows t u) : Grows s u :=
  ⟨fun m hm => h'.1 m (h.1 m hm), fun m p hp => h'.2 m p (h.2 m p hp)⟩

/-- Kept when the precondition, which is never lost, holds. -/
def KeepsIf (A : ParseState → Prop) (s t : ParseState) : Prop :=
  A s → Consistent s → Consistent t ∧ Grows s t

theorem keepsIf_preorder {A : ParseState → Prop} (hA : ∀ s t, Grows s t → A s → A t) :
    Preorder' (KeepsIf A) where
  refl s _ h := ⟨h, fun _ h => h, fun _ _ h => h⟩
  trans {s t u} h h' a cs := by
    obtain ⟨ct, g⟩ := h a cs
    obtain ⟨cu, g'⟩ := h' (hA s t g a) ct
    exact ⟨cu, g.trans' g'⟩

theorem definedAt_addDefinition (c : Place) (path : Path) (s : ParseState) (m q : Path) :
    DefinedAt (addDefinition c path s) m q ↔
      if m = c.module then
        Defines (((s.definitions.lookup c.module).getD (.mk [])).add (c.parent ++ path)) q
      else DefinedAt s m q := by
  unfold DefinedAt
  by_cases e : m = c.module
  · subst e
    rw [if_pos rfl]
    simp only [addDefinition, lookup_dictUpdate_self, Option.some.injEq, exists_eq_left']
  · rw [if_neg e]
    simp only [addDefinition, lookup_dictUpdate_ne _ _ _ e]

theorem grows_addDefinition (c : Place) (path : Path) (s : ParseState) :
    Grows s (addDefinition c path s) := by
  refine ⟨fun _ h => h, fun m q h => ?_⟩
  rw [definedAt_addDefinition]
  by_cases e : m = c.module
  · subst e
    rw [if_pos rfl]
    obtain ⟨scope, hs, hd⟩ := h
    rw [hs]
    exact defines_add_mono _ _ _ hd
  · rw [if_neg e]; exact h

theorem definedAt_added (c : Place) (path : Path) (s : ParseState) :
    DefinedAt (addDefinition c path s) c.module (c.parent ++ path) := by
  rw [definedAt_addDefinition, if_pos rfl]
  exact defines_add_self _ _

theorem recorded_addNode {c : Place} {path : Path} {node : Stmt} {s : ParseState} {m q : Path}
    (h : Recorded (addNode c path node s) m q) :
    Recorded s m q ∨ (m = c.module ∧ q = c.parent ++ path) := by
  rcases h with ⟨d, nodes, hd, hq⟩ | h
  · by_cases e : m = c.module
    · subst e
      simp only [addNode, lookup_dictUpdate_self, Option.some.injEq] at hd
      subst hd
      by_cases e' : q = c.parent ++ path
      · exact .inr ⟨rfl, e'⟩
      · rw [lookup_dictUpdate_ne _ _ _ e'] at hq
        cases hn : s.nodes.lookup c.module with
        | none => rw [hn] at hq; simp at hq
        | some d => rw [hn] at hq; exact .inl (.inl ⟨d, nodes, hn, hq⟩)
    · simp only [addNode, lookup_dictUpdate_ne _ _ _ e] at hd
      exact .inl (.inl ⟨d, nodes, hd, hq⟩)
  · exact .inl (.inr h)

theorem recorded_addKind {c : Place} {path : Path} {kind : NodeKind} {s : ParseState} {m q : Path}
    (h : Recorded (addKind c path kind s) m q) :
    Recorded s m q ∨ (m = c.module ∧ q = c.parent ++ path) := by
  rcases h with h | ⟨d, nodes, hd, hq⟩
  · exact .inl (.inl h)
  · by_cases e : m = c.module
    · subst e
      simp only [addKind, lookup_dictUpdate_self, Option.some.injEq] at hd
      subst hd
      by_cases e' : q = c.parent ++ path
      · exact .inr ⟨rfl, e'⟩
      · rw [lookup_dictSet_ne _ _ e'] at hq
        cases hn : s.kinds.lookup c.module with
        | none => rw [hn] at hq; simp at hq
        | some d => rw [hn] at hq; exact .inl (.inr ⟨d, nodes, hn, hq⟩)
    · simp only [addKind, lookup_dictUpdate_ne _ _ _ e] at hd
      exact .inl (.inr ⟨d, nodes, hd, hq⟩)

/-- The tables after a definition, with more recorded at its path. -/
theorem consistent_define {c : Place} {path : Path} {s t : ParseState}
    (hv : c.module ∈ s.visited) (hs : Consistent s)
    (hd : t.definitions = s.definitions) (hvis : t.visited = s.visited)
    (hrec : ∀ m q, Recorded t m q → Recorded s m q ∨ (m = c.module ∧ q = c.parent ++ path)) :
    Consistent (addDefinition c path t) ∧ Grows s (addDefinition c path t) := by
  have same : ∀ m q, DefinedAt t m q ↔ DefinedAt s m q := by
    intro m q; unfold DefinedAt; rw [hd]
  have g : Grows s (addDefinition c path t) := by
    refine Grows.trans' ⟨fun m hm => hvis ▸ hm, fun m q h => (same m q).2 h⟩
      (grows_addDefinition c path t)
  refine ⟨⟨fun m q h => ?_, fun m q h => ?_⟩, g⟩
  · rcases hrec m q h with h | ⟨rfl, rfl⟩
    · exact g.defined m q (hs.defined m q h)
    · exact definedAt_added c path t
  · rw [definedAt_addDefinition] at h
    show m ∈ t.visited
    rw [hvis]
    by_cases e : m = c.module
    · exact e ▸ hv
    · rw [if_neg e] at h
      exact hs.visited m q ((same m q).1 h)

theorem consistent_rest {s t : ParseState} (hs : Consistent s)
    (hd : t.definitions = s.definitions) (hvis : t.visited = s.visited)
    (hrec : ∀ m q, Recorded t m q → Recorded s m q ∨ DefinedAt s m q) :
    Consistent t ∧ Grows s t := by
  have same : ∀ m q, DefinedAt t m q ↔ DefinedAt s m q := by
    intro m q; unfold DefinedAt; rw [hd]
  refine ⟨⟨fun m q h => (same m q).2 ?_, fun m q h => hvis ▸ hs.visited m q ((same m q).1 h)⟩,
    fun m hm => hvis ▸ hm, fun m q h => (same m q).2 h⟩
  rcases hrec m q h with h | h
  · exact hs.defined m q h
  · exact h

theorem consistent_rels (E : StubFiles) : Rels E
    (fun c => KeepsIf (fun s => c.module ∈ s.visited))
    (fun c name => KeepsIf (fun s => c.module ∈ s.visited ∧
      DefinedAt s c.module (c.parent ++ [name])))
    (KeepsIf (fun _ => True)) where
  preV c := keepsIf_preorder fun _ _ g h => g.visited _ h
  preW c name := keepsIf_preorder fun _ _ g h => ⟨g.visited _ h.1, g.defined _ _ h.2⟩
  preR := keepsIf_preorder fun _ _ _ h => h
  RV _ _ _ h _ := h trivial
  RW _ _ _ _ h _ := h trivial
  updates c := {
    definition := fun path s hv hs => consistent_define hv hs rfl rfl fun _ _ h => .inl h
    reference := fun path q s _ hs => consistent_rest hs rfl rfl fun _ _ h => .inl h
    submodule := fun m s _ hs => consistent_rest hs rfl rfl fun _ _ h => .inl h
    node := fun path node kind s hv hs => consistent_define hv hs rfl rfl fun m q h =>
      (recorded_addKind h).elim recorded_addNode .inr }
  definition c name path s hv hs := consistent_define hv.1 hs rfl rfl fun _ _ h => .inl h
  baseUpdates c name := {
    base := fun b s _ hs => consistent_rest hs rfl rfl fun _ _ h => .inl h
    tuple := fun f q s hv hs => consistent_rest hs rfl rfl fun m p h => by
      rcases recorded_addNode (s := s) (c := c) (path := [name]) (node := .functionDef f) h with
        h | ⟨rfl, rfl⟩
      · exact .inl h
      · exact .inr hv.2
    clear := fun s _ hs => consistent_rest hs rfl rfl fun _ _ h => .inl h
    generics := fun ps s _ hs => consistent_rest hs rfl rfl fun _ _ h => .inl h }
  head c name s t h hv hs := by
    obtain ⟨hc, g⟩ := consistent_define (path := [name])
      (t := addKind c [name] .class_ s) hv hs rfl rfl fun m q h => recorded_addKind h
    obtain ⟨hc', g'⟩ := h ⟨g.visited _ hv, definedAt_added c [name] _⟩ hc
    exact ⟨hc', g.trans' g'⟩
  child _ _ _ _ h := h
  asked m s hm _ _ hs := by
    refine ⟨⟨hs.defined, fun x q h => List.mem_cons_of_mem _ (hs.visited x q h)⟩,
      fun x hx => List.mem_cons_of_mem _ hx, fun _ _ h => h⟩
  started m s t hm _ h _ hs := by
    have def_ne : ∀ x q, x ≠ m → (DefinedAt (started m s) x q ↔ DefinedAt s x q) := by
      intro x q hx
      unfold DefinedAt
      rw [show (started m s).definitions.lookup x = s.definitions.lookup x from
        lookup_dictSet_ne _ _ hx]
    have g : Grows s (started m s) := by
      refine ⟨fun x hx => List.mem_cons_of_mem _ hx, fun x q hq => ?_⟩
      have hx : x ≠ m := fun e => hm (e ▸ hs.visited x q hq)
      exact (def_ne x q hx).2 hq
    have hc : Consistent (started m s) := by
      refine ⟨fun x q hq => ?_, fun x q hq => ?_⟩
      · by_cases hx : x = m
        · subst hx
          rcases hq with ⟨d, ns, hd, hl⟩ | ⟨d, ns, hd, hl⟩
          · rw [show (started x s).nodes.lookup x = some [] from lookup_dictSet_self _ _ _] at hd
            cases hd; cases hl
          · rw [show (started x s).kinds.lookup x = some [] from lookup_dictSet_self _ _ _] at hd
            cases hd; cases hl
        · refine (def_ne x q hx).2 (hs.defined x q ?_)
          rcases hq with ⟨d, ns, hd, hl⟩ | ⟨d, ns, hd, hl⟩
          · exact .inl ⟨d, ns, (lookup_dictSet_ne _ _ hx).symm.trans hd, hl⟩
          · exact .inr ⟨d, ns, (lookup_dictSet_ne _ _ hx).symm.trans hd, hl⟩
      · by_cases hx : x = m
        · exact hx ▸ List.mem_cons_self
        · exact List.mem_cons_of_mem _ (hs.visited x q ((def_ne x q hx).1 hq))
    obtain ⟨hc', g'⟩ := h List.mem_cons_self hc
    exact ⟨hc', g.trans' g'⟩

end Paradigm
