import Verif.Lemmas.Superclasses

/-!
# Processing bases that can be processed
-/

namespace Paradigm

open Spec

variable {o : SetOrder}

theorem each_total {α : Type} {I : ParseState → Prop} {f : α → P Unit} : ∀ {xs : List α} {s : ParseState},
    (∀ x ∈ xs, ∀ s, I s → ∃ t, f x s = (.ok (), t) ∧ I t) → I s →
    ∃ t, P.each f xs s = (.ok (), t) ∧ I t
  | [], s, _, hI => ⟨s, rfl, hI⟩
  | x :: xs, s, h, hI => by
    obtain ⟨t, h1, h2⟩ := h x List.mem_cons_self s hI
    obtain ⟨u, h3, h4⟩ := each_total (fun y hy => h y (List.mem_cons_of_mem _ hy)) h2
    refine ⟨u, ?_, h4⟩
    show (f x >>= fun _ => P.each f xs) s = _
    rw [bind_of_ok h1]
    exact h3

theorem lift_of_ok {α : Type} {r : Except PyErr α} {a : α} (h : r = .ok a) (s : ParseState) :
    P.lift r s = (.ok a, s) := by
  rw [h]; rfl

theorem itemOf_of_lookup {α β : Type} [BEq α] {d : Dict α β} {k : α} {v : β} (h : d.lookup k = some v) :
    itemOf d k = .ok v := by
  unfold itemOf
  rw [h]

theorem getPath_of_defines : ∀ {p : Path} {defs : Scope}, Defines defs p → ∃ scope, defs.getPath p = some scope
  | [], defs, _ => ⟨defs, rfl⟩
  | x :: p, defs, ⟨inner, h1, h2⟩ => by
    obtain ⟨scope, h3⟩ := getPath_of_defines h2
    refine ⟨scope, ?_⟩
    rw [Scope.getPath]
    have : defs.get? x = some inner := h1
    rw [this]
    exact h3

theorem defines_of_getPath {x : String} : ∀ {p : Path} {defs scope : Scope}, defs.getPath p = some scope →
    x ∈ scope.entries.map Prod.fst → Defines defs (p ++ [x])
  | [], defs, scope, h, hx => by
    cases h
    obtain ⟨inner, hi⟩ := Option.isSome_iff_exists.1 (isSome_of_key hx)
    exact ⟨inner, hi, trivial⟩
  | y :: p, defs, scope, h, hx => by
    rw [Scope.getPath] at h
    cases hy : defs.get? y with
    | none => rw [hy] at h; cases h
    | some inner =>
      rw [hy] at h
      exact ⟨inner, hy, defines_of_getPath h hx⟩

/-- The names of an assignment's targets. -/
theorem targetNames_total (σ : Path → Option Expr) {targets : List Expr}
    (h : ∀ target ∈ targets, ∃ x, target = .name x false) : ∃ names,
    mapExcept targetNames (targets.map (subst σ)) = .ok names ∧
      ∀ d, .name d false ∈ targets → d ∈ names.flatten := by
  induction targets with
  | nil => exact ⟨[], rfl, by simp⟩
  | cons target targets ih =>
    obtain ⟨x, rfl⟩ := h _ List.mem_cons_self
    obtain ⟨names, h1, h2⟩ := ih fun t ht => h t (List.mem_cons_of_mem _ ht)
    refine ⟨[x] :: names, ?_, fun d hd => ?_⟩
    · rw [List.map_cons, mapExcept, h1]
      rfl
    · rcases List.mem_cons.1 hd with hd | hd
      · cases hd; simp
      · rw [List.flatten_cons]; exact List.mem_append_right _ (h2 d hd)

theorem toNames_total (σ : Path → Option Expr) {node : Stmt} (h : IsMember node) :
    ∃ names, toNames (substStmt σ node) = .ok names ∧ ∀ d, BindsName d node → d ∈ names := by
  cases node
  case functionDef f => exact ⟨[f.name], rfl, fun d hd => by rw [show f.name = d from hd]; simp⟩
  case annAssign target _ _ =>
    obtain ⟨x, rfl⟩ := h
    refine ⟨[x], rfl, fun d hd => ?_⟩
    cases hd
    simp
  case assign targets value =>
    obtain ⟨names, h1, h2⟩ := targetNames_total σ h
    refine ⟨names.flatten, ?_, h2⟩
    show (do
      let names ← mapExcept targetNames (targets.map (subst σ))
      return names.flatten) = _
    rw [h1]
    rfl
  all_goals cases h

theorem toNames_each (σ : Path → Option Expr) : ∀ {nodes : List Stmt}, (∀ node ∈ nodes, IsMember node) →
    ∃ defined, mapExcept toNames (nodes.map (substStmt σ)) = .ok defined ∧
      ∀ d, ∀ node ∈ nodes, BindsName d node → d ∈ defined.flatten
  | [], _ => ⟨[], rfl, by simp⟩
  | node :: nodes, h => by
    obtain ⟨names, h1, h2⟩ := toNames_total σ (h node List.mem_cons_self)
    obtain ⟨defined, h3, h4⟩ := toNames_each σ fun x hx => h x (List.mem_cons_of_mem _ hx)
    refine ⟨names :: defined, ?_, fun d x hx hb => ?_⟩
    · rw [List.map_cons, mapExcept, h1, h3]
    · rw [List.flatten_cons, List.mem_append]
      rcases List.mem_cons.1 hx with rfl | hx
      · exact .inl (h2 d hb)
      · exact .inr (h4 d x hx hb)

/-- What holds while the bases are processed. -/
structure Going (B : QPath → Expr → Prop) (s u : ParseState) : Prop where
  aside : Aside MoreSupers s u
  scope : (u.definitions.lookup specPath).isSome
  only : ∀ name, (((u.superclasses.lookup specPath).getD []).lookup [name]).isSome → HasSpec u name
  bases : ∀ c l, u.classesBases.lookup c = some l → ∀ e ∈ l, B c e

theorem _root_.Paradigm.Spec.AlwaysMeans.now {n : Nat} {s u : ParseState} {m parent path : Path}
    {q : QPath} (h : AlwaysMeans n s m parent path q) (ha : Aside MoreSupers s u) :
    resolveNow n m parent path u = (.ok q, u) := by
  unfold resolveNow
  rw [h u.tables ha.definitions ha.references ha.submodules]

section

variable {n : Nat} {s : ParseState} {cm : Path} {g : QPath} {params : List Path} {args : List Expr}

theorem registerMember_total (h : Specialisable n s cm g params args) (hg : g.1 ≠ specPath) {so : Path}
    {x : String} (hx : DefinedAt s g.1 (g.2 ++ [x])) {nodes : Dict Path (List Stmt)}
    (hn : s.nodes.lookup g.1 = some nodes) {u : ParseState} (hu : Aside MoreSupers s u) :
    ∃ t, registerMember o n g.1 g.2 cm so (params.zip args) (argsNames args) nodes x u = (.ok (), t)
      ∧ Aside MoreSupers s t := by
  obtain ⟨old, h1, h2, h3, h4⟩ := h.members x hx
  have hold : nodes.lookup (g.2 ++ [x]) = some old := by
    rw [nodesEntry, hn] at h1
    exact h1
  have hnew := mapExcept_ok (specializeStmt (params.zip args))
    (substStmt fun p => (params.zip args).lookup p) old fun node hnode =>
      specializeStmt_subst _ node (h3 node hnode).2
  obtain ⟨defined, h5, h6⟩ := toNames_each (fun p => (params.zip args).lookup p)
    fun node hnode => (h3 node hnode).1
  have hR := aside_preorder moreSupers_preorder
  have hloop : ∃ v, P.each (registerDependency n g.1 cm (argsNames args))
      (o.order ((dedup ((old.map (substStmt fun p => (params.zip args).lookup p)).flatMap
        Stmt.loadedNames)).filter fun x => !defined.flatten.contains x))
      (setSpecNodes (so ++ [x]) (old.map (substStmt fun p => (params.zip args).lookup p)) u)
        = (.ok (), v) ∧ Aside MoreSupers s v := by
    refine each_total (I := Aside MoreSupers s) (fun d hd v hv => ?_)
      (hR.trans hu ((setSpecNodes_aside _ _ _).mono fun h => h.other.more))
    rw [(o.order_perm _).mem_iff, List.mem_filter] at hd
    obtain ⟨hd, hnot⟩ := hd
    obtain ⟨node', hnode', hd⟩ := List.mem_flatMap.1 (mem_of_mem_dedup hd)
    obtain ⟨node, hnode, rfl⟩ := List.mem_map.1 hnode'
    have hread : d ∈ namesRead (substStmt (fun p => (params.zip args).lookup p) node) := by
      obtain ⟨e, he, hd⟩ := mem_dependencyNames.1 hd
      exact List.mem_flatMap.2 ⟨e, mem_exprs.1 he, hd⟩
    obtain ⟨h7, h8⟩ := h4 node hnode d hread fun node' hn' hb => by
      have := h6 d node' hn' hb
      simp only [List.contains_iff_mem.2 this, Bool.not_true, Bool.false_eq_true] at hnot
    have hiff : (argsNames args).contains d = true ↔ ∃ e ∈ args, d ∈ loadedNames e := by
      rw [List.contains_iff_mem]; exact mem_dependencyNames
    have : ∃ q, AlwaysMeans n s (if (argsNames args).contains d then cm else g.1) [] [d] q := by
      by_cases hc : ∃ e ∈ args, d ∈ loadedNames e
      · rw [if_pos (hiff.2 hc)]; exact h7 hc
      · rw [if_neg fun e => hc (hiff.1 e)]; exact h8 hc
    obtain ⟨q, hq⟩ := this
    have hstep : ∃ t, registerDependency n g.1 cm (argsNames args) d v = (.ok (), t) := by
      unfold registerDependency
      rw [bind_of_ok (hq.now hv)]
      split
      · exact ⟨_, rfl⟩
      · exact ⟨_, rfl⟩
    obtain ⟨t, ht⟩ := hstep
    exact ⟨t, ht, hR.trans hv (((registerDependency_aside _ _ _ _ _).of_eq ht).mono fun h => h.other.more)⟩
  obtain ⟨v, hv, hav⟩ := hloop
  obtain ⟨kind, hk⟩ := Option.isSome_iff_exists.1 h2
  have hkinds : ∃ kinds, v.kinds.lookup g.1 = some kinds ∧ kinds.lookup (g.2 ++ [x]) = some kind := by
    rw [kindAt, ← hav.kinds g.1 hg] at hk
    cases hl : v.kinds.lookup g.1 with
    | none => rw [hl] at hk; cases hk
    | some kinds => rw [hl] at hk; exact ⟨kinds, rfl, hk⟩
  obtain ⟨kinds, hk1, hk2⟩ := hkinds
  have hall : registerMember o n g.1 g.2 cm so (params.zip args) (argsNames args) nodes x u
      = (.ok (), setSpecKind (so ++ [x]) kind v) := by
    unfold registerMember
    rw [bind_of_ok (lift_of_ok (itemOf_of_lookup hold) u), bind_of_ok (lift_of_ok hnew u)]
    show (P.lift (mapExcept toNames _) >>= _) (setSpecNodes _ _ u) = _
    rw [bind_of_ok (lift_of_ok h5 _), bind_of_ok hv, bind_of_ok (item_ok (d := ParseState.kinds) hk1),
      bind_of_ok (lift_of_ok (itemOf_of_lookup hk2) _)]
    rfl
  exact ⟨_, hall, hR.trans hav ((setSpecKind_aside _ _ _).mono fun h => h.other.more)⟩

theorem registerGeneric_total (h : Specialisable n s cm g params args) (hg : g.1 ≠ specPath)
    {name : String} {B : QPath → Expr → Prop} {u : ParseState} (hu : Going B s u) :
    ∃ t, registerGeneric o n g.1 g.2 cm [name] params args u = (.ok (), t)
      ∧ Going B s t ∧ HasSpec t name ∧ SameSupers u t ∧ ∀ x, HasSpec u x → HasSpec t x := by
  have hR := aside_preorder moreSupers_preorder
  obtain ⟨defs, hd, hdef⟩ := h.class_
  obtain ⟨scope, hscope⟩ := getPath_of_defines hdef
  obtain ⟨nodes, hnodes⟩ := Option.isSome_iff_exists.1 h.table
  have a1 : Aside MoreSupers s (setSpecScope (·.add [name]) u) :=
    hR.trans hu.aside ((setSpecScope_aside _ _).mono fun h => h.other.more)
  have a2 : Aside MoreSupers s (setSpecScope (·.mergeAt scope.entries [name])
      (setSpecScope (·.add [name]) u)) :=
    hR.trans a1 ((setSpecScope_aside _ _).mono fun h => h.other.more)
  have a3 : Aside MoreSupers s (setSpecKind [name] .class_ (setSpecScope (·.mergeAt scope.entries [name])
      (setSpecScope (·.add [name]) u))) :=
    hR.trans a2 ((setSpecKind_aside _ _ _).mono fun h => h.other.more)
  obtain ⟨t, h1, h2⟩ := each_total (I := Aside MoreSupers s)
    (f := registerMember o n g.1 g.2 cm [name] (params.zip args) (argsNames args) nodes)
    (xs := scope.entries.map Prod.fst)
    (fun x hx v hv => registerMember_total h hg ⟨defs, hd, defines_of_getPath hscope hx⟩ hnodes hv) a3
  have hall : registerGeneric o n g.1 g.2 cm [name] params args u = (.ok (), t) := by
    unfold registerGeneric
    show (P.item ParseState.definitions g.1 >>= _) (setSpecScope _ u) = _
    rw [bind_of_ok (item_ok (d := ParseState.definitions) (v := defs) (by
      rw [a1.definitions g.1 hg]; exact hd))]
    simp only [hscope]
    show (P.item ParseState.nodes g.1 >>= _) (setSpecScope _ (setSpecScope _ u)) = _
    rw [bind_of_ok (item_ok (d := ParseState.nodes) (v := nodes) (by
      rw [a2.nodes g.1 hg]; exact hnodes))]
    exact h1
  have hs := (registerGeneric_aside _ _ _ _ _ _ _).of_eq hall
  obtain ⟨h3, h4⟩ := HasSpec.registered hg hall
  refine ⟨t, hall, ⟨h2, ?_, fun x hx => ?_, fun c l hl => ?_⟩, h3, hs.supers, h4⟩
  · obtain ⟨_, _, _, _, _, h5⟩ := (registerGeneric_ok hg hall).found
    rw [h5]; rfl
  · rw [hs.supers.1] at hx
    exact h4 x (hu.only x hx)
  · rw [hs.supers.2] at hl
    exact hu.bases c l hl

end

theorem isRegistered_total {name : String} {u : ParseState} (h : (u.definitions.lookup specPath).isSome) :
    ∃ b, isRegistered name u = (.ok b, u) := by
  obtain ⟨defs, hd⟩ := Option.isSome_iff_exists.1 h
  refine ⟨(defs.get? name).isSome, ?_⟩
  unfold isRegistered
  rw [bind_of_ok (item_ok (d := ParseState.definitions) hd)]
  rfl

section

variable {rep : Atom → String} {n : Nat} {s : ParseState} {B : QPath → Expr → Prop}
  (hp : Processable (fun e => (toIdentifier rep e).toOption) n s B) (hs : NoSpecializations s)

theorem identifier_named {e : Expr} (h : ((toIdentifier rep e).toOption).isSome) :
    ∃ name, toIdentifier rep e = .ok name := by
  cases hn : toIdentifier rep e with
  | error _ => rw [hn] at h; cases h
  | ok name => exact ⟨name, rfl⟩

include hs in
theorem specialisable_other {cm : Path} {g : QPath} {params : List Path} {args : List Expr}
    (h : Specialisable n s cm g params args) : g.1 ≠ specPath := by
  intro e
  obtain ⟨defs, hd, -⟩ := h.class_
  rw [e] at hd
  exact nomatch hs.definitions.symm.trans hd

theorem Going.setBase {u : ParseState} (h : Going B s u) {g : QPath} {e : Expr} (hB : B g e) (i : Nat) :
    Going B s (Paradigm.setBase g i e u) := by
  refine ⟨(aside_preorder moreSupers_preorder).trans h.aside ((setBase_aside _ _ _ _).mono OtherSupers.more),
    h.scope, h.only, fun c l hl e' he' => ?_⟩
  by_cases hc : c = g
  · subst hc
    simp only [Paradigm.setBase, lookup_dictUpdate_self, Option.some.injEq] at hl
    subst hl
    rcases List.mem_or_eq_of_mem_set he' with he' | rfl
    · cases hb : u.classesBases.lookup c with
      | none => rw [hb] at he'; cases he'
      | some l => rw [hb] at he'; exact h.bases c l hb e' he'
    · exact hB
  · simp only [Paradigm.setBase, lookup_dictUpdate_ne _ _ _ hc] at hl
    exact h.bases c l hl e' he'

include hs in
theorem registerSubscript_total {u : ParseState} (hu : Going B s u) {g g' : QPath} {cm : Path}
    {table : Dict Path Expr} {v w : Expr} {l : Bool} {params : List Path}
    (hplain : PlainAttributes (fun p => table.lookup p) (.subscript v w l))
    (hB : B g (subst (fun p => table.lookup p) (.subscript v w l)))
    (ha : Applies (fun e => (toIdentifier rep e).toOption) n s g cm (subst (fun p => table.lookup p) v)
      (subst (fun p => table.lookup p) w) l g' params) (i : Nat) :
    ∃ q t, registerSubscript o rep n g cm table i v w l u = (.ok q, t) ∧ Going B s t
      ∧ t.superclasses = u.superclasses ∧ ∀ x, HasSpec u x → HasSpec t x := by
  have hv := specialize_subst table v (hplain.child (by simp [Expr.children]))
  have hw := specialize_subst table w (hplain.child (by simp [Expr.children]))
  have h1 : Going B s (Paradigm.setBase g i (.subscript (subst (fun p => table.lookup p) v)
      (subst (fun p => table.lookup p) w) l) u) := hu.setBase (by rw [subst] at hB; exact hB) i
  obtain ⟨name, hname⟩ := identifier_named ha.named
  obtain ⟨b, hb⟩ := isRegistered_total (name := name) h1.scope
  unfold registerSubscript
  rw [bind_of_ok (lift_of_ok hv u), bind_of_ok (lift_of_ok hw u)]
  show ∃ q t, (P.lift (toIdentifier rep _) >>= _) (Paradigm.setBase g i _ u) = _ ∧ _
  rw [bind_of_ok (lift_of_ok hname _), bind_of_ok hb]
  cases b with
  | true => exact ⟨_, _, rfl, h1, rfl, fun _ hx => hx⟩
  | false =>
    obtain ⟨path, hpath, hm⟩ := ha.means
    have hg' := specialisable_other hs ha.possible
    obtain ⟨t, h2, h3, h4, h5, h6⟩ := registerGeneric_total (o := o) ha.possible hg' (name := name) h1
    refine ⟨(specPath, [name]), t, ?_, h3, h5.1, h6⟩
    have hun : unpack (subst (fun p => table.lookup p) w) = bracketed (subst (fun p => table.lookup p) w) := by
      cases subst (fun p => table.lookup p) w <;> rfl
    show (P.lift (toPath _) >>= _) (Paradigm.setBase g i _ u) = _
    rw [bind_of_ok (lift_of_ok (toPath_of_dotted hpath) _), bind_of_ok (hm.now h1.aside),
      bind_of_ok (item_ok (d := ParseState.generics) (v := params) (by
        rw [h1.aside.generics]; exact ha.generic)), hun, bind_of_ok h2]
    rfl

theorem Going.addSpec {u : ParseState} (h : Going B s u) {name : String} (hn : HasSpec u name)
    (q : QPath) : Going B s (addSuperclass specPath [name] q u) := by
  refine ⟨(aside_preorder moreSupers_preorder).trans h.aside
    ((addSpecSuperclass_aside _ _ _).mono OtherSupers.more), h.scope, fun x hx => ?_, h.bases⟩
  by_cases e : x = name
  · rw [e]; exact hn
  · refine h.only x ?_
    simp only [addSuperclass, lookup_dictUpdate_self, Option.getD_some] at hx
    rw [lookup_dictUpdate_ne _ _ _ (by simpa using e)] at hx
    exact hx

include hs in
theorem registerBaseBase_total {u : ParseState} {name : String} (hu : Going B s u ∧ HasSpec u name)
    {g : QPath} {cm : Path} {table : Dict Path Expr} {e : Expr}
    (he : (∃ path q, dotted e = some path ∧ AlwaysMeans n s g.1 [] path q) ∨
      ∃ v' w' l' g' params', e = .subscript v' w' l' ∧
        PlainAttributes (fun p => table.lookup p) e ∧ B g (subst (fun p => table.lookup p) e) ∧
        Applies (fun e => (toIdentifier rep e).toOption) n s g cm (subst (fun p => table.lookup p) v')
          (subst (fun p => table.lookup p) w') l' g' params') (i : Nat) :
    ∃ t, registerBaseBase o rep n g cm name table (e, i) u = (.ok (), t) ∧ Going B s t ∧ HasSpec t name := by
  have key : ∃ q t, baseBasePath o rep n g cm table (e, i) u = (.ok q, t) ∧ Going B s t ∧
      HasSpec t name := by
    rcases he with ⟨path, q, h1, h2⟩ | ⟨v', w', l', g', params', rfl, h1, h2, h3⟩
    · refine ⟨q, u, ?_, hu⟩
      have key : (do
          let path ← P.lift (toPath e)
          resolveNow n g.1 [] path : P QPath) u = (.ok q, u) := by
        rw [bind_of_ok (lift_of_ok (toPath_of_dotted h1) u)]
        exact h2.now hu.1.aside
      cases e
      case subscript => cases h1
      all_goals exact key
    · obtain ⟨q, t, h4, h5, -, h6⟩ := registerSubscript_total (o := o) hs hu.1 h1 h2 h3 i
      exact ⟨q, t, h4, h5, h6 name hu.2⟩
  obtain ⟨q, t, h1, h2, h3⟩ := key
  refine ⟨addSuperclass specPath [name] q t, ?_, h2.addSpec h3 q, h3⟩
  unfold registerBaseBase
  rw [bind_of_ok h1]
  rfl

include hp hs in
theorem registerNew_total {u : ParseState} (hu : Going B s u) {c : QPath} {v w : Expr} {l : Bool}
    (hB : B c (.subscript v w l)) {name : String} (hnew : ¬ HasSpec u name) :
    ∃ t, registerNew o rep n name v w c.1 c.2 u = (.ok (), t) ∧ Going B s t := by
  obtain ⟨g, params, ha, hb, hbs⟩ := hp.generic c v w l hB
  obtain ⟨path, hpath, hm⟩ := ha.means
  have hg := specialisable_other hs ha.possible
  obtain ⟨t, h1, h2, h3, h4, h5⟩ := registerGeneric_total (o := o) ha.possible hg (name := name) hu
  have hun : unpack w = bracketed w := by cases w <;> rfl
  have hnone : ((t.superclasses.lookup specPath).getD []).lookup [name] = none := by
    rw [h4.1]
    cases hl : ((u.superclasses.lookup specPath).getD []).lookup [name] with
    | none => rfl
    | some x => exact absurd (hu.only name (by rw [hl]; rfl)) hnew
  obtain ⟨gb, hgb⟩ := Option.isSome_iff_exists.1 hb
  obtain ⟨gb', hgb', -⟩ := h2.aside.supers.bases g gb hgb
  obtain ⟨r, h6, h7⟩ := each_total (I := fun r => Going B s r ∧ HasSpec r name)
    (f := registerBaseBase o rep n g c.1 name (params.zip (bracketed w))) (xs := gb'.zipIdx)
    (fun b hb r hr => by
      have : b.1 ∈ gb' := (List.mem_zipIdx' hb).2 ▸ List.getElem_mem _
      exact registerBaseBase_total hs hr (hbs b.1 (h2.bases g gb' hgb' b.1 this)) b.2) ⟨h2, h3⟩
  refine ⟨r, ?_, h7.1⟩
  unfold registerNew
  rw [bind_of_ok (lift_of_ok (toPath_of_dotted hpath) u), bind_of_ok (hm.now hu.aside),
    bind_of_ok (item_ok (d := ParseState.generics) (v := params) (by
      rw [hu.aside.generics]; exact ha.generic)), hun, bind_of_ok h1]
  show (if (((t.superclasses.lookup specPath).getD []).lookup [name]).isSome then _ else _ : P Unit) t = _
  rw [hnone]
  show (P.item ParseState.classesBases g >>= _) t = _
  rw [bind_of_ok (item_ok (d := ParseState.classesBases) hgb')]
  exact h6

include hp hs in
theorem registerBase_total {u : ParseState} (hu : Going B s u) {c : QPath} {e : Expr} (hB : B c e) :
    ∃ q t, registerBase o rep n e c.1 c.2 u = (.ok q, t) ∧ Going B s t := by
  rcases hp.plain c e hB with ⟨q, path, h1, h2⟩ | ⟨v, w, l, rfl⟩
  · refine ⟨q, u, ?_, hu⟩
    have key : (do
        let path ← P.lift (toPath e)
        resolveNow n c.1 c.2.dropLast path : P QPath) u = (.ok q, u) := by
      rw [bind_of_ok (lift_of_ok (toPath_of_dotted h1) u)]
      exact h2.now hu.aside
    cases e
    case subscript => cases h1
    all_goals exact key
  · obtain ⟨g, params, ha, -⟩ := hp.generic c v w l hB
    obtain ⟨name, hname⟩ := identifier_named ha.named
    obtain ⟨b, hb⟩ := isRegistered_total (name := name) hu.scope
    have hb' := (isRegistered_out hb).2
    show ∃ q t, (P.lift (toIdentifier rep _) >>= _) u = _ ∧ _
    rw [bind_of_ok (lift_of_ok hname u), bind_of_ok hb]
    cases b with
    | true => exact ⟨_, _, rfl, hu⟩
    | false =>
      obtain ⟨t, h1, h2⟩ := registerNew_total (o := o) hp hs hu hB (name := name) fun hc =>
        nomatch hb'.2 hc
      refine ⟨(specPath, [name]), t, ?_, h2⟩
      show (registerNew o rep n name v w c.1 c.2 >>= _) u = _
      rw [bind_of_ok h1]
      rfl

theorem Going.add {u : ParseState} (h : Going B s u) {c : QPath} (hc : c.1 ≠ specPath)
    (q : QPath) : Going B s (addSuperclass c.1 c.2 q u) := by
  refine ⟨(aside_preorder moreSupers_preorder).trans h.aside (addSuperclass_aside _ _ _ _), h.scope,
    fun x hx => h.only x ?_, h.bases⟩
  simp only [addSuperclass, lookup_dictUpdate_ne _ _ _ hc.symm] at hx
  exact hx

include hp hs in
theorem processClass_total {u : ParseState} (hu : Going B s u) {c : QPath}
    (hc : (s.classesBases.lookup c).isSome) :
    ∃ t, processClass o rep n c u = (.ok (), t) ∧ Going B s t := by
  have hne : c.1 ≠ specPath := by
    intro e
    have : c = (specPath, c.2) := Prod.ext e rfl
    rw [this, show s.classesBases.lookup (specPath, c.2) = none from hs.bases c.2] at hc
    cases hc
  obtain ⟨l, hl⟩ := Option.isSome_iff_exists.1 hc
  obtain ⟨l', hl', -⟩ := hu.aside.supers.bases c l hl
  obtain ⟨t, h1, h2⟩ := each_total (I := Going B s) (f := processBase o rep n c)
    (xs := List.range l'.length) (fun i _ v hv => by
      obtain ⟨l2, hl2, -⟩ := hv.aside.supers.bases c l hl
      unfold processBase
      rw [bind_of_ok (item_ok (d := ParseState.classesBases) hl2)]
      cases hi : l2[i]? with
      | none => exact ⟨v, rfl, hv⟩
      | some e =>
        obtain ⟨q, t, h1, h2⟩ := registerBase_total (o := o) hp hs hv
          (hv.bases c l2 hl2 e (List.mem_of_getElem? hi))
        refine ⟨addSuperclass c.1 c.2 q t, ?_, h2.add hne q⟩
        show (registerBase o rep n e c.1 c.2 >>= _) v = _
        rw [bind_of_ok h1]
        rfl) hu
  refine ⟨t, ?_, h2⟩
  unfold processClass
  rw [bind_of_ok (item_ok (d := ParseState.classesBases) hl')]
  exact h1

include hp hs in
theorem processBases_total : ∃ t, processBases o rep n s = (.ok (), t) := by
  have hopen : ∃ u, openSpecializations s = (.ok (), u) ∧ Going B s u ∧ u.classesBases = s.classesBases := by
    refine ⟨{ s with
      nodes := dictSet s.nodes specPath []
      definitions := dictSet s.definitions specPath (.mk [])
      kinds := dictSet s.kinds specPath []
      references := dictSet s.references specPath [] }, ?_, ⟨⟨fun m hm => lookup_dictSet_ne _ _ hm,
        fun m hm => lookup_dictSet_ne _ _ hm, fun m hm => lookup_dictSet_ne _ _ hm,
        fun m hm => lookup_dictSet_ne _ _ hm, rfl, rfl, rfl, rfl,
        ⟨fun _ _ _ => List.prefix_refl _, fun _ l h => ⟨l, h, rfl⟩⟩⟩, ?_, ?_,
        hp.stored⟩, rfl⟩
    · unfold openSpecializations
      show (if (s.nodes.lookup specPath).isSome then _ else _ : P Unit) s = _
      rw [specPath, hs.nodes, hs.definitions, hs.kinds, hs.references]
      rfl
    · rw [lookup_dictSet_self]; rfl
    · intro name hname
      rw [show s.superclasses.lookup specPath = none from hs.superclasses] at hname
      cases hname
  obtain ⟨u, h1, h2, h3⟩ := hopen
  obtain ⟨t, h4, -⟩ := each_total (I := Going B s) (f := processClass o rep n)
    (xs := u.classesBases.map Prod.fst) (fun c hc v hv => processClass_total hp hs hv (by
      rw [h3] at hc; exact isSome_of_key hc)) h2
  refine ⟨t, ?_⟩
  unfold processBases
  rw [bind_of_ok h1]
  exact h4

end

end Paradigm
