import Verif.Lemmas.Bases
import Verif.Spec.Superclasses
import Verif.Spec.Inherited

/-!
# Lemmas about recorded superclasses
-/

namespace Paradigm

open Spec

variable {o : SetOrder}

/-- `name` of `__specializations` is the class that some base `v[w]` means when it is processed. -/
def BaseOrigin (rep : Atom → String) (n : Nat) (s t : ParseState) (name : String) : Prop :=
  ∃ (u : ParseState) (c : QPath) (bases : List Expr) (v w : Expr) (l : Bool) (path : Path) (g : QPath)
    (params : List Path), Aside MoreSupers s u ∧ u.classesBases.lookup c = some bases ∧
    .subscript v w l ∈ bases ∧ toIdentifier rep (.subscript v w l) = .ok name ∧ dotted v = some path ∧
    resolve u.tables n c.1 c.2.dropLast path [] = .ok g ∧ s.generics.lookup g = some params ∧
    SpecialisedClass s t g (fun p => (params.zip (bracketed w)).lookup p) name ∧
    MayBeBase n s c (.subscript v w l)

/-- Whether `__specializations` has the name. -/
def HasSpec (t : ParseState) (name : String) : Prop :=
  (((t.definitions.lookup specPath).getD (.mk [])).get? name).isSome

/-- What holds while the bases are processed. -/
structure Processing (rep : Atom → String) (n : Nat) (s t : ParseState) : Prop where
  aside : Aside MoreSupers s t
  origin : ∀ name, HasSpec t name → BaseOrigin rep n s t name
  kept : ∀ c, s.generics.lookup c = none → t.classesBases.lookup c = s.classesBases.lookup c
  bases : ∀ c bases, t.classesBases.lookup c = some bases → ∀ b ∈ bases, MayBeBase n s c b

/-- The arguments with which a class is specialised are those of a base that means it. -/
def Arguments.For (n : Nat) (s : ParseState) (c : QPath) (args : List Expr) : Prop :=
  ∃ d v w l, MayBeBase n s d (.subscript v w l) ∧ (∀ q, BaseMeans n s d v q → q = c) ∧ bracketed w = args

theorem _root_.Paradigm.Spec.MayBeBase.again {n : Nat} {s : ParseState} {c : QPath} {v w v' w' : Expr} {l : Bool}
    (h : MayBeBase n s c (.subscript v w l)) {params : List Path} (hg : s.generics.lookup c = some params)
    {args : List Expr} (ha : Arguments.For n s c args) (hv : specialize (params.zip args) v = .ok v')
    (hw : specialize (params.zip args) w = .ok w') : MayBeBase n s c (.subscript v' w' l) := by
  obtain ⟨d, v2, w2, l2, h1, h2, rfl⟩ := ha
  refine .specialised h hg h1 h2 (fun hp => ?_) fun hp => ?_
  · rw [specialize_subst _ _ hp] at hv
    exact (Except.ok.inj hv).symm
  · rw [specialize_subst _ _ hp] at hw
    exact (Except.ok.inj hw).symm

theorem getPath_defines {go : Path} {x : String} : ∀ {defs scope : Scope}, defs.getPath go = some scope →
    Defines defs (go ++ [x]) → x ∈ scope.entries.map Prod.fst := by
  induction go with
  | nil =>
    intro defs scope h hd
    cases h
    obtain ⟨inner, hi, -⟩ := hd
    exact List.mem_map.2 ⟨_, mem_of_lookup_some hi, rfl⟩
  | cons part go ih =>
    intro defs scope h hd
    obtain ⟨inner, hi, hd⟩ := hd
    rw [Scope.getPath] at h
    have : defs.get? part = some inner := hi
    rw [this] at h
    exact ih h hd

/-- A class stays what it is when others are changed. -/
theorem Spec.SpecialisedClass.keep {s t u : ParseState} {g : QPath} {σ : Path → Option Expr} {name : String}
    (h : SpecialisedClass s t g σ name)
    (hd : (t.definitions.lookup specPath).bind (·.get? name) =
      (u.definitions.lookup specPath).bind (·.get? name))
    (ho : ∀ p, [name] <+: p → nodesEntry u specPath p = nodesEntry t specPath p ∧
      kindAt u specPath p = kindAt t specPath p) : SpecialisedClass s u g σ name := by
  have hdef : ∀ p, DefinedAt t specPath (name :: p) → DefinedAt u specPath (name :: p) := by
    rintro p ⟨scope, hs, inner, hi, hp⟩
    rw [hs, Option.bind_some] at hd
    have : scope.get? name = some inner := hi
    rw [this] at hd
    cases hu : u.definitions.lookup specPath with
    | none => rw [hu] at hd; cases hd
    | some scope' =>
      rw [hu, Option.bind_some] at hd
      exact ⟨scope', hu, inner, hd.symm, hp⟩
  refine ⟨hdef [] h.defined, ((ho [name] (List.prefix_refl _)).2).trans h.class_, fun x hx => ?_⟩
  obtain ⟨h1, h2, h3⟩ := h.members x hx
  obtain ⟨h4, h5⟩ := ho [name, x] ⟨[x], rfl⟩
  refine ⟨hdef [x] h1, h5.trans h2, fun hp => ?_⟩
  have := h3 hp
  rw [nodesAt] at this ⊢
  rw [nodesEntry, nodesEntry] at h4
  exact (congrArg (·.getD []) h4).trans this

/-- The other classes of `__specializations` after one was registered. -/
theorem registered_other {gm go : Path} {name : String} {table : Dict Path Expr} {s t : ParseState}
    (h : Registered gm go [name] table s t) {other : String} (ho : other ≠ name) :
    ((s.definitions.lookup specPath).getD (.mk [])).get? other =
      ((t.definitions.lookup specPath).getD (.mk [])).get? other := by
  obtain ⟨defs, scope, -, -, -, h1⟩ := h.found
  rw [h1, Option.getD_some]
  show _ = List.lookup other (dictSet (dictSet _ _ _) _ _)
  rw [lookup_dictSet_ne _ _ ho, lookup_dictSet_ne _ _ ho]
  rfl

theorem registered_made {g : QPath} {name : String} {params : List Path} {args : List Expr}
    {s u t : ParseState} (hs : Aside MoreSupers s u) (hg : g.1 ≠ specPath)
    (h : Registered g.1 g.2 [name] (params.zip args) u t) :
    SpecialisedClass s t g (fun p => (params.zip args).lookup p) name := by
  obtain ⟨defs, scope, h1, h2, h3, h4⟩ := h.found
  have hk : ∀ p, kindAt u g.1 p = kindAt s g.1 p := fun p => by rw [kindAt, kindAt, hs.kinds g.1 hg]
  have hn : ∀ p, nodesEntry u g.1 p = nodesEntry s g.1 p := fun p => by
    rw [nodesEntry, nodesEntry, hs.nodes g.1 hg]
  refine ⟨⟨_, h4, ?_⟩, h.class_, fun x hx => ?_⟩
  · exact ⟨_, lookup_dictSet_self _ _ _, trivial⟩
  · obtain ⟨defs', hd, hx⟩ := hx
    rw [← hs.definitions g.1 hg, h1] at hd
    cases hd
    have hmem := getPath_defines h2 hx
    obtain ⟨old, new, kind, a, b, c, d, e⟩ := h3 x hmem
    refine ⟨⟨_, h4, mergeAt_defines hmem⟩, ?_, fun hp => ?_⟩
    · rw [← hk, d]; exact e
    · have ho : nodesAt s g.1 (g.2 ++ [x]) = old := by
        rw [hn] at a
        rw [nodesAt]; rw [nodesEntry] at a; rw [a]; rfl
      have hn' : nodesAt t specPath [name, x] = new := by
        have c' : nodesEntry t specPath [name, x] = some new := c
        rw [nodesAt]; rw [nodesEntry] at c'; rw [c']; rfl
      rw [ho] at hp ⊢
      have := mapExcept_ok (specializeStmt (params.zip args))
        (substStmt fun p => (params.zip args).lookup p) old fun node hnode =>
          specializeStmt_subst _ node (hp node hnode)
      rw [this] at b
      exact hn'.trans (Except.ok.inj b).symm

theorem bind_eq_getD {d : Option Scope} {name : String} :
    d.bind (·.get? name) = (d.getD (.mk [])).get? name := by
  cases d <;> rfl

section

variable {rep : Atom → String} {n : Nat} {s : ParseState}

/-- Changes of other tables. -/
theorem Processing.same {t u : ParseState} (h : Processing rep n s t) (ha : Aside MoreSupers t u)
    (hn : u.nodes = t.nodes) (hk : u.kinds = t.kinds) (hd : u.definitions = t.definitions)
    (hb : ∀ c, s.generics.lookup c = none → u.classesBases.lookup c = t.classesBases.lookup c)
    (hm : ∀ c bases, u.classesBases.lookup c = some bases → ∀ b ∈ bases, MayBeBase n s c b) :
    Processing rep n s u := by
  refine ⟨(aside_preorder moreSupers_preorder).trans h.aside ha, fun name hname => ?_,
    fun c hc => (hb c hc).trans (h.kept c hc), hm⟩
  obtain ⟨v, c, bases, e1, e2, l, path, g, params, a1, a2, a3, a4, a5, a6, a7, a8, a9⟩ :=
    h.origin name (by rw [HasSpec] at hname ⊢; rw [← hd]; exact hname)
  refine ⟨v, c, bases, e1, e2, l, path, g, params, a1, a2, a3, a4, a5, a6, a7, a8.keep (by rw [hd])
    fun p _ => ?_, a9⟩
  simp only [nodesEntry, kindAt, hn, hk, and_self]

/-- A new class is registered. -/
theorem Processing.register {t u : ParseState} (h : Processing rep n s t) {c : QPath}
    {bases : List Expr} {v w : Expr} {l : Bool} {name : String} {path : Path} {g : QPath}
    {params : List Path} {cm : Path} (hb : t.classesBases.lookup c = some bases)
    (hm : .subscript v w l ∈ bases) (hi : toIdentifier rep (.subscript v w l) = .ok name)
    (hp : dotted v = some path) (hr : resolve t.tables n c.1 c.2.dropLast path [] = .ok g)
    (hg : t.generics.lookup g = some params) (hgs : g.1 ≠ specPath)
    (hu : registerGeneric o n g.1 g.2 cm [name] params (unpack w) t = (.ok (), u))
    (hnew : ¬ HasSpec t name) : Processing rep n s u := by
  have hreg := registerGeneric_ok hgs hu
  have haside := (registerGeneric_aside _ _ _ _ _ _ _).of_eq hu
  have hunpack : unpack w = bracketed w := by cases w <;> rfl
  refine ⟨(aside_preorder moreSupers_preorder).trans h.aside
    (haside.mono fun hs => hs.other.more), fun other hother => ?_, fun d hd => ?_,
    by rw [haside.supers.2]; exact h.bases⟩
  · by_cases ho : other = name
    · subst ho
      refine ⟨t, c, bases, v, w, l, path, g, params, h.aside, hb, hm, hi, hp, hr,
        h.aside.generics ▸ hg, ?_, h.bases c bases hb _ hm⟩
      rw [hunpack] at hreg
      exact registered_made h.aside hgs hreg
    · have hsame := registered_other hreg ho
      obtain ⟨v', c', bases', e1, e2, l', path', g', params', a1, a2, a3, a4, a5, a6, a7, a8, a9⟩ :=
        h.origin other (by rw [HasSpec] at hother ⊢; rw [hsame]; exact hother)
      refine ⟨v', c', bases', e1, e2, l', path', g', params', a1, a2, a3, a4, a5, a6, a7, a8.keep
        (by rw [bind_eq_getD, bind_eq_getD]; exact hsame) (fun p hp => hreg.others p fun hpre => ho ?_), a9⟩
      obtain ⟨r, rfl⟩ := hp
      obtain ⟨r', hr'⟩ := hpre
      simp only [List.cons_append, List.cons.injEq] at hr'
      exact hr'.1.symm
  · rw [haside.supers.2]; exact h.kept d hd

theorem HasSpec.registered {t u : ParseState} {gm go cm : Path} {name : String} {params : List Path}
    {args : List Expr} (hgs : gm ≠ specPath)
    (hu : registerGeneric o n gm go cm [name] params args t = (.ok (), u)) :
    HasSpec u name ∧ ∀ x, HasSpec t x → HasSpec u x := by
  have hreg := registerGeneric_ok hgs hu
  have hself : HasSpec u name := by
    obtain ⟨defs, scope, -, -, -, hd⟩ := hreg.found
    rw [HasSpec, hd, Option.getD_some]
    show ((dictSet _ _ _).lookup name).isSome
    rw [lookup_dictSet_self]
    rfl
  refine ⟨hself, fun x hx => ?_⟩
  by_cases e : x = name
  · rw [e]; exact hself
  · rw [HasSpec, ← registered_other hreg e]; exact hx

theorem isRegistered_out {name : String} {b : Bool} {t u : ParseState}
    (h : isRegistered name t = (.ok b, u)) : u = t ∧ (b = true ↔ HasSpec t name) := by
  unfold isRegistered at h
  obtain ⟨defs, _, h1, g1⟩ := bind_ok h
  obtain ⟨e1, rfl⟩ := item_out h1
  cases g1
  refine ⟨rfl, ?_⟩
  rw [HasSpec, e1]
  rfl

theorem resolveNow_out {n : Nat} {m parent object : Path} {t u : ParseState} {q : QPath}
    (h : resolveNow n m parent object t = (.ok q, u)) :
    u = t ∧ resolve t.tables n m parent object [] = .ok q := by
  unfold resolveNow at h
  exact ⟨(congrArg Prod.snd h).symm, congrArg Prod.fst h⟩

variable (hspec : ∀ c, (s.generics.lookup c).isSome → c.1 ≠ specPath)

include hspec in
theorem registerSubscript_processing {t u : ParseState} (h : Processing rep n s t) {generic : QPath}
    {cm : Path} {params : List Path} {args : List Expr} {i : Nat} {value slice : Expr} {load : Bool} {q : QPath}
    (hg : s.generics.lookup generic = some params) (ha : Arguments.For n s generic args) (hmay : MayBeBase n s generic (.subscript value slice load))
    (hi : ∃ bases, t.classesBases.lookup generic = some bases ∧ i < bases.length)
    (hu : registerSubscript o rep n generic cm (params.zip args) i value slice load t = (.ok q, u)) :
    Processing rep n s u ∧ (∀ x, HasSpec t x → HasSpec u x) := by
  unfold registerSubscript at hu
  obtain ⟨value', _, h1, g1⟩ := bind_ok hu
  obtain ⟨e1, rfl⟩ := lift_out h1
  obtain ⟨slice', _, h2, g2⟩ := bind_ok g1
  obtain ⟨e2, rfl⟩ := lift_out h2
  obtain ⟨_, t3, h3, g3⟩ := bind_ok g2
  have e3 := update_ok h3
  obtain ⟨bases, hb, hlt⟩ := hi
  have p3 : Processing rep n s t3 := by
    rw [e3]
    refine h.same ((setBase_aside _ _ _ _).mono OtherSupers.more) rfl rfl rfl (fun c hc => ?_) fun c bs hbs b hbm => ?_
    · have : c ≠ generic := by rintro rfl; rw [hc] at hg; cases hg
      simp only [setBase, lookup_dictUpdate_ne _ _ _ this]
    · by_cases hc : c = generic
      · subst hc
        simp only [setBase, lookup_dictUpdate_self, hb, Option.getD_some] at hbs
        cases hbs
        rcases List.mem_or_eq_of_mem_set hbm with hbm | rfl
        · exact h.bases c bases hb b hbm
        · exact hmay.again hg ha e1 e2
      · simp only [setBase, lookup_dictUpdate_ne _ _ _ hc] at hbs
        exact h.bases c bs hbs b hbm
  have hb3 : t3.classesBases.lookup generic = some (bases.set i (.subscript value' slice' load)) := by
    rw [e3]
    simp only [setBase, lookup_dictUpdate_self, hb, Option.getD_some]
  obtain ⟨name, _, h4, g4⟩ := bind_ok g3
  obtain ⟨e4, rfl⟩ := lift_out h4
  obtain ⟨b, t5, h5, g5⟩ := bind_ok g4
  obtain ⟨rfl, e5⟩ := isRegistered_out h5
  cases b with
  | true =>
    simp only [if_true] at g5
    cases g5
    exact ⟨p3, fun x hx => by rw [e3]; exact hx⟩
  | false =>
    simp only [Bool.false_eq_true, if_false] at g5
    obtain ⟨path, _, h6, g6⟩ := bind_ok g5
    obtain ⟨e6, rfl⟩ := lift_out h6
    obtain ⟨g, t7, h7, g7⟩ := bind_ok g6
    obtain ⟨rfl, e7⟩ := resolveNow_out h7
    obtain ⟨params, _, h8, g8⟩ := bind_ok g7
    obtain ⟨e8, rfl⟩ := item_out h8
    obtain ⟨_, t9, h9, g9⟩ := bind_ok g8
    cases g9
    have hgs : g.1 ≠ specPath := hspec g (by rw [← p3.aside.generics, e8]; rfl)
    have hmem : Expr.subscript value' slice' load ∈ bases.set i (.subscript value' slice' load) :=
      List.mem_of_getElem? (by rw [List.getElem?_set_self hlt])
    refine ⟨p3.register hb3 hmem e4 (toPath_ok e6) e7 e8 hgs h9 fun hc => ?_,
      fun x hx => (HasSpec.registered hgs h9).2 x (by rw [e3]; exact hx)⟩
    have := e5.2 hc
    cases this

include hspec in
theorem baseBasePath_processing {t u : ParseState} (h : Processing rep n s t) {generic : QPath}
    {cm : Path} {params : List Path} {args : List Expr} {b : Expr × Nat} {q : QPath}
    (hg : s.generics.lookup generic = some params) (ha : Arguments.For n s generic args) (hmay : MayBeBase n s generic b.1)
    (hi : ∃ bases, t.classesBases.lookup generic = some bases ∧ b.2 < bases.length)
    (hu : baseBasePath o rep n generic cm (params.zip args) b t = (.ok q, u)) :
    Processing rep n s u ∧ (∀ x, HasSpec t x → HasSpec u x) := by
  obtain ⟨base, i⟩ := b
  unfold baseBasePath at hu
  dsimp only at hu hi
  split at hu
  · exact registerSubscript_processing hspec h hg ha hmay hi hu
  · obtain ⟨path, _, h6, g6⟩ := bind_ok hu
    obtain ⟨-, rfl⟩ := lift_out h6
    obtain ⟨rfl, -⟩ := resolveNow_out g6
    exact ⟨h, fun _ hx => hx⟩

include hspec in
theorem registerBaseBases_processing {generic : QPath} {cm : Path} {name : String}
    {params : List Path} {args : List Expr} (hg : s.generics.lookup generic = some params)
    (ha : Arguments.For n s generic args) (k : Nat) :
    ∀ {l : List (Expr × Nat)} {t u : ParseState}, Processing rep n s t →
    (∀ b ∈ l, b.2 < k ∧ MayBeBase n s generic b.1) →
    (∃ bases, t.classesBases.lookup generic = some bases ∧ bases.length = k) →
    P.each (registerBaseBase o rep n generic cm name (params.zip args)) l t = (.ok (), u) →
    Processing rep n s u ∧ (∀ x, HasSpec t x → HasSpec u x)
  | [], t, u, h, _, _, hu => by cases hu; exact ⟨h, fun _ hx => hx⟩
  | b :: l, t, u, h, hl, ⟨bases, hb, hk⟩, hu => by
    obtain ⟨v, hv, hu⟩ := each_cons_ok hu
    have hasideV := (registerBaseBase_aside rep n generic cm name (params.zip args) b).of_eq hv
    obtain ⟨q, v1, h1, g1⟩ := bind_ok hv
    obtain ⟨p1, m1⟩ := baseBasePath_processing hspec h hg ha (hl b List.mem_cons_self).2
      ⟨bases, hb, by rw [hk]; exact (hl b List.mem_cons_self).1⟩ h1
    have e2 := update_ok g1
    have p2 : Processing rep n s v := by
      rw [e2]
      exact p1.same ((addSpecSuperclass_aside _ _ _).mono OtherSupers.more) rfl rfl rfl (fun _ _ => rfl) p1.bases
    obtain ⟨bases', hb', hk'⟩ := hasideV.supers.bases generic bases hb
    obtain ⟨p3, m3⟩ := registerBaseBases_processing hg ha k p2
      (fun b hb => hl b (List.mem_cons_of_mem _ hb)) ⟨bases', hb', hk'.trans hk⟩ hu
    exact ⟨p3, fun x hx => m3 x (by rw [e2]; exact m1 x hx)⟩

include hspec in
theorem registerNew_processing {t u : ParseState} (h : Processing rep n s t) {c : QPath}
    {bases : List Expr} {v w : Expr} {l : Bool} {name : String}
    (hb : t.classesBases.lookup c = some bases)
    (hm : .subscript v w l ∈ bases) (hi : toIdentifier rep (.subscript v w l) = .ok name)
    (hnew : ¬ HasSpec t name) (hu : registerNew o rep n name v w c.1 c.2 t = (.ok (), u)) :
    Processing rep n s u ∧ HasSpec u name ∧ (∀ x, HasSpec t x → HasSpec u x) := by
  unfold registerNew at hu
  obtain ⟨path, _, h1, g1⟩ := bind_ok hu
  obtain ⟨e1, rfl⟩ := lift_out h1
  obtain ⟨g, t2, h2, g2⟩ := bind_ok g1
  obtain ⟨rfl, e2⟩ := resolveNow_out h2
  obtain ⟨params, _, h3, g3⟩ := bind_ok g2
  obtain ⟨e3, rfl⟩ := item_out h3
  obtain ⟨_, t4, h4, g4⟩ := bind_ok g3
  have hgen : (s.generics.lookup g).isSome := by rw [← h.aside.generics, e3]; rfl
  have hgs : g.1 ≠ specPath := hspec g hgen
  have p4 := h.register hb hm hi (toPath_ok e1) e2 e3 hgs h4 hnew
  have m4 := HasSpec.registered hgs h4
  have hargs : Arguments.For n s g (unpack w) := by
    refine ⟨c, v, w, l, h.bases c bases hb _ hm, fun q hq => ?_, by cases w <;> rfl⟩
    obtain ⟨p, hp, hq⟩ := hq
    have hq := hq t2.tables h.aside.definitions h.aside.references h.aside.submodules
    rw [toPath_ok e1] at hp
    cases hp
    rw [e2] at hq
    exact (Except.ok.inj hq).symm
  obtain ⟨u5, u6, h5, g5⟩ := bind_ok g4
  have e5 : u5 = t4 ∧ t4 = u6 := by
    unfold P.get at h5
    simp only [Prod.mk.injEq, Except.ok.injEq] at h5
    exact ⟨h5.1.symm, h5.2⟩
  obtain ⟨rfl, rfl⟩ := e5
  split at g5
  · cases g5
  · obtain ⟨gbases, u7, h7, g7⟩ := bind_ok g5
    obtain ⟨e7, rfl⟩ := item_out h7
    obtain ⟨p8, m8⟩ := registerBaseBases_processing hspec (h.aside.generics ▸ e3) hargs gbases.length p4
      (fun b hb => by
        obtain ⟨b, i⟩ := b
        have hm := p4.bases g gbases e7 b
        have := List.mem_zipIdx hb
        exact ⟨by simpa using this.2.1, hm (by rw [this.2.2]; exact List.getElem_mem _)⟩) ⟨gbases, e7, rfl⟩ g7
    exact ⟨p8, m8 _ m4.1, fun x hx => m8 x (m4.2 x hx)⟩

/-- What is recorded for a base of a class. -/
def BaseResult (rep : Atom → String) (n : Nat) (s u : ParseState) (c : QPath) (base : Expr) (q : QPath) :
    Prop :=
  (∀ v w l, base = .subscript v w l →
    ∃ name, toIdentifier rep base = .ok name ∧ q = (specPath, [name]) ∧ HasSpec u name) ∧
  ((∀ v w l, base ≠ .subscript v w l) → ∃ p v, dotted base = some p ∧ Aside MoreSupers s v ∧
    resolve v.tables n c.1 c.2.dropLast p [] = .ok q)

include hspec in
theorem registerBase_processing {t u : ParseState} (h : Processing rep n s t) {c : QPath}
    {bases : List Expr} {base : Expr} {q : QPath} (hb : t.classesBases.lookup c = some bases)
    (hm : base ∈ bases) (hu : registerBase o rep n base c.1 c.2 t = (.ok q, u)) :
    Processing rep n s u ∧ BaseResult rep n s u c base q ∧ (∀ x, HasSpec t x → HasSpec u x) := by
  unfold registerBase at hu
  split at hu
  · next v w l =>
    obtain ⟨name, _, h1, g1⟩ := bind_ok hu
    obtain ⟨e1, rfl⟩ := lift_out h1
    obtain ⟨b, t2, h2, g2⟩ := bind_ok g1
    obtain ⟨rfl, e2⟩ := isRegistered_out h2
    cases b with
    | true =>
      simp only [if_true] at g2
      cases g2
      refine ⟨h, ⟨?_, ?_⟩, fun _ hx => hx⟩
      · intro v w l _
        exact ⟨name, e1, rfl, e2.1 rfl⟩
      · intro hne; exact absurd rfl (hne _ _ _)
    | false =>
      simp only [Bool.false_eq_true, if_false] at g2
      obtain ⟨_, t3, h3, g3⟩ := bind_ok g2
      cases g3
      obtain ⟨p3, m3, k3⟩ := registerNew_processing hspec h hb hm e1
        (fun hc => by have := e2.2 hc; cases this) h3
      refine ⟨p3, ⟨?_, ?_⟩, k3⟩
      · intro v w l _
        exact ⟨name, e1, rfl, m3⟩
      · intro hne; exact absurd rfl (hne _ _ _)
  · next hne =>
    obtain ⟨path, _, h6, g6⟩ := bind_ok hu
    obtain ⟨e6, rfl⟩ := lift_out h6
    obtain ⟨rfl, e7⟩ := resolveNow_out g6
    refine ⟨h, ⟨?_, ?_⟩, fun _ hx => hx⟩
    · intro v w l e
      exact absurd e (hne v w l)
    · intro _
      exact ⟨path, _, toPath_ok e6, h.aside, e7⟩

include hspec in
theorem processBase_processing {t u : ParseState} (h : Processing rep n s t) {c : QPath} {i : Nat}
    (hu : processBase o rep n c i t = (.ok (), u)) :
    Processing rep n s u ∧ (∀ x, HasSpec t x → HasSpec u x) ∧
      ∃ bases, t.classesBases.lookup c = some bases ∧ ∀ base, bases[i]? = some base →
        ∃ q, BaseResult rep n s u c base q ∧
          ∀ m path, m ≠ specPath → supersAt u m path =
            if m = c.1 ∧ path = c.2 then supersAt t m path ++ [q] else supersAt t m path := by
  unfold processBase at hu
  obtain ⟨bases, _, h1, g1⟩ := bind_ok hu
  obtain ⟨e1, rfl⟩ := item_out h1
  cases hbase : bases[i]? with
  | none =>
    rw [hbase] at g1
    cases g1
    exact ⟨h, fun _ hx => hx, bases, e1, fun base hb => by rw [hbase] at hb; cases hb⟩
  | some base =>
    rw [hbase] at g1
    obtain ⟨q, t2, h2, g2⟩ := bind_ok g1
    have e3 := update_ok g2
    obtain ⟨p2, r2, m2⟩ := registerBase_processing hspec h e1 (List.mem_of_getElem? hbase) h2
    have a2 := (registerBase_aside rep n _ _ _).of_eq h2
    refine ⟨?_, fun x hx => by rw [e3]; exact m2 x hx, bases, e1, fun base' hb => ⟨q, ?_, ?_⟩⟩
    · rw [e3]
      exact p2.same (addSuperclass_aside _ _ _ _) rfl rfl rfl (fun _ _ => rfl) p2.bases
    · rw [hbase] at hb
      cases hb
      rw [e3]
      exact r2
    · intro m path hm
      rw [e3, supersAt_add]
      simp only [supersAt, a2.supers.supers m hm]

theorem BaseResult.mono {t u : ParseState} {c : QPath} {base : Expr} {q : QPath}
    (h : BaseResult rep n s t c base q) (hm : ∀ x, HasSpec t x → HasSpec u x) :
    BaseResult rep n s u c base q :=
  ⟨fun v w l e => by
    obtain ⟨name, h1, h2, h3⟩ := h.1 v w l e
    exact ⟨name, h1, h2, hm name h3⟩, h.2⟩

include hspec in
/-- The bases from index `i` on of a class without type parameters. -/
theorem processRange_processing {c : QPath} (hc : c.1 ≠ specPath) : ∀ (k i : Nat) {t u : ParseState},
    Processing rep n s t → P.each (processBase o rep n c) (List.range' i k) t = (.ok (), u) →
    Processing rep n s u ∧ (∀ x, HasSpec t x → HasSpec u x) ∧
    (∀ m path, m ≠ specPath → ¬ (m = c.1 ∧ path = c.2) → supersAt u m path = supersAt t m path) ∧
    ∀ bases, s.generics.lookup c = none → s.classesBases.lookup c = some bases → i + k = bases.length →
      ∃ qs, supersAt u c.1 c.2 = supersAt t c.1 c.2 ++ qs ∧
        Pointwise (BaseResult rep n s u c) (bases.drop i) qs
  | 0, i, t, u, h, hu => by
    cases hu
    refine ⟨h, fun _ hx => hx, fun _ _ _ _ => rfl, fun bases _ _ hl => ⟨[], by simp, ?_⟩⟩
    rw [List.drop_eq_nil_of_le (by omega)]
    trivial
  | k + 1, i, t, u, h, hu => by
    rw [List.range'_succ] at hu
    obtain ⟨v, hv, hu⟩ := each_cons_ok hu
    obtain ⟨p1, m1, bases1, b1, r1⟩ := processBase_processing hspec h hv
    obtain ⟨p2, m2, o2, r2⟩ := processRange_processing hc k (i + 1) p1 hu
    have ho : ∀ m path, m ≠ specPath → ¬ (m = c.1 ∧ path = c.2) → supersAt v m path = supersAt t m path := by
      intro m path hm hmp
      cases hget : bases1[i]? with
      | some base =>
        obtain ⟨q, -, hq⟩ := r1 base hget
        rw [hq m path hm, if_neg hmp]
      | none =>
        have hpure : v = t := by
          unfold processBase at hv
          obtain ⟨bases, _, h1, g1⟩ := bind_ok hv
          obtain ⟨e1, rfl⟩ := item_out h1
          rw [b1] at e1
          cases e1
          rw [hget] at g1
          cases g1
          rfl
        rw [hpure]
    refine ⟨p2, fun x hx => m2 x (m1 x hx), fun m path hm hmp => (o2 m path hm hmp).trans (ho m path hm hmp),
      fun bases hg hb hl => ?_⟩
    have hlt : i < bases.length := by omega
    have hsame := h.kept c hg
    rw [b1, hb] at hsame
    injection hsame with hsame
    subst bases1
    obtain ⟨q, hq1, hq2⟩ := r1 bases[i] (List.getElem?_eq_getElem hlt)
    obtain ⟨qs, hqs, hp⟩ := r2 bases hg hb (by omega)
    refine ⟨q :: qs, ?_, ?_⟩
    · rw [hqs, hq2 c.1 c.2 hc, if_pos ⟨rfl, rfl⟩, List.append_assoc]; rfl
    · rw [List.drop_eq_getElem_cons hlt]
      exact ⟨hq1.mono m2, hp⟩

include hspec in
theorem processClass_processing {c : QPath} (hc : c.1 ≠ specPath) {t u : ParseState}
    (h : Processing rep n s t) (hu : processClass o rep n c t = (.ok (), u)) :
    Processing rep n s u ∧ (∀ x, HasSpec t x → HasSpec u x) ∧
    (∀ m path, m ≠ specPath → ¬ (m = c.1 ∧ path = c.2) → supersAt u m path = supersAt t m path) ∧
    ∀ bases, s.generics.lookup c = none → s.classesBases.lookup c = some bases →
      ∃ qs, supersAt u c.1 c.2 = supersAt t c.1 c.2 ++ qs ∧
        Pointwise (BaseResult rep n s u c) bases qs := by
  unfold processClass at hu
  obtain ⟨bases', _, h1, g1⟩ := bind_ok hu
  obtain ⟨e1, rfl⟩ := item_out h1
  rw [List.range_eq_range'] at g1
  obtain ⟨p, m, o, r⟩ := processRange_processing hspec hc _ 0 h g1
  refine ⟨p, m, o, fun bases hg hb => ?_⟩
  have hsame := h.kept c hg
  rw [e1, hb] at hsame
  injection hsame with hsame
  subst bases'
  exact r bases hg hb (by omega)

include hspec in
theorem processClasses_processing : ∀ (cs : List QPath) {t u : ParseState}, cs.Nodup →
    (∀ c ∈ cs, c.1 ≠ specPath) → Processing rep n s t →
    P.each (processClass o rep n) cs t = (.ok (), u) →
    Processing rep n s u ∧ (∀ x, HasSpec t x → HasSpec u x) ∧
    (∀ c : QPath, c.1 ≠ specPath → c ∉ cs → supersAt u c.1 c.2 = supersAt t c.1 c.2) ∧
    ∀ c ∈ cs, ∀ bases, s.generics.lookup c = none → s.classesBases.lookup c = some bases →
      ∃ qs, supersAt u c.1 c.2 = supersAt t c.1 c.2 ++ qs ∧
        Pointwise (BaseResult rep n s u c) bases qs
  | [], t, u, _, _, h, hu => by
    cases hu
    exact ⟨h, fun _ hx => hx, fun _ _ _ => rfl, by simp⟩
  | c :: cs, t, u, hn, hc, h, hu => by
    obtain ⟨v, hv, hu⟩ := each_cons_ok hu
    obtain ⟨p1, m1, o1, r1⟩ := processClass_processing hspec (hc c List.mem_cons_self) h hv
    obtain ⟨p2, m2, o2, r2⟩ := processClasses_processing cs (List.nodup_cons.1 hn).2
      (fun c hc' => hc c (List.mem_cons_of_mem _ hc')) p1 hu
    refine ⟨p2, fun x hx => m2 x (m1 x hx), fun d hd hm => ?_, fun d hd bases hg hb => ?_⟩
    · rw [o2 d hd fun hm' => hm (List.mem_cons_of_mem _ hm'), o1 d.1 d.2 hd]
      rintro ⟨e1, e2⟩
      exact hm (by rw [show d = c from Prod.ext e1 e2]; exact List.mem_cons_self)
    · by_cases hd' : d ∈ cs
      · obtain ⟨qs, h1, h2⟩ := r2 d hd' bases hg hb
        refine ⟨qs, ?_, h2⟩
        rw [h1, o1 d.1 d.2 (hc d hd)]
        rintro ⟨e1, e2⟩
        exact (List.nodup_cons.1 hn).1 (by rw [← show d = c from Prod.ext e1 e2]; exact hd')
      · obtain rfl : d = c := (List.mem_cons.1 hd).resolve_right hd'
        obtain ⟨qs, h1, h2⟩ := r1 bases hg hb
        refine ⟨qs, ?_, h2.imp fun _ _ _ _ hr => hr.mono m2⟩
        rw [o2 d (hc d List.mem_cons_self) hd', h1]

include hspec in
theorem processBases_processing {t : ParseState} (hn : (s.classesBases.map Prod.fst).Nodup)
    (hc : ∀ c, (s.classesBases.lookup c).isSome → c.1 ≠ specPath)
    (hu : processBases o rep n s = (.ok (), t)) {c : QPath} {bases : List Expr}
    (hg : s.generics.lookup c = none) (hb : s.classesBases.lookup c = some bases) :
    ∃ qs, supersAt t c.1 c.2 = supersAt s c.1 c.2 ++ qs ∧
      Pointwise (fun base q => BaseResult rep n s t c base q ∧
        ∀ name, q = (specPath, [name]) → HasSpec t name → BaseOrigin rep n s t name) bases qs := by
  unfold processBases at hu
  obtain ⟨_, t1, h1, g1⟩ := bind_ok hu
  have a1 := openSpecializations_aside.of_eq h1
  have hopen : t1.classesBases = s.classesBases ∧ t1.superclasses = s.superclasses ∧
      ∀ x, ¬ HasSpec t1 x := by
    unfold openSpecializations at h1
    obtain ⟨s0, s1, h0, g0⟩ := bind_ok h1
    cases h0
    split at g0
    · cases g0
    · split at g0
      · cases g0
      · split at g0
        · cases g0
        · split at g0
          · cases g0
          · cases g0
            refine ⟨rfl, rfl, fun x hx => ?_⟩
            rw [HasSpec, lookup_dictSet_self] at hx
            cases hx
  obtain ⟨s2, t2, h2, g2⟩ := bind_ok g1
  cases h2
  have p1 : Processing rep n s t1 :=
    ⟨a1, fun x hx => absurd hx (hopen.2.2 x), fun c _ => by rw [hopen.1],
      fun c bases hb b hm => .own (by rw [← hopen.1]; exact hb) hm⟩
  rw [hopen.1] at g2
  obtain ⟨p3, -, -, r3⟩ := processClasses_processing hspec _ hn (fun c hm => hc c (isSome_of_key hm)) p1 g2
  obtain ⟨qs, h3, h4⟩ := r3 c (List.mem_map.2 ⟨_, mem_of_lookup_some hb, rfl⟩) bases hg hb
  refine ⟨qs, ?_, h4.imp fun _ _ _ _ hr => ⟨hr, fun name _ hname => p3.origin name hname⟩⟩
  rw [h3]
  simp only [supersAt, hopen.2.1]

end

/-! ### Tables after reading -/

theorem keys_dictSet {α β : Type} [BEq α] [LawfulBEq α] (k : α) (v : β) : ∀ d : Dict α β, ∀ x,
    x ∈ (dictSet d k v).map Prod.fst → x = k ∨ x ∈ d.map Prod.fst
  | [], x, h => by simpa [dictSet] using h
  | (k', v') :: d, x, h => by
    rw [dictSet] at h
    split at h
    · right; exact h
    · rcases List.mem_cons.1 h with h | h
      · right; rw [h]; exact List.mem_cons_self
      · exact (keys_dictSet k v d x h).imp id (List.mem_cons_of_mem _)

theorem nodup_dictSet {α β : Type} [BEq α] [LawfulBEq α] (k : α) (v : β) : ∀ d : Dict α β,
    (d.map Prod.fst).Nodup → ((dictSet d k v).map Prod.fst).Nodup
  | [], _ => by simp [dictSet]
  | (k', v') :: d, h => by
    rw [dictSet]
    split
    · exact h
    · next hne =>
      have h := List.nodup_cons.1 h
      refine List.nodup_cons.2 ⟨fun hm => ?_, nodup_dictSet k v d h.2⟩
      rcases keys_dictSet k v d _ hm with e | hm
      · exact hne (by simpa using e)
      · exact h.1 hm

theorem isSome_dictSet {α β : Type} [BEq α] [LawfulBEq α] {d : Dict α β} {k x : α} {v : β}
    (h : (d.lookup x).isSome) : ((dictSet d k v).lookup x).isSome := by
  rw [lookup_dictSet]
  split
  · rfl
  · exact h

theorem isSome_of_dictSet {α β : Type} [BEq α] [LawfulBEq α] {d : Dict α β} {k x : α} {v : β}
    (h : ((dictSet d k v).lookup x).isSome) : x = k ∨ (d.lookup x).isSome := by
  rw [lookup_dictSet] at h
  split at h
  · next e => left; simpa using e
  · right; exact h

/-- Classes belong to modules that are known. -/
structure Tidy (s : ParseState) : Prop where
  nodup : (s.classesBases.map Prod.fst).Nodup
  bases : ∀ c, (s.classesBases.lookup c).isSome → (s.definitions.lookup c.1).isSome
  generics : ∀ c, (s.generics.lookup c).isSome → (s.definitions.lookup c.1).isSome

/-- Modules stay known. -/
def KnownStill (s t : ParseState) : Prop := ∀ m, (s.definitions.lookup m).isSome → (t.definitions.lookup m).isSome

theorem Tidy.known {s t : ParseState} (h : Tidy s) (hk : KnownStill s t) (hb : t.classesBases = s.classesBases)
    (hg : t.generics = s.generics) : Tidy t :=
  ⟨by rw [hb]; exact h.nodup, fun c hc => hk _ (h.bases c (by rw [← hb]; exact hc)),
    fun c hc => hk _ (h.generics c (by rw [← hg]; exact hc))⟩

/-- What happens while the module `m` is read. -/
def TidyIn (m : Path) (s t : ParseState) : Prop :=
  KnownStill s t ∧ ((s.definitions.lookup m).isSome → Tidy s → Tidy t)

theorem tidyIn_preorder (m : Path) : Preorder' (TidyIn m) :=
  ⟨fun _ => ⟨fun _ h => h, fun _ h => h⟩, fun h h' => ⟨fun m hm => h'.1 m (h.1 m hm),
    fun hm ht => h'.2 (h.1 m hm) (h.2 hm ht)⟩⟩

theorem TidyIn.same {m : Path} {s t : ParseState} (hk : KnownStill s t) (hb : t.classesBases = s.classesBases)
    (hg : t.generics = s.generics) : TidyIn m s t := ⟨hk, fun _ h => h.known hk hb hg⟩

theorem known_definition (c : Place) (path : Path) (s : ParseState) : KnownStill s (addDefinition c path s) :=
  fun _ h => isSome_dictSet h

theorem tidyIn_base {m : Path} {s t : ParseState} {p : Path} {v : List Expr}
    (hb : t.classesBases = dictSet s.classesBases (m, p) v) (hd : t.definitions = s.definitions)
    (hg : t.generics = s.generics) : TidyIn m s t := by
  refine ⟨fun _ h => by rw [hd]; exact h, fun hm h => ⟨?_, fun c hc => ?_, fun c hc => ?_⟩⟩
  · rw [hb]; exact nodup_dictSet _ _ _ h.nodup
  · rw [hb] at hc
    rw [hd]
    rcases isSome_of_dictSet hc with rfl | hc
    · exact hm
    · exact h.bases c hc
  · rw [hd]; exact h.generics c (by rw [← hg]; exact hc)

theorem tidy_rels (E : StubFiles) : Rels E (fun c => TidyIn c.module) (fun c _ => TidyIn c.module)
    (fun s t => KnownStill s t ∧ (Tidy s → Tidy t)) where
  preV c := tidyIn_preorder _
  preW c _ := tidyIn_preorder _
  preR := ⟨fun _ => ⟨fun _ h => h, fun h => h⟩, fun h h' => ⟨fun m hm => h'.1 m (h.1 m hm),
    fun ht => h'.2 (h.2 ht)⟩⟩
  RV _ _ _ h := ⟨h.1, fun _ => h.2⟩
  RW _ _ _ _ h := ⟨h.1, fun _ => h.2⟩
  updates c := {
    definition := fun path s => .same (known_definition c path s) rfl rfl
    reference := fun _ _ _ => .same (fun _ h => h) rfl rfl
    submodule := fun _ _ => .same (fun _ h => h) rfl rfl
    node := fun path _ _ _ => .same (known_definition c path _) rfl rfl }
  definition c _ path s := .same (known_definition c path s) rfl rfl
  baseUpdates c name := {
    base := fun _ _ => tidyIn_base rfl rfl rfl
    tuple := fun _ _ _ => .same (fun _ h => h) rfl rfl
    clear := fun _ => tidyIn_base rfl rfl rfl
    generics := fun ps s => by
      refine ⟨fun _ h => h, fun hm h => ⟨h.nodup, h.bases, fun d hd => ?_⟩⟩
      rcases isSome_of_dictSet hd with rfl | hd
      · exact hm
      · exact h.generics d hd }
  head c name s t h := by
    have hk : KnownStill s (addDefinition c [name] (addKind c [name] .class_ s)) := known_definition c [name] _
    exact ⟨fun m hm => h.1 m (hk m hm), fun hm ht => h.2 (hk _ hm) (ht.known hk rfl rfl)⟩
  child _ _ _ _ h := h
  asked _ _ _ _ := ⟨fun _ h => h, fun h => h.known (fun _ h => h) rfl rfl⟩
  started m s t _ _ h := by
    have hk : KnownStill s (started m s) := fun _ h => isSome_dictSet h
    refine ⟨fun m hm => h.1 m (hk m hm), fun ht => h.2 ?_ (ht.known hk rfl rfl)⟩
    show ((dictSet s.definitions m (.mk [])).lookup m).isSome
    rw [lookup_dictSet_self]
    rfl

theorem parseAll_tidy {E : StubFiles} {n : Nat} {modules : List Path} {r : Except PyErr Unit}
    {s : ParseState} (h : parseAll E n modules {} = (r, s)) : Tidy s :=
  ((parseAll_pres (tidy_rels E).preR (parsing_rels (tidy_rels E) n).2.2 modules).of_eq h).2
    ⟨List.nodup_nil, fun _ h => (by cases h), fun _ h => (by cases h)⟩

theorem Aside.since {s u : ParseState} (h : Aside MoreSupers s u) : Since s u :=
  ⟨h.definitions, h.references, h.submodules, h.supers.supers⟩

theorem Spec.Since.means {n : Nat} {s u : ParseState} {c : QPath} {e : Expr} {q q' : QPath} {path : Path}
    (h : Since s u) (hm : BaseMeans n s c e q') (hp : dotted e = some path)
    (hq : resolve u.tables n c.1 c.2.dropLast path [] = .ok q) : q = q' := by
  obtain ⟨p, hp', hr⟩ := hm
  rw [hp] at hp'
  cases hp'
  have := hr u.tables h.definitions h.references h.submodules
  rw [hq] at this
  cases this
  rfl

theorem parseStubs_ok {E : StubFiles} {rep : Atom → String} {n : Nat} {modules : List Path} {T : Stubs}
    (h : parseStubs E rep n modules = .ok T) : ∃ s t, parseAll E n modules {} = (.ok (), s) ∧
      processBases ⟨E.order, E.order_perm⟩ rep n s = (.ok (), t) ∧
      T = { t.tables with rawAstNodes := t.nodes, nodesKinds := t.kinds } := by
  unfold parseStubs at h
  split at h
  · cases h
  · next t ht =>
    obtain ⟨_, s, h1, h2⟩ := bind_ok ht
    cases h
    exact ⟨s, t, h1, h2, rfl⟩

theorem openSpecializations_none {s u : ParseState} (h : openSpecializations s = (.ok (), u)) :
    s.definitions.lookup specPath = none := by
  unfold openSpecializations at h
  obtain ⟨s0, s1, h0, g0⟩ := bind_ok h
  cases h0
  split at g0
  · cases g0
  · split at g0
    · cases g0
    · next hn =>
      cases hd : s.definitions.lookup specPath with
      | none => rfl
      | some _ => rw [hd] at hn; exact absurd rfl hn

end Paradigm
