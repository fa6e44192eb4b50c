import Verif.Model.Specialization
import Verif.Spec.Substitution
import Verif.Lemmas.Terminates
import Verif.Lemmas.Bind
import Verif.Lemmas.Pointwise

/-!
# Lemmas about specialised generic classes
-/

namespace Paradigm

open Spec

variable {o : SetOrder}

/-! ### Substitution -/

/-- Nothing is replaced in a dotted name none of whose beginnings is a parameter. -/
theorem subst_dotted (σ : Path → Option Expr) : ∀ {e : Expr} {p : Path}, dotted e = some p →
    (∀ k, σ (p.take (k + 1)) = none) → subst σ e = e
  | .name id load, p, h, hp => by
    simp only [dotted, Option.some.injEq] at h
    subst h
    have : σ [id] = none := hp 0
    rw [subst, this]
    cases load <;> rfl
  | .attribute value attr load, p, h, hp => by
    have h0 := h
    rw [dotted] at h
    cases hv : dotted value with
    | none => rw [hv] at h; cases h
    | some q =>
      rw [hv] at h
      simp only [Option.map_some, Option.some.injEq] at h
      have hlen : p.take (p.length) = p := List.take_length
      have hpos : p.length = q.length + 1 := by rw [← h]; simp
      have hσ : σ p = none := by
        have := hp q.length
        rwa [← hpos, hlen] at this
      have hq : ∀ k, σ (q.take (k + 1)) = none := by
        intro k
        by_cases hk : k + 1 ≤ q.length
        · have := hp k
          rwa [← h, List.take_append_of_le_length hk] at this
        · have hq0 : q ≠ [] := by
            intro e
            subst e
            cases value <;> simp [dotted] at hv
          obtain ⟨m, hm⟩ : ∃ m, q.length = m + 1 :=
            ⟨q.length - 1, by have := List.length_pos_iff.2 hq0; omega⟩
          have := hp m
          rw [← h, List.take_append_of_le_length (by omega), ← hm, List.take_length] at this
          rwa [List.take_of_length_le (by omega)]
      have h1 : (if load then (dotted (.attribute value attr load)).bind σ else none) = none := by
        rw [h0]
        cases load
        · rfl
        · exact hσ
      rw [subst, h1, subst_dotted σ hv hq]
  | .subscript .., _, h, _ => by cases h
  | .tuple .., _, h, _ => by cases h
  | .list _, _, h, _ => by cases h
  | .call .., _, h, _ => by cases h
  | .constant _, _, h, _ => by cases h
  | .binOp .., _, h, _ => by cases h
  | .other .., _, h, _ => by cases h

theorem Spec.PlainAttributes.child {σ : Path → Option Expr} {e c : Expr} (h : PlainAttributes σ e)
    (hc : c ∈ e.children) : PlainAttributes σ c := by
  intro v a l hx
  refine h v a l ?_
  rw [subtrees_eq]
  exact List.mem_cons_of_mem _ (List.mem_flatMap.2 ⟨c, hc, hx⟩)

mutual

theorem specialize_subst (table : Dict Path Expr) : ∀ e : Expr,
    PlainAttributes (table.lookup ·) e → specialize table e = .ok (subst (table.lookup ·) e)
  | .name id load, _ => by
    cases load
    · rfl
    · rw [specialize, subst]
      simp only [Bool.not_true, Bool.false_eq_true, if_false, if_true]
      cases table.lookup [id] <;> rfl
  | .attribute value attr load, h => by
    obtain ⟨p, hp, hn⟩ := h value attr load (by rw [subtrees_eq]; exact List.mem_cons_self)
    cases load with
    | false => rw [specialize, subst]; simp [subst_dotted (fun x => List.lookup x table) hp hn]
    | true =>
      have hd : dotted (.attribute value attr true) = some (p ++ [attr]) := by
        rw [dotted, hp]; rfl
      rw [specialize, subst, toPath_of_dotted hd, hd]
      simp only [Bool.not_true, Bool.false_eq_true, if_false, if_true, Option.bind_some]
      cases table.lookup (p ++ [attr]) with
      | none => rw [subst_dotted (fun x => List.lookup x table) hp hn]
      | some e => rfl
  | .subscript value slice load, h => by
    rw [specialize, subst, specialize_subst table value (h.child (by simp [Expr.children])),
      specialize_subst table slice (h.child (by simp [Expr.children]))]
    rfl
  | .tuple elts load, h => by
    rw [specialize, subst, specializeAll_subst table elts fun e he => h.child he]
    rfl
  | .list elts, h => by
    rw [specialize, subst, specializeAll_subst table elts fun e he => h.child he]
    rfl
  | .call func args keywords, h => by
    rw [specialize, subst, specialize_subst table func (h.child (by simp [Expr.children])),
      specializeAll_subst table args fun e he => h.child (by simp [Expr.children, he]),
      specializeKeywords_subst table keywords fun k e he => h.child (by
        simp only [Expr.children, List.mem_append, List.mem_cons, List.mem_map]
        exact .inr ⟨_, he, rfl⟩)]
    rfl
  | .constant value, _ => rfl
  | .binOp left op right, h => by
    rw [specialize, subst, specialize_subst table left (h.child (by simp [Expr.children])),
      specialize_subst table right (h.child (by simp [Expr.children]))]
    rfl
  | .other tag children, h => by
    rw [specialize, subst, specializeAll_subst table children fun e he => h.child he]
    rfl

theorem specializeAll_subst (table : Dict Path Expr) : ∀ es : List Expr,
    (∀ e ∈ es, PlainAttributes (table.lookup ·) e) →
      specializeAll table es = .ok (substAll (table.lookup ·) es)
  | [], _ => rfl
  | e :: es, h => by
    rw [specializeAll, substAll, specialize_subst table e (h e List.mem_cons_self),
      specializeAll_subst table es fun x hx => h x (List.mem_cons_of_mem _ hx)]
    rfl

theorem specializeKeywords_subst (table : Dict Path Expr) : ∀ ks : List (Option String × Expr),
    (∀ k e, (k, e) ∈ ks → PlainAttributes (table.lookup ·) e) →
      specializeKeywords table ks = .ok (substKw (table.lookup ·) ks)
  | [], _ => rfl
  | (k, e) :: ks, h => by
    rw [specializeKeywords, substKw, specialize_subst table e (h k e List.mem_cons_self),
      specializeKeywords_subst table ks fun k e hx => h k e (List.mem_cons_of_mem _ hx)]
    rfl

end

theorem substAll_eq (σ : Path → Option Expr) : ∀ es : List Expr, substAll σ es = es.map (subst σ)
  | [] => rfl
  | e :: es => by rw [substAll, substAll_eq σ es]; rfl

theorem specializeOption_subst (table : Dict Path Expr) (e : Option Expr)
    (h : ∀ x ∈ e, PlainAttributes (table.lookup ·) x) :
    specializeOption table e = .ok (e.map (subst (table.lookup ·))) := by
  cases e with
  | none => rfl
  | some e => rw [specializeOption, specialize_subst table e (h e rfl)]; rfl

theorem specializeArg_subst (table : Dict Path Expr) (a : Arg)
    (h : ∀ x ∈ a.annotation, PlainAttributes (table.lookup ·) x) :
    specializeArg table a = .ok (substArg (table.lookup ·) a) := by
  rw [specializeArg, specializeOption_subst table _ h]; rfl

theorem specializeArgOption_subst (table : Dict Path Expr) (a : Option Arg)
    (h : ∀ a' ∈ a, ∀ x ∈ a'.annotation, PlainAttributes (table.lookup ·) x) :
    specializeArgOption table a = .ok (a.map (substArg (table.lookup ·))) := by
  cases a with
  | none => rfl
  | some a => rw [specializeArgOption, specializeArg_subst table a (h a rfl)]; rfl

theorem specializeFunction_subst (table : Dict Path Expr) (f : FunctionDef)
    (h : ∀ e ∈ exprsOf (.functionDef f), PlainAttributes (table.lookup ·) e) :
    specializeFunction table f = .ok (substFunction (table.lookup ·) f) := by
  have hargs : ∀ a ∈ f.args.posonlyargs ++ f.args.args ++ f.args.vararg.toList ++ f.args.kwonlyargs
        ++ f.args.kwarg.toList, ∀ x ∈ a.annotation, PlainAttributes (table.lookup ·) x := by
    intro a ha x hx
    refine h x ?_
    have : x ∈ (f.args.posonlyargs ++ f.args.args ++ f.args.vararg.toList ++ f.args.kwonlyargs
        ++ f.args.kwarg.toList).filterMap Arg.annotation := List.mem_filterMap.2 ⟨a, ha, hx⟩
    simp only [exprsOf, List.mem_append]
    exact .inl (.inl (.inl (.inl this)))
  have h1 : mapExcept (specializeArg table) f.args.posonlyargs = .ok _ :=
    mapExcept_ok _ (substArg (table.lookup ·)) _ fun a ha =>
      specializeArg_subst table a (hargs a (by simp [ha]))
  have h2 : mapExcept (specializeArg table) f.args.args = .ok _ :=
    mapExcept_ok _ (substArg (table.lookup ·)) _ fun a ha =>
      specializeArg_subst table a (hargs a (by simp [ha]))
  have h3 := specializeArgOption_subst table f.args.vararg fun a ha =>
    hargs a (by simp only [List.mem_append, Option.mem_toList]; exact .inl (.inl (.inr ha)))
  have h4 : mapExcept (specializeArg table) f.args.kwonlyargs = .ok _ :=
    mapExcept_ok _ (substArg (table.lookup ·)) _ fun a ha =>
      specializeArg_subst table a (hargs a (by simp [ha]))
  have h5 : mapExcept (specializeOption table) f.args.kwDefaults = .ok _ :=
    mapExcept_ok _ (·.map (subst (table.lookup ·))) _ fun e he =>
      specializeOption_subst table e fun x hx => h x (by
        simp only [exprsOf, List.mem_append]
        exact .inl (.inl (.inl (.inr (List.mem_filterMap.2 ⟨e, he, hx⟩)))))
  have h6 := specializeArgOption_subst table f.args.kwarg fun a ha =>
    hargs a (by simp only [List.mem_append, Option.mem_toList]; exact .inr ha)
  have h7 := specializeAll_subst table f.args.defaults fun e he => h e (by
    simp only [exprsOf, List.mem_append]; exact .inl (.inl (.inr he)))
  have h8 := specializeAll_subst table f.decorators fun e he => h e (by
    simp only [exprsOf, List.mem_append]; exact .inl (.inr he))
  have h9 := specializeOption_subst table f.returns fun e he => h e (by
    simp only [exprsOf, List.mem_append, Option.mem_toList]; exact .inr he)
  rw [specializeFunction, h1, h2, h3, h4, h5, h6, h7, h8, h9, substAll_eq, substAll_eq]
  rfl

theorem specializeStmt_subst (table : Dict Path Expr) (node : Stmt)
    (h : ∀ e ∈ exprsOf node, PlainAttributes (table.lookup ·) e) :
    specializeStmt table node = .ok (substStmt (table.lookup ·) node) := by
  cases node
  case functionDef f => rw [specializeStmt, specializeFunction_subst table f h]; rfl
  case annAssign target annotation value =>
    rw [specializeStmt, specialize_subst table target (h _ (by simp [exprsOf])),
      specialize_subst table annotation (h _ (by simp [exprsOf])),
      specializeOption_subst table value fun x hx => h x (by
        simp only [exprsOf, List.mem_cons, Option.mem_toList]; exact .inr (.inr hx))]
    rfl
  case assign targets value =>
    rw [specializeStmt, specialize_subst table value (h _ (by simp [exprsOf])),
      specializeAll_subst table targets fun x hx => h x (by simp [exprsOf, hx]), substAll_eq]
    rfl
  all_goals rfl

/-! ### Other modules are left alone -/

/-- But for `__specializations` and the nodes of the bases, the tables are the same; superclasses
may differ as `R` says. -/
structure Aside (R : ParseState → ParseState → Prop) (s t : ParseState) : Prop where
  nodes : ∀ m, m ≠ specPath → t.nodes.lookup m = s.nodes.lookup m
  kinds : ∀ m, m ≠ specPath → t.kinds.lookup m = s.kinds.lookup m
  definitions : ∀ m, m ≠ specPath → t.definitions.lookup m = s.definitions.lookup m
  references : ∀ m, m ≠ specPath → t.references.lookup m = s.references.lookup m
  submodules : t.submodules = s.submodules
  generics : t.generics = s.generics
  visited : t.visited = s.visited
  reads : t.reads = s.reads
  supers : R s t

theorem aside_preorder {R : ParseState → ParseState → Prop} (hR : Preorder' R) :
    Preorder' (Aside R) where
  refl s := ⟨fun _ _ => rfl, fun _ _ => rfl, fun _ _ => rfl, fun _ _ => rfl, rfl, rfl, rfl, rfl,
    hR.refl s⟩
  trans h h' := ⟨fun m hm => (h'.nodes m hm).trans (h.nodes m hm),
    fun m hm => (h'.kinds m hm).trans (h.kinds m hm),
    fun m hm => (h'.definitions m hm).trans (h.definitions m hm),
    fun m hm => (h'.references m hm).trans (h.references m hm),
    h'.submodules.trans h.submodules, h'.generics.trans h.generics, h'.visited.trans h.visited,
    h'.reads.trans h.reads, hR.trans h.supers h'.supers⟩

theorem Aside.mono {R R' : ParseState → ParseState → Prop} {s t : ParseState} (h : Aside R s t)
    (hR : R s t → R' s t) : Aside R' s t :=
  ⟨h.nodes, h.kinds, h.definitions, h.references, h.submodules, h.generics, h.visited, h.reads,
    hR h.supers⟩

/-- The recorded superclasses and the bases are the same. -/
def SameSupers (s t : ParseState) : Prop :=
  t.superclasses = s.superclasses ∧ t.classesBases = s.classesBases

theorem sameSupers_preorder : Preorder' SameSupers where
  refl _ := ⟨rfl, rfl⟩
  trans h h' := ⟨h'.1.trans h.1, h'.2.trans h.2⟩

section updates

variable {R : ParseState → ParseState → Prop}

theorem setSpecReference_aside (path : Path) (q : QPath) (s : ParseState) :
    Aside SameSupers s (setSpecReference path q s) :=
  ⟨fun _ _ => rfl, fun _ _ => rfl, fun _ _ => rfl,
    fun _ hm => by
      simp only [setSpecReference, lookup_dictUpdate_ne _ _ _ hm], rfl, rfl, rfl, rfl, rfl, rfl⟩

theorem setSpecNodes_aside (path : Path) (nodes : List Stmt) (s : ParseState) :
    Aside SameSupers s (setSpecNodes path nodes s) :=
  ⟨fun _ hm => by
      simp only [setSpecNodes, lookup_dictUpdate_ne _ _ _ hm], fun _ _ => rfl, fun _ _ => rfl, fun _ _ => rfl,
    rfl, rfl, rfl, rfl, rfl, rfl⟩

theorem setSpecKind_aside (path : Path) (kind : NodeKind) (s : ParseState) :
    Aside SameSupers s (setSpecKind path kind s) :=
  ⟨fun _ _ => rfl, fun _ hm => by
      simp only [setSpecKind, lookup_dictUpdate_ne _ _ _ hm], fun _ _ => rfl, fun _ _ => rfl,
    rfl, rfl, rfl, rfl, rfl, rfl⟩

theorem setSpecScope_aside (f : Scope → Scope) (s : ParseState) :
    Aside SameSupers s (setSpecScope f s) :=
  ⟨fun _ _ => rfl, fun _ _ => rfl, fun _ hm => by
      simp only [setSpecScope, lookup_dictUpdate_ne _ _ _ hm], fun _ _ => rfl,
    rfl, rfl, rfl, rfl, rfl, rfl⟩

end updates

theorem Pres.resolveNow {R : ParseState → ParseState → Prop} (hR : Preorder' R) (n : Nat)
    (m parent object : Path) : Pres R (resolveNow n m parent object) := fun s => hR.refl s

theorem registerDependency_aside (n : Nat) (gm sm : Path) (names : List String) (name : String) :
    Pres (Aside SameSupers) (registerDependency n gm sm names name) := by
  have hR := aside_preorder sameSupers_preorder
  refine Pres.bind hR (Pres.resolveNow hR _ _ _ _) fun q => ?_
  split
  · exact Pres.update (setSpecReference_aside _ _)
  · exact Pres.pure' hR _

theorem registerMember_aside (n : Nat) (gm go sm so : Path) (table : Dict Path Expr)
    (names : List String) (nodes : Dict Path (List Stmt)) (name : String) :
    Pres (Aside SameSupers) (registerMember o n gm go sm so table names nodes name) := by
  have hR := aside_preorder sameSupers_preorder
  unfold registerMember
  exact Pres.bind hR (Pres.lift hR _) fun g => Pres.bind hR (Pres.lift hR _) fun new =>
    Pres.bind hR (Pres.update (setSpecNodes_aside _ _)) fun _ => Pres.bind hR (Pres.lift hR _)
    fun defined => Pres.bind hR (Pres.each hR _ fun _ _ => registerDependency_aside _ _ _ _ _)
    fun _ => Pres.bind hR (Pres.item hR ParseState.kinds gm) fun kinds =>
    Pres.bind hR (Pres.lift hR _) fun kind => Pres.update (setSpecKind_aside _ _)

theorem registerGeneric_aside (n : Nat) (gm go sm so : Path) (params : List Path)
    (args : List Expr) : Pres (Aside SameSupers) (registerGeneric o n gm go sm so params args) := by
  have hR := aside_preorder sameSupers_preorder
  unfold registerGeneric
  refine Pres.bind hR (Pres.update (setSpecScope_aside _)) fun _ => Pres.bind hR (Pres.item hR _ _)
    fun defs => ?_
  split
  · exact Pres.fail hR _
  · exact Pres.bind hR (Pres.update (setSpecScope_aside _)) fun _ =>
      Pres.bind hR (Pres.item hR _ _) fun nodes =>
      Pres.bind hR (Pres.update (setSpecKind_aside _ _)) fun _ =>
      Pres.each hR _ fun _ _ => registerMember_aside _ _ _ _ _ _ _ _ _

/-- Superclasses recorded for classes of other modules are the same; classes keep the number of
their bases. -/
structure OtherSupers (s t : ParseState) : Prop where
  supers : ∀ m, m ≠ specPath → t.superclasses.lookup m = s.superclasses.lookup m
  bases : ∀ c l, s.classesBases.lookup c = some l →
    ∃ l', t.classesBases.lookup c = some l' ∧ l'.length = l.length

theorem otherSupers_preorder : Preorder' OtherSupers where
  refl _ := ⟨fun _ _ => rfl, fun _ l h => ⟨l, h, rfl⟩⟩
  trans h h' := ⟨fun m hm => (h'.supers m hm).trans (h.supers m hm), fun c l hl => by
    obtain ⟨l1, h1, e1⟩ := h.bases c l hl
    obtain ⟨l2, h2, e2⟩ := h'.bases c l1 h1
    exact ⟨l2, h2, e2.trans e1⟩⟩

theorem SameSupers.other {s t : ParseState} (h : SameSupers s t) : OtherSupers s t :=
  ⟨fun m _ => by rw [h.1], fun c l hl => ⟨l, by rw [h.2, hl], rfl⟩⟩

theorem Pres.isRegistered {R : ParseState → ParseState → Prop} (hR : Preorder' R) (name : String) :
    Pres R (isRegistered name) :=
  Pres.bind hR (Pres.item hR _ _) fun _ => Pres.pure' hR _

theorem addSpecSuperclass_aside (name : Path) (q : QPath) (s : ParseState) :
    Aside OtherSupers s (addSuperclass specPath name q s) :=
  ⟨fun _ _ => rfl, fun _ _ => rfl, fun _ _ => rfl, fun _ _ => rfl, rfl, rfl, rfl, rfl,
    ⟨fun _ hm => by simp only [addSuperclass, lookup_dictUpdate_ne _ _ _ hm],
     fun _ l h => ⟨l, h, rfl⟩⟩⟩

theorem setBase_aside (c : QPath) (i : Nat) (base : Expr) (s : ParseState) :
    Aside OtherSupers s (setBase c i base s) := by
  refine ⟨fun _ _ => rfl, fun _ _ => rfl, fun _ _ => rfl, fun _ _ => rfl, rfl, rfl, rfl, rfl,
    fun _ _ => rfl, fun c' l h => ?_⟩
  by_cases hc : c' = c
  · subst hc
    refine ⟨l.set i base, ?_, by simp⟩
    simp only [setBase, lookup_dictUpdate_self, h, Option.getD_some]
  · exact ⟨l, by simp only [setBase, lookup_dictUpdate_ne _ _ _ hc, h], rfl⟩

section

variable (rep : Atom → String) (n : Nat)

theorem registerSubscript_aside (g : QPath) (cm : Path) (table : Dict Path Expr) (i : Nat)
    (value slice : Expr) (load : Bool) :
    Pres (Aside OtherSupers) (registerSubscript o rep n g cm table i value slice load) := by
  have hR := aside_preorder otherSupers_preorder
  unfold registerSubscript
  refine Pres.bind hR (Pres.lift hR _) fun _ => Pres.bind hR (Pres.lift hR _) fun _ =>
    Pres.bind hR (Pres.update (setBase_aside _ _ _)) fun _ => Pres.bind hR (Pres.lift hR _)
    fun _ => Pres.bind hR (Pres.isRegistered hR _) fun b => ?_
  split
  · exact Pres.pure' hR _
  · exact Pres.bind hR (Pres.lift hR _) fun _ => Pres.bind hR (Pres.resolveNow hR _ _ _ _)
      fun q => Pres.bind hR (Pres.item hR ParseState.generics q) fun _ =>
      Pres.bind hR ((registerGeneric_aside _ _ _ _ _ _ _).mono fun _ _ h => h.mono SameSupers.other) fun _ =>
      Pres.pure' hR _

theorem baseBasePath_aside (g : QPath) (cm : Path) (table : Dict Path Expr) (b : Expr × Nat) :
    Pres (Aside OtherSupers) (baseBasePath o rep n g cm table b) := by
  have hR := aside_preorder otherSupers_preorder
  unfold baseBasePath
  split
  · exact registerSubscript_aside rep n _ _ _ _ _ _ _
  · exact Pres.bind hR (Pres.lift hR _) fun _ => Pres.resolveNow hR _ _ _ _

theorem registerBaseBase_aside (g : QPath) (cm : Path) (name : String) (table : Dict Path Expr)
    (b : Expr × Nat) : Pres (Aside OtherSupers) (registerBaseBase o rep n g cm name table b) :=
  Pres.bind (aside_preorder otherSupers_preorder) (baseBasePath_aside rep n _ _ _ _) fun _ =>
    Pres.update (addSpecSuperclass_aside _ _)

theorem registerNew_aside (name : String) (value slice : Expr) (cm co : Path) :
    Pres (Aside OtherSupers) (registerNew o rep n name value slice cm co) := by
  have hR := aside_preorder otherSupers_preorder
  unfold registerNew
  refine Pres.bind hR (Pres.lift hR _) fun _ => Pres.bind hR (Pres.resolveNow hR _ _ _ _)
      fun q => Pres.bind hR (Pres.item hR ParseState.generics q) fun _ =>
      Pres.bind hR ((registerGeneric_aside _ _ _ _ _ _ _).mono fun _ _ h => h.mono SameSupers.other) fun _ =>
      Pres.bind hR (Pres.get hR) fun s => ?_
  split
  · exact Pres.fail hR _
  · exact Pres.bind hR (Pres.item hR ParseState.classesBases q) fun _ => Pres.each hR _ fun _ _ =>
      registerBaseBase_aside rep n _ _ _ _ _

theorem registerBase_aside (base : Expr) (cm co : Path) :
    Pres (Aside OtherSupers) (registerBase o rep n base cm co) := by
  have hR := aside_preorder otherSupers_preorder
  unfold registerBase
  split
  · refine Pres.bind hR (Pres.lift hR _) fun _ => Pres.bind hR (Pres.isRegistered hR _) fun b => ?_
    split
    · exact Pres.pure' hR _
    · exact Pres.bind hR (registerNew_aside rep n _ _ _ _ _) fun _ => Pres.pure' hR _
  · exact Pres.bind hR (Pres.lift hR _) fun _ => Pres.resolveNow hR _ _ _ _

end

/-- Superclasses are only added, at the end. -/
structure MoreSupers (s t : ParseState) : Prop where
  supers : ∀ m path, m ≠ specPath → supersAt s m path <+: supersAt t m path
  bases : ∀ c l, s.classesBases.lookup c = some l →
    ∃ l', t.classesBases.lookup c = some l' ∧ l'.length = l.length

theorem moreSupers_preorder : Preorder' MoreSupers where
  refl _ := ⟨fun _ _ _ => List.prefix_refl _, fun _ l h => ⟨l, h, rfl⟩⟩
  trans h h' := ⟨fun m p hm => (h.supers m p hm).trans (h'.supers m p hm), fun c l hl => by
    obtain ⟨l1, h1, e1⟩ := h.bases c l hl
    obtain ⟨l2, h2, e2⟩ := h'.bases c l1 h1
    exact ⟨l2, h2, e2.trans e1⟩⟩

theorem OtherSupers.more {s t : ParseState} (h : OtherSupers s t) : MoreSupers s t :=
  ⟨fun m p hm => by rw [supersAt, supersAt, h.supers m hm]; exact List.prefix_refl _, h.bases⟩

theorem supersAt_add (s : ParseState) (m child : Path) (q : QPath) (m' path : Path) :
    supersAt (addSuperclass m child q s) m' path
      = if m' = m ∧ path = child then supersAt s m' path ++ [q] else supersAt s m' path := by
  unfold supersAt addSuperclass
  by_cases hm : m' = m
  · subst hm
    rw [lookup_dictUpdate_self, Option.getD_some]
    by_cases hp : path = child
    · subst hp
      rw [lookup_dictUpdate_self, Option.getD_some, if_pos ⟨rfl, rfl⟩]
    · rw [lookup_dictUpdate_ne _ _ _ hp, if_neg fun h => hp h.2]
  · rw [lookup_dictUpdate_ne _ _ _ hm, if_neg fun h => hm h.1]

theorem addSuperclass_aside (m child : Path) (q : QPath) (s : ParseState) :
    Aside MoreSupers s (addSuperclass m child q s) := by
  refine ⟨fun _ _ => rfl, fun _ _ => rfl, fun _ _ => rfl, fun _ _ => rfl, rfl, rfl, rfl, rfl,
    fun m' p _ => ?_, fun _ l h => ⟨l, h, rfl⟩⟩
  rw [supersAt_add]
  split
  · exact List.prefix_append _ _
  · exact List.prefix_refl _

theorem processClass_aside (rep : Atom → String) (n : Nat) (c : QPath) :
    Pres (Aside MoreSupers) (processClass o rep n c) := by
  have hR := aside_preorder moreSupers_preorder
  refine Pres.bind hR (Pres.item hR _ _) fun bases => Pres.each hR _ fun i _ => ?_
  unfold processBase
  refine Pres.bind hR (Pres.item hR ParseState.classesBases c) fun bases => ?_
  split
  · exact Pres.pure' hR _
  · exact Pres.bind hR ((registerBase_aside rep n _ _ _).mono fun _ _ h => h.mono OtherSupers.more) fun _ =>
      Pres.update (addSuperclass_aside _ _ _)

theorem openSpecializations_aside : Pres (Aside MoreSupers) openSpecializations := by
  have hR := aside_preorder moreSupers_preorder
  refine Pres.bind hR (Pres.get hR) fun s => ?_
  iterate 4
    split
    · exact Pres.fail hR _
  refine Pres.update fun s => ?_
  exact ⟨fun _ hm => lookup_dictSet_ne _ _ hm, fun _ hm => lookup_dictSet_ne _ _ hm,
    fun _ hm => lookup_dictSet_ne _ _ hm, fun _ hm => lookup_dictSet_ne _ _ hm, rfl, rfl, rfl, rfl,
    fun _ _ _ => List.prefix_refl _, fun _ l h => ⟨l, h, rfl⟩⟩

theorem processBases_aside (rep : Atom → String) (n : Nat) :
    Pres (Aside MoreSupers) (processBases o rep n) := by
  have hR := aside_preorder moreSupers_preorder
  exact Pres.bind hR openSpecializations_aside fun _ => Pres.bind hR (Pres.get hR) fun s =>
    Pres.each hR _ fun c _ => processClass_aside rep n c

/-! ### The members of a specialised class -/

/-- Only references differ. -/
structure RefsOnly (s t : ParseState) : Prop where
  nodes : t.nodes = s.nodes
  kinds : t.kinds = s.kinds
  definitions : t.definitions = s.definitions

theorem refsOnly_preorder : Preorder' RefsOnly where
  refl _ := ⟨rfl, rfl, rfl⟩
  trans h h' := ⟨h'.1.trans h.1, h'.2.trans h.2, h'.3.trans h.3⟩

theorem registerDependency_refs (n : Nat) (gm sm : Path) (names : List String) (name : String) :
    Pres RefsOnly (registerDependency n gm sm names name) := by
  refine Pres.bind refsOnly_preorder (Pres.resolveNow refsOnly_preorder _ _ _ _) fun q => ?_
  split
  · exact Pres.update fun s => ⟨rfl, rfl, rfl⟩
  · exact Pres.pure' refsOnly_preorder _

theorem itemOf_ok {α β : Type} [BEq α] {d : Dict α β} {k : α} {v : β} (h : itemOf d k = .ok v) :
    d.lookup k = some v := by
  unfold itemOf at h
  cases hk : d.lookup k with
  | none => rw [hk] at h; cases h
  | some w => rw [hk] at h; cases h; rfl

theorem item_out {α β : Type} [BEq α] {d : ParseState → Dict α β} {k : α} {v : β} {s t : ParseState}
    (h : P.item d k s = (.ok v, t)) : (d s).lookup k = some v ∧ s = t := by
  unfold P.item at h
  cases hk : (d s).lookup k with
  | none => rw [hk] at h; cases h
  | some w => rw [hk] at h; cases h; exact ⟨rfl, rfl⟩

theorem lift_out {α : Type} {r : Except PyErr α} {s t : ParseState} {a : α}
    (h : P.lift r s = (.ok a, t)) : r = .ok a ∧ s = t := ⟨(lift_ok h).1, (lift_ok h).2.symm⟩

theorem update_ok {f : ParseState → ParseState} {s t : ParseState} {u : Unit}
    (h : P.update f s = (.ok u, t)) : t = f s := by
  cases h; rfl

/-- What one member adds. -/
structure Added (gm go so : Path) (table : Dict Path Expr) (nodes : Dict Path (List Stmt))
    (name : String) (s t : ParseState) : Prop where
  nodes : ∃ old new, nodes.lookup (go ++ [name]) = some old
    ∧ mapExcept (specializeStmt table) old = .ok new ∧ nodesEntry t specPath (so ++ [name]) = some new
  kinds : ∃ kind, kindAt s gm (go ++ [name]) = some kind
    ∧ kindAt t specPath (so ++ [name]) = some kind
  otherNodes : ∀ p, p ≠ so ++ [name] → nodesEntry t specPath p = nodesEntry s specPath p
  otherKinds : ∀ p, p ≠ so ++ [name] → kindAt t specPath p = kindAt s specPath p
  definitions : t.definitions = s.definitions

theorem registerMember_ok {n : Nat} {gm go sm so : Path} {table : Dict Path Expr}
    {names : List String} {nodes : Dict Path (List Stmt)} {name : String} {s t : ParseState}
    (h : registerMember o n gm go sm so table names nodes name s = (.ok (), t)) :
    Added gm go so table nodes name s t := by
  unfold registerMember at h
  obtain ⟨old, _, h1, g1⟩ := bind_ok h
  obtain ⟨e1, rfl⟩ := lift_out h1
  obtain ⟨new, _, h2, g2⟩ := bind_ok g1
  obtain ⟨e2, rfl⟩ := lift_out h2
  obtain ⟨_, s3, h3, g3⟩ := bind_ok g2
  have e3 := update_ok h3
  obtain ⟨defined, _, h4, g4⟩ := bind_ok g3
  obtain ⟨-, rfl⟩ := lift_out h4
  obtain ⟨_, s5, h5, g5⟩ := bind_ok g4
  have r5 := (Pres.each refsOnly_preorder _ fun x _ =>
    registerDependency_refs n gm sm names x).of_eq h5
  obtain ⟨kinds, _, h6, g6⟩ := bind_ok g5
  obtain ⟨e6, rfl⟩ := item_out h6
  obtain ⟨kind, _, h7, g7⟩ := bind_ok g6
  obtain ⟨e7, rfl⟩ := lift_out h7
  have e8 := update_ok g7
  have hn : t.nodes = dictUpdate s.nodes specPath [] (dictSet · (so ++ [name]) new) := by
    rw [e8]; show s5.nodes = _; rw [r5.nodes, e3]; rfl
  have hk : t.kinds = dictUpdate s.kinds specPath [] (dictSet · (so ++ [name]) kind) := by
    rw [e8]; unfold setSpecKind; simp only; rw [r5.kinds, e3]; rfl
  have hs : s5.kinds = s.kinds := by rw [r5.kinds, e3]; rfl
  refine ⟨⟨old, new, itemOf_ok e1, e2, ?_⟩, ⟨kind, ?_, ?_⟩, fun p hp => ?_, fun p hp => ?_, ?_⟩
  · rw [nodesEntry, hn, lookup_dictUpdate_self, Option.getD_some, lookup_dictSet_self]
  · rw [kindAt, ← hs, e6, Option.getD_some, itemOf_ok e7]
  · rw [kindAt, hk, lookup_dictUpdate_self, Option.getD_some, lookup_dictSet_self]
  · rw [nodesEntry, hn, lookup_dictUpdate_self, Option.getD_some, lookup_dictSet_ne _ _ hp]; rfl
  · rw [kindAt, hk, lookup_dictUpdate_self, Option.getD_some, lookup_dictSet_ne _ _ hp]; rfl
  · rw [e8]; show s5.definitions = _; rw [r5.definitions, e3]; rfl

/-- What all members add. -/
theorem registerMembers_ok {n : Nat} {gm go sm so : Path} {table : Dict Path Expr}
    {names : List String} {nodes : Dict Path (List Stmt)} (hgm : gm ≠ specPath) :
    ∀ {members : List String} {s t : ParseState},
    P.each (registerMember o n gm go sm so table names nodes) members s = (.ok (), t) →
      (∀ name ∈ members, ∃ old new kind, nodes.lookup (go ++ [name]) = some old
        ∧ mapExcept (specializeStmt table) old = .ok new
        ∧ nodesEntry t specPath (so ++ [name]) = some new
        ∧ kindAt s gm (go ++ [name]) = some kind
        ∧ kindAt t specPath (so ++ [name]) = some kind)
      ∧ (∀ p, (∀ name ∈ members, p ≠ so ++ [name]) →
        nodesEntry t specPath p = nodesEntry s specPath p ∧ kindAt t specPath p = kindAt s specPath p)
      ∧ t.definitions = s.definitions
  | [], s, t, h => by cases h; exact ⟨by simp, fun _ _ => ⟨rfl, rfl⟩, rfl⟩
  | x :: xs, s, t, h => by
    obtain ⟨u, hx, hxs⟩ := each_cons_ok h
    have hx1 := registerMember_ok hx
    obtain ⟨hm, ho, hd⟩ := registerMembers_ok hgm hxs
    have hk : ∀ p, kindAt u gm p = kindAt s gm p := fun p => by
      rw [kindAt, kindAt, ((registerMember_aside n gm go sm so table names nodes x).of_eq hx).kinds
        gm hgm]
    refine ⟨fun name hname => ?_, fun p hp => ?_, hd.trans hx1.definitions⟩
    · by_cases hxs' : name ∈ xs
      · obtain ⟨old, new, kind, a, b, c, d, e⟩ := hm name hxs'
        exact ⟨old, new, kind, a, b, c, (hk _).symm.trans d, e⟩
      · have hname : name = x := (List.mem_cons.1 hname).resolve_right hxs'
        subst hname
        obtain ⟨old, new, a, b, c⟩ := hx1.nodes
        obtain ⟨kind, d, e⟩ := hx1.kinds
        have ho' := ho (so ++ [name]) fun y hy e => hxs' (by
          have := List.append_cancel_left e
          simp only [List.cons.injEq, and_true] at this
          rw [this]; exact hy)
        exact ⟨old, new, kind, a, b, ho'.1.trans c, d, ho'.2.trans e⟩
    · obtain ⟨h1, h2⟩ := ho p fun y hy => hp y (List.mem_cons_of_mem _ hy)
      have := hp x List.mem_cons_self
      exact ⟨h1.trans (hx1.otherNodes p this), h2.trans (hx1.otherKinds p this)⟩

/-- What `registerGeneric` does. -/
structure Registered (gm go so : Path) (table : Dict Path Expr) (s t : ParseState) : Prop where
  found : ∃ defs scope, s.definitions.lookup gm = some defs ∧ defs.getPath go = some scope
    ∧ (∀ name ∈ scope.entries.map Prod.fst, ∃ old new kind,
        nodesEntry s gm (go ++ [name]) = some old
        ∧ mapExcept (specializeStmt table) old = .ok new
        ∧ nodesEntry t specPath (so ++ [name]) = some new
        ∧ kindAt s gm (go ++ [name]) = some kind
        ∧ kindAt t specPath (so ++ [name]) = some kind)
    ∧ t.definitions.lookup specPath = some ((((s.definitions.lookup specPath).getD (.mk [])).add
        so).mergeAt scope.entries so)
  class_ : kindAt t specPath so = some .class_
  others : ∀ p, ¬ so <+: p →
    nodesEntry t specPath p = nodesEntry s specPath p ∧ kindAt t specPath p = kindAt s specPath p

theorem registerGeneric_ok {n : Nat} {gm go sm so : Path} {params : List Path} {args : List Expr}
    {s t : ParseState} (hgm : gm ≠ specPath)
    (h : registerGeneric o n gm go sm so params args s = (.ok (), t)) :
    Registered gm go so (params.zip args) s t := by
  unfold registerGeneric at h
  obtain ⟨_, s1, h1, g1⟩ := bind_ok h
  have e1 := update_ok h1
  obtain ⟨defs, _, h2, g2⟩ := bind_ok g1
  obtain ⟨e2, rfl⟩ := item_out h2
  have hdefs : s.definitions.lookup gm = some defs := by
    rw [e1] at e2
    simp only [setSpecScope, lookup_dictUpdate_ne _ _ _ hgm] at e2
    exact e2
  cases hg : defs.getPath go with
  | none => rw [hg] at g2; cases g2
  | some scope =>
    rw [hg] at g2
    obtain ⟨_, s3, h3, g3⟩ := bind_ok g2
    have e3 := update_ok h3
    obtain ⟨nodes, _, h4, g4⟩ := bind_ok g3
    obtain ⟨e4, rfl⟩ := item_out h4
    obtain ⟨_, s5, h5, g5⟩ := bind_ok g4
    have e5 := update_ok h5
    obtain ⟨hm, ho, hd⟩ := registerMembers_ok hgm g5
    have n3 : s3.nodes = s.nodes := by rw [e3]; show s1.nodes = _; rw [e1]; rfl
    have n5 : s5.nodes = s.nodes := by rw [e5]; show s3.nodes = _; exact n3
    have k5 : s5.kinds = dictUpdate s.kinds specPath [] (dictSet · so .class_) := by
      have k3 : s3.kinds = s.kinds := by rw [e3]; show s1.kinds = _; rw [e1]; rfl
      rw [e5]; unfold setSpecKind; simp only; rw [k3]
    have k5' : ∀ p, kindAt s5 gm p = kindAt s gm p := fun p => by
      rw [kindAt, k5, lookup_dictUpdate_ne _ _ _ hgm]; rfl
    have hnodes : s.nodes.lookup gm = some nodes := by rw [← n3]; exact e4
    refine ⟨⟨defs, scope, hdefs, hg, fun name hname => ?_, ?_⟩, ?_, fun p hp => ?_⟩
    · obtain ⟨old, new, kind, a, b, c, d, e⟩ := hm name hname
      exact ⟨old, new, kind, by rw [nodesEntry, hnodes, Option.getD_some, a], b, c,
        (k5' _).symm.trans d, e⟩
    · rw [hd, e5]
      show s3.definitions.lookup specPath = _
      rw [e3]
      simp only [setSpecScope, lookup_dictUpdate_self]
      rw [e1]
      simp only [setSpecScope, lookup_dictUpdate_self, Option.getD_some]
    · rw [(ho so fun name _ e => by simpa using congrArg List.length e).2, kindAt, k5,
        lookup_dictUpdate_self, Option.getD_some, lookup_dictSet_self]
    · obtain ⟨h6, h7⟩ := ho p fun name _ e => hp ⟨[name], e.symm⟩
      refine ⟨h6.trans (by rw [nodesEntry, n5]; rfl), h7.trans ?_⟩
      rw [kindAt, k5, lookup_dictUpdate_self, Option.getD_some, lookup_dictSet_ne _ _ fun e => hp (by
        rw [e]; exact List.prefix_refl _)]
      rfl

/-! ### The superclasses of a specialised class -/

theorem baseBasePath_supers (rep : Atom → String) (n : Nat) (g : QPath) (cm : Path)
    (table : Dict Path Expr) (b : Expr × Nat) :
    Pres (fun s t => t.superclasses = s.superclasses) (baseBasePath o rep n g cm table b) := by
  have hR : Preorder' (fun s t : ParseState => t.superclasses = s.superclasses) :=
    ⟨fun _ => rfl, fun h h' => h'.trans h⟩
  unfold baseBasePath
  split
  · unfold registerSubscript
    refine Pres.bind hR (Pres.lift hR _) fun _ => Pres.bind hR (Pres.lift hR _) fun _ =>
      Pres.bind hR (Pres.update fun s => rfl) fun _ => Pres.bind hR (Pres.lift hR _)
      fun _ => Pres.bind hR (Pres.isRegistered hR _) fun b => ?_
    split
    · exact Pres.pure' hR _
    · exact Pres.bind hR (Pres.lift hR _) fun _ => Pres.bind hR (Pres.resolveNow hR _ _ _ _)
        fun q => Pres.bind hR (Pres.item hR ParseState.generics q) fun _ =>
        Pres.bind hR ((registerGeneric_aside _ _ _ _ _ _ _).mono fun _ _ h => h.supers.1) fun _ =>
        Pres.pure' hR _
  · exact Pres.bind hR (Pres.lift hR _) fun _ => Pres.resolveNow hR _ _ _ _

/-- Each base adds one superclass. -/
theorem registerBaseBases_ok {rep : Atom → String} {n : Nat} {g : QPath} {cm : Path} {name : String}
    {table : Dict Path Expr} : ∀ {l : List (Expr × Nat)} {s t : ParseState},
    P.each (registerBaseBase o rep n g cm name table) l s = (.ok (), t) →
      ∃ qs, supersAt t specPath [name] = supersAt s specPath [name] ++ qs
        ∧ Pointwise (fun b q => ∃ u v, Aside OtherSupers s u
            ∧ baseBasePath o rep n g cm table b u = (.ok q, v)) l qs
        ∧ ∀ m p, ¬ (m = specPath ∧ p = [name]) → supersAt t m p = supersAt s m p
  | [], s, t, h => by cases h; exact ⟨[], by simp, trivial, fun _ _ _ => rfl⟩
  | b :: l, s, t, h => by
    obtain ⟨u, hb, hl⟩ := each_cons_ok h
    have hsu := (registerBaseBase_aside rep n g cm name table b).of_eq hb
    obtain ⟨q, v, hq, hu⟩ := bind_ok hb
    have hv := (baseBasePath_supers rep n g cm table b).of_eq hq
    have hu := update_ok hu
    have hat : ∀ m p, supersAt u m p
        = if m = specPath ∧ p = [name] then supersAt s m p ++ [q] else supersAt s m p := by
      intro m p
      rw [hu, supersAt_add]
      simp only [supersAt, hv]
    obtain ⟨qs, h1, h2, h3⟩ := registerBaseBases_ok hl
    refine ⟨q :: qs, ?_, ⟨⟨s, v, (aside_preorder otherSupers_preorder).refl s, hq⟩, ?_⟩, ?_⟩
    · rw [h1, hat, if_pos ⟨rfl, rfl⟩, List.append_assoc]; rfl
    · exact h2.imp fun b _ q _ ⟨u', v', ha, hb⟩ =>
        ⟨u', v', (aside_preorder otherSupers_preorder).trans hsu ha, hb⟩
    · intro m p hmp
      rw [h3 m p hmp, hat, if_neg hmp]

theorem pointwise_of_zipIdx {α β : Type} {r : α × Nat → β → Prop} {r' : α → β → Prop} :
    ∀ {l : List α} {k : Nat} {bs : List β}, Pointwise r (l.zipIdx k) bs →
      (∀ i a b, r (a, i) b → r' a b) → Pointwise r' l bs
  | [], _, [], _, _ => trivial
  | [], _, _ :: _, h, _ => h.elim
  | _ :: _, _, [], h, _ => h.elim
  | a :: l, k, b :: bs, h, hr => ⟨hr k a b h.1, pointwise_of_zipIdx (k := k + 1) h.2 hr⟩

theorem registerSubscript_name {rep : Atom → String} {n : Nat} {g : QPath} {cm : Path}
    {table : Dict Path Expr} {i : Nat} {value slice : Expr} {load : Bool} {s t : ParseState}
    {q : QPath} (h : registerSubscript o rep n g cm table i value slice load s = (.ok q, t)) :
    ∃ e name, specialize table (.subscript value slice load) = .ok e
      ∧ toIdentifier rep e = .ok name ∧ q = (specPath, [name]) := by
  unfold registerSubscript at h
  obtain ⟨value', _, h1, g1⟩ := bind_ok h
  obtain ⟨e1, rfl⟩ := lift_out h1
  obtain ⟨slice', _, h2, g2⟩ := bind_ok g1
  obtain ⟨e2, rfl⟩ := lift_out h2
  obtain ⟨_, s3, h3, g3⟩ := bind_ok g2
  obtain ⟨name, _, h4, g4⟩ := bind_ok g3
  obtain ⟨e4, rfl⟩ := lift_out h4
  refine ⟨.subscript value' slice' load, name, ?_, e4, ?_⟩
  · rw [specialize, e1, e2]; rfl
  · obtain ⟨b, s5, h5, g5⟩ := bind_ok g4
    cases b with
    | true =>
      simp only [if_true] at g5
      cases g5
      rfl
    | false =>
      simp only [Bool.false_eq_true, if_false] at g5
      obtain ⟨_, _, _, g6⟩ := bind_ok g5
      obtain ⟨_, _, _, g7⟩ := bind_ok g6
      obtain ⟨_, _, _, g8⟩ := bind_ok g7
      obtain ⟨_, _, _, g9⟩ := bind_ok g8
      cases g9
      rfl

/-! ### Scopes -/

theorem foldl_dictSet_keeps {β : Type} (entries : List (String × β)) (x : String) :
    ∀ d : List (String × β), (d.lookup x).isSome →
      ((entries.foldl (fun d (e : String × β) => dictSet d e.1 e.2) d).lookup x).isSome := by
  induction entries with
  | nil => exact fun d h => h
  | cons e entries ih =>
    intro d h
    refine ih _ ?_
    rw [lookup_dictSet]
    split
    · rfl
    · exact h

theorem foldl_dictSet_adds {β : Type} {x : String} :
    ∀ (entries : List (String × β)) (d : List (String × β)), x ∈ entries.map Prod.fst →
      ((entries.foldl (fun d (e : String × β) => dictSet d e.1 e.2) d).lookup x).isSome
  | [], _, h => by cases h
  | e :: entries, d, h => by
    simp only [List.map_cons, List.mem_cons] at h
    rcases h with rfl | h
    · exact foldl_dictSet_keeps entries _ (dictSet d e.1 e.2) (by rw [lookup_dictSet_self]; rfl)
    · exact foldl_dictSet_adds entries _ h

/-- A specialised class has the members of the generic one. -/
theorem mergeAt_defines {scope : Scope} {entries : List (String × Scope)} {name x : String}
    (hx : x ∈ entries.map Prod.fst) : Defines (scope.mergeAt entries [name]) [name, x] := by
  have := foldl_dictSet_adds entries ((scope.get? name).getD (.mk [])).entries hx
  obtain ⟨inner, hi⟩ := Option.isSome_iff_exists.1 this
  exact ⟨_, lookup_dictSet_self _ _ _, inner, hi, trivial⟩

/-! ### References of a specialised class -/

theorem mem_dedup_of_mem : ∀ {l : List String} {x : String}, x ∈ l → x ∈ dedup l
  | [], _, h => by cases h
  | y :: l, x, h => by
    rw [dedup]
    by_cases hxy : x = y
    · rw [hxy]; exact List.mem_cons_self
    · rcases List.mem_cons.1 h with h | h
      · exact absurd h hxy
      · refine List.mem_cons_of_mem _ (List.mem_filter.2 ⟨mem_dedup_of_mem h, ?_⟩)
        simpa using hxy

/-- A loop in which one step establishes something and the others keep it. -/
theorem each_establishes {α : Type} {I Q : ParseState → Prop} {f : α → P Unit} {x : α} :
    ∀ {xs : List α} {s t : ParseState},
    (∀ y ∈ xs, ∀ s t, f y s = (.ok (), t) → I s → I t ∧ (Q s → Q t)) → x ∈ xs →
    (∀ s t, f x s = (.ok (), t) → I s → Q t) → P.each f xs s = (.ok (), t) → I s → I t ∧ Q t
  | [], _, _, _, h, _, _, _ => by cases h
  | y :: ys, s, t, hk, hx, he, h, hI => by
    obtain ⟨u, hy, hys⟩ := each_cons_ok h
    have hu := hk y List.mem_cons_self s u hy hI
    have keeps : ∀ {ys : List α} {u t : ParseState},
        (∀ y ∈ ys, ∀ s t, f y s = (.ok (), t) → I s → I t ∧ (Q s → Q t)) →
        P.each f ys u = (.ok (), t) → I u → I t ∧ (Q u → Q t) := by
      intro ys
      induction ys with
      | nil => intro u t _ h hI; cases h; exact ⟨hI, id⟩
      | cons z zs ih =>
        intro u t hk h hI
        obtain ⟨w, hz, hzs⟩ := each_cons_ok h
        have h1 := hk z List.mem_cons_self u w hz hI
        have h2 := ih (fun y hy => hk y (List.mem_cons_of_mem _ hy)) hzs h1.1
        exact ⟨h2.1, fun hQ => h2.2 (h1.2 hQ)⟩
    have hrest := keeps (fun z hz => hk z (List.mem_cons_of_mem _ hz)) hys hu.1
    rcases List.mem_cons.1 hx with rfl | hx
    · exact ⟨hrest.1, hrest.2 (he s u hy hI)⟩
    · exact each_establishes (fun z hz => hk z (List.mem_cons_of_mem _ hz)) hx he hys hu.1

theorem resolve_own {T : Tables} {n : Nat} {m : Path} {d : String} {defs inner : Scope}
    (h : T.definitions.lookup m = some defs) (hd : defs.get? d = some inner) :
    resolve T (n + 1) m [] [d] [] = .ok (m, [d]) := by
  rw [resolve, h]
  simp [scopeContains, hd, missingIndex]

theorem referenceAt_set (s : ParseState) (path : Path) (q : QPath) (p : Path) :
    referenceAt (setSpecReference path q s) specPath p
      = if p = path then some q else referenceAt s specPath p := by
  unfold referenceAt setSpecReference
  simp only [lookup_dictUpdate_self, Option.getD_some, lookup_dictSet]
  by_cases h : p = path <;> simp [h]

section deps

variable {n : Nat} {gm sm m : Path} {names : List String} {d : String} {defs inner : Scope}

/-- The name is defined in the module. -/
def Has (m : Path) (d : String) (s : ParseState) : Prop :=
  ∃ defs inner, s.definitions.lookup m = some defs ∧ defs.get? d = some inner

theorem Has.aside {R : ParseState → ParseState → Prop} {s t : ParseState} (hm : m ≠ specPath)
    (h : Aside R s t) (hs : Has m d s) : Has m d t := by
  obtain ⟨defs, inner, h1, h2⟩ := hs
  exact ⟨defs, inner, (h.definitions m hm).trans h1, h2⟩

theorem registerDependency_sets (hb : m ≠ builtinsPath)
    (hd : (if names.contains d then sm else gm) = m) {s t : ParseState}
    (h : registerDependency n gm sm names d s = (.ok (), t)) (hs : Has m d s) :
    referenceAt t specPath [d] = some (m, [d]) := by
  obtain ⟨q, u, hq, hu⟩ := bind_ok h
  unfold resolveNow at hq
  rw [hd] at hq
  cases n with
  | zero => rw [resolve] at hq; cases hq
  | succ n =>
    obtain ⟨defs, inner, h1, h2⟩ := hs
    rw [resolve_own (T := s.tables) h1 h2] at hq
    simp only [Prod.mk.injEq, Except.ok.injEq] at hq
    obtain ⟨rfl, rfl⟩ := hq
    rw [if_pos hb] at hu
    rw [update_ok hu, referenceAt_set, if_pos rfl]

theorem registerDependency_keeps (hm : m ≠ specPath) (hb : m ≠ builtinsPath)
    (hd : (if names.contains d then sm else gm) = m) (x : String) {s t : ParseState}
    (h : registerDependency n gm sm names x s = (.ok (), t)) (hs : Has m d s) :
    Has m d t ∧ (referenceAt s specPath [d] = some (m, [d]) →
      referenceAt t specPath [d] = some (m, [d])) := by
  refine ⟨hs.aside hm ((registerDependency_aside n gm sm names x).of_eq h), fun hr => ?_⟩
  by_cases hx : x = d
  · subst hx; exact registerDependency_sets hb hd h hs
  · obtain ⟨q, u, hq, hu⟩ := bind_ok h
    unfold resolveNow at hq
    have hsu : s = u := congrArg Prod.snd hq
    subst hsu
    split at hu
    · rw [update_ok hu, referenceAt_set, if_neg (by simpa using fun e => hx e.symm), hr]
    · cases hu; exact hr

theorem registerMember_refs (hm : m ≠ specPath) (hb : m ≠ builtinsPath)
    (hd : (if names.contains d then sm else gm) = m) {go so : Path} {table : Dict Path Expr}
    {nodes : Dict Path (List Stmt)} {name : String} {s t : ParseState}
    (h : registerMember o n gm go sm so table names nodes name s = (.ok (), t)) (hs : Has m d s) :
    (Has m d t ∧ (referenceAt s specPath [d] = some (m, [d]) →
      referenceAt t specPath [d] = some (m, [d])))
    ∧ ∀ old new defined, nodes.lookup (go ++ [name]) = some old →
      mapExcept (specializeStmt table) old = .ok new → mapExcept toNames new = .ok defined →
      d ∈ new.flatMap Stmt.loadedNames → d ∉ defined.flatten →
      referenceAt t specPath [d] = some (m, [d]) := by
  refine ⟨⟨hs.aside hm ((registerMember_aside _ _ _ _ _ _ _ _ _).of_eq h), ?_⟩, ?_⟩
  all_goals
    unfold registerMember at h
    obtain ⟨old, _, h1, g1⟩ := bind_ok h
    obtain ⟨e1, rfl⟩ := lift_out h1
    obtain ⟨new, _, h2, g2⟩ := bind_ok g1
    obtain ⟨e2, rfl⟩ := lift_out h2
    obtain ⟨_, s3, h3, g3⟩ := bind_ok g2
    have e3 := update_ok h3
    obtain ⟨defined, _, h4, g4⟩ := bind_ok g3
    obtain ⟨e4, rfl⟩ := lift_out h4
    obtain ⟨_, s5, h5, g5⟩ := bind_ok g4
    obtain ⟨kinds, _, h6, g6⟩ := bind_ok g5
    obtain ⟨e6, rfl⟩ := item_out h6
    obtain ⟨kind, _, h7, g7⟩ := bind_ok g6
    obtain ⟨e7, rfl⟩ := lift_out h7
    have e8 := update_ok g7
    have hs3 : Has m d s3 := by rw [e3]; exact hs
    have r8 : referenceAt t specPath [d] = referenceAt s5 specPath [d] := by rw [e8]; rfl
    have r3 : referenceAt s3 specPath [d] = referenceAt s specPath [d] := by rw [e3]; rfl
  · intro hr
    rw [r8]
    by_cases hmem : d ∈ o.order ((dedup (new.flatMap Stmt.loadedNames)).filter
        fun x => !defined.flatten.contains x)
    · exact (each_establishes (I := Has m d) (Q := fun s => referenceAt s specPath [d] = some (m, [d]))
        (fun y _ _ _ hy hI => registerDependency_keeps hm hb hd y hy hI) hmem
        (fun _ _ hy hI => registerDependency_sets hb hd hy hI) h5 hs3).2
    · rw [← r3] at hr
      clear h4 g3 g4 h3 e3 r3 hmem g5 h6 g6
      generalize o.order ((dedup (new.flatMap Stmt.loadedNames)).filter
        (fun x => !defined.flatten.contains x)) = l at h5
      induction l generalizing s3 with
      | nil => cases h5; exact hr
      | cons x l ih =>
        obtain ⟨u, hx, hl⟩ := each_cons_ok h5
        have := registerDependency_keeps hm hb hd x hx hs3
        exact ih u this.1 (this.2 hr) hl
  · intro old' new' defined' e1' e2' e4' hmem hnot
    have hold : old' = old := by
      have := itemOf_ok e1; rw [this] at e1'; exact (Option.some.inj e1').symm
    subst hold
    have hnew : new' = new := by rw [e2] at e2'; exact (Except.ok.inj e2').symm
    subst hnew
    have hdef : defined' = defined := by rw [e4] at e4'; exact (Except.ok.inj e4').symm
    subst hdef
    rw [r8]
    refine (each_establishes (I := Has m d) (Q := fun s => referenceAt s specPath [d] = some (m, [d]))
      (fun y _ _ _ hy hI => registerDependency_keeps hm hb hd y hy hI) ?_
      (fun _ _ hy hI => registerDependency_sets hb hd hy hI) h5 hs3).2
    rw [(o.order_perm _).mem_iff, List.mem_filter]
    refine ⟨mem_dedup_of_mem hmem, ?_⟩
    simpa using hnot

theorem registerMembers_refs (hm : m ≠ specPath) (hb : m ≠ builtinsPath)
    (hd : (if names.contains d then sm else gm) = m) {go so : Path} {table : Dict Path Expr}
    {nodes : Dict Path (List Stmt)} {name : String} {members : List String} {s t : ParseState}
    (h : P.each (registerMember o n gm go sm so table names nodes) members s = (.ok (), t))
    (hs : Has m d s) (hname : name ∈ members) {old new : List Stmt}
    (hold : nodes.lookup (go ++ [name]) = some old)
    (hnew : mapExcept (specializeStmt table) old = .ok new)
    (hload : d ∈ new.flatMap Stmt.loadedNames)
    (hnot : ∀ defined, mapExcept toNames new = .ok defined → d ∉ defined.flatten) :
    referenceAt t specPath [d] = some (m, [d]) := by
  refine (each_establishes (I := Has m d) (Q := fun s => referenceAt s specPath [d] = some (m, [d]))
    (fun y _ _ _ hy hI => (registerMember_refs hm hb hd hy hI).1) hname (fun u v hy hI => ?_) h hs).2
  obtain ⟨defined, hdef⟩ : ∃ defined, mapExcept toNames new = .ok defined := by
    have hy' := hy
    unfold registerMember at hy'
    obtain ⟨old', _, h1, g1⟩ := bind_ok hy'
    obtain ⟨e1, rfl⟩ := lift_out h1
    obtain ⟨new', _, h2, g2⟩ := bind_ok g1
    obtain ⟨e2, rfl⟩ := lift_out h2
    obtain ⟨_, s3, h3, g3⟩ := bind_ok g2
    obtain ⟨defined, _, h4, g4⟩ := bind_ok g3
    obtain ⟨e4, rfl⟩ := lift_out h4
    have := itemOf_ok e1
    rw [hold] at this
    cases this
    rw [hnew] at e2
    cases e2
    exact ⟨defined, e4⟩
  exact (registerMember_refs hm hb hd hy hI).2 old new defined hold hnew hdef hload (hnot _ hdef)

end deps

theorem mem_descendants {e x : Expr} : x ∈ e :: e.descendants ↔ x ∈ subtrees e := by
  have hs : Expr.sizes e.children ≤ e.size := by rw [size_children e]; omega
  rw [subtrees_eq, descendants_levels, List.mem_cons, List.mem_cons,
    (levels_perm _ _ hs).mem_iff]

theorem mem_dependencyNames {es : List Expr} {d : String} :
    d ∈ (es.flatMap fun e => e :: e.descendants).filterMap Expr.dependencyName
      ↔ ∃ e ∈ es, d ∈ loadedNames e := by
  simp only [List.mem_filterMap, List.mem_flatMap, loadedNames_eq]
  constructor
  · rintro ⟨x, ⟨e, he, hx⟩, hd⟩
    exact ⟨e, he, x, mem_descendants.1 hx, hd⟩
  · rintro ⟨e, he, x, hx, hd⟩
    exact ⟨x, ⟨e, he, mem_descendants.2 hx⟩, hd⟩

theorem mem_exprs {node : Stmt} {e : Expr} : e ∈ node.exprs ↔ e ∈ exprsOf node := by
  cases node
  case functionDef f =>
    simp only [Stmt.exprs, FunctionDef.exprs, exprsOf, List.mem_append, List.filterMap_append]
    grind
  all_goals rfl

theorem targetNames_ok {target : Expr} {names : List String} (h : targetNames target = .ok names) :
    ∃ id, target = .name id false ∧ names = [id] := by
  cases target
  case name id load =>
    cases load
    · cases h; exact ⟨id, rfl, rfl⟩
    · cases h
  all_goals cases h

theorem toNames_binds {node : Stmt} {names : List String} {d : String} (h : toNames node = .ok names)
    (hd : d ∈ names) : BindsName d node := by
  cases node
  case functionDef f => cases h; exact (List.mem_singleton.1 hd).symm
  case classDef => cases h; exact (List.mem_singleton.1 hd).symm
  case annAssign target _ _ =>
    obtain ⟨id, h1, h2⟩ := targetNames_ok h
    subst h2
    rw [List.mem_singleton] at hd
    subst hd
    exact h1
  case assign targets _ =>
    rw [toNames] at h
    cases hm : mapExcept targetNames targets with
    | error e => rw [hm] at h; cases h
    | ok l =>
      rw [hm] at h
      cases h
      obtain ⟨names, hn, hd⟩ := List.mem_flatten.1 hd
      obtain ⟨target, ht, h⟩ := (mapExcept_pointwise.1 hm).exists_left hn
      obtain ⟨id, h1, h2⟩ := targetNames_ok h
      subst h2
      rw [List.mem_singleton] at hd
      subst hd
      subst h1
      exact ht
  all_goals cases h

theorem registerGeneric_refs {n : Nat} {gm go sm so m : Path} {params : List Path}
    {args : List Expr} {s t : ParseState} (hgm : gm ≠ specPath)
    (h : registerGeneric o n gm go sm so params args s = (.ok (), t)) {scope : Scope}
    (hscope : (s.definitions.lookup gm).bind (·.getPath go) = some scope)
    {name d : String} (hname : name ∈ scope.entries.map Prod.fst)
    (hm : m ≠ specPath) (hb : m ≠ builtinsPath)
    (hd : (if (argsNames args).contains d then sm else gm) = m) (hs : Has m d s)
    {node : Stmt} (hnode : node ∈ nodesAt t specPath (so ++ [name]))
    (hload : d ∈ node.loadedNames)
    (hnot : ∀ node ∈ nodesAt t specPath (so ++ [name]), ¬ BindsName d node) :
    referenceAt t specPath [d] = some (m, [d]) := by
  have hreg := h
  unfold registerGeneric at h
  obtain ⟨_, s1, h1, g1⟩ := bind_ok h
  have e1 := update_ok h1
  obtain ⟨defs, _, h2, g2⟩ := bind_ok g1
  obtain ⟨e2, rfl⟩ := item_out h2
  have hdefs : s.definitions.lookup gm = some defs := by
    rw [e1] at e2
    simp only [setSpecScope, lookup_dictUpdate_ne _ _ _ hgm] at e2
    exact e2
  rw [hdefs, Option.bind_some] at hscope
  rw [hscope] at g2
  obtain ⟨_, s3, h3, g3⟩ := bind_ok g2
  have e3 := update_ok h3
  obtain ⟨nodes, _, h4, g4⟩ := bind_ok g3
  obtain ⟨e4, rfl⟩ := item_out h4
  obtain ⟨_, s5, h5, g5⟩ := bind_ok g4
  have e5 := update_ok h5
  obtain ⟨hmem, -, -⟩ := registerMembers_ok hgm g5
  obtain ⟨old, new, kind, a, b, c, -, -⟩ := hmem name hname
  have hn : nodesAt t specPath (so ++ [name]) = new := by
    rw [nodesAt]; rw [nodesEntry] at c; rw [c]; rfl
  rw [hn] at hnode hnot
  have hs5 : Has m d s5 := by
    obtain ⟨defs', inner, x, y⟩ := hs
    refine ⟨defs', inner, ?_, y⟩
    rw [e5]
    show s3.definitions.lookup m = _
    rw [e3]
    simp only [setSpecScope, lookup_dictUpdate_ne _ _ _ hm]
    rw [e1]
    simp only [setSpecScope, lookup_dictUpdate_ne _ _ _ hm]
    exact x
  refine registerMembers_refs hm hb hd g5 hs5 hname a b (List.mem_flatMap.2 ⟨node, hnode, hload⟩)
    fun defined hdef hin => ?_
  obtain ⟨names, hn1, hn2⟩ := List.mem_flatten.1 hin
  obtain ⟨node', hn3, hn4⟩ := (mapExcept_pointwise.1 hdef).exists_left hn1
  exact hnot node' hn3 (toNames_binds hn4 hn2)

end Paradigm
