import Verif.Lemmas.Superclasses
import Verif.Spec.Session

/-!
# What is recorded about specialised classes is defined
-/

namespace Paradigm

open Spec

variable {o : SetOrder}

/-- What is recorded for `__specializations` are its classes and their members, and all are defined. -/
def SpecOk (s : ParseState) : Prop :=
  ∀ p, Recorded s specPath p → p.length ≤ 2 ∧ DefinedAt s specPath p

/-- Classes of `__specializations` and their members stay defined, as does all that is recorded. -/
structure SpecKept (s t : ParseState) : Prop where
  defined : ∀ p, p.length ≤ 2 → DefinedAt s specPath p → DefinedAt t specPath p
  ok : SpecOk s → SpecOk t

theorem specKept_preorder : Preorder' SpecKept where
  refl _ := ⟨fun _ _ h => h, fun h => h⟩
  trans h h' := ⟨fun p hp hd => h'.defined p hp (h.defined p hp hd), fun g => h'.ok (h.ok g)⟩

theorem specKept_same {s t : ParseState} (hn : t.nodes = s.nodes) (hk : t.kinds = s.kinds)
    (hd : t.definitions = s.definitions) : SpecKept s t := by
  have h1 : ∀ p, DefinedAt t specPath p ↔ DefinedAt s specPath p := fun p => by
    unfold DefinedAt; rw [hd]
  have h2 : ∀ p, Recorded t specPath p ↔ Recorded s specPath p := fun p => by
    unfold Recorded; rw [hn, hk]
  exact ⟨fun p _ h => (h1 p).2 h, fun h p hp => ⟨(h p ((h2 p).1 hp)).1, (h1 p).2 (h p ((h2 p).1 hp)).2⟩⟩

theorem mergeAt_keeps {scope : Scope} {entries : List (String × Scope)} {name : String} :
    ∀ {p : Path}, p.length ≤ 2 → Defines scope p → Defines (scope.mergeAt entries [name]) p
  | [], _, _ => trivial
  | [a], _, h => by
    obtain ⟨inner, h1, -⟩ := h
    by_cases ha : a = name
    · subst ha
      exact ⟨_, lookup_dictSet_self _ _ _, trivial⟩
    · exact ⟨inner, (lookup_dictSet_ne _ _ ha).trans h1, trivial⟩
  | [a, b], _, h => by
    obtain ⟨inner, h1, leaf, h2, -⟩ := h
    by_cases ha : a = name
    · subst ha
      have := foldl_dictSet_keeps entries b ((scope.get? a).getD (.mk [])).entries (by
        unfold Scope.get?
        rw [h1]
        exact Option.isSome_iff_exists.2 ⟨leaf, h2⟩)
      obtain ⟨leaf', h3⟩ := Option.isSome_iff_exists.1 this
      exact ⟨_, lookup_dictSet_self _ _ _, leaf', h3, trivial⟩
    · exact ⟨inner, (lookup_dictSet_ne _ _ ha).trans h1, leaf, h2, trivial⟩
  | _ :: _ :: _ :: _, h, _ => by simp at h

theorem setSpecScope_defined {f : Scope → Scope} {p : Path} (hf : ∀ scope, Defines (f scope) p)
    (s : ParseState) : DefinedAt (setSpecScope f s) specPath p :=
  ⟨_, lookup_dictUpdate_self _ _ _ _, hf _⟩

theorem setSpecScope_kept {f : Scope → Scope}
    (hf : ∀ scope p, p.length ≤ 2 → Defines scope p → Defines (f scope) p) (s : ParseState) :
    SpecKept s (setSpecScope f s) := by
  have hd : ∀ p, p.length ≤ 2 → DefinedAt s specPath p → DefinedAt (setSpecScope f s) specPath p := by
    rintro p hp ⟨scope, h1, h2⟩
    refine ⟨_, lookup_dictUpdate_self _ _ _ _, ?_⟩
    rw [h1]
    exact hf scope p hp h2
  exact ⟨hd, fun h p hp => ⟨(h p hp).1, hd p (h p hp).1 (h p hp).2⟩⟩

theorem setSpecNodes_kept {path : Path} (nodes : List Stmt) {s : ParseState} (hp : path.length ≤ 2)
    (hd : DefinedAt s specPath path) : SpecKept s (setSpecNodes path nodes s) := by
  refine ⟨fun p _ h => h, fun h p hr => ?_⟩
  rcases hr with ⟨d, ns, h1, h2⟩ | hr
  · rw [setSpecNodes, lookup_dictUpdate_self] at h1
    cases h1
    by_cases hpp : p = path
    · subst hpp; exact ⟨hp, hd⟩
    · rw [lookup_dictSet_ne _ _ hpp] at h2
      cases hl : s.nodes.lookup specPath with
      | none => rw [hl] at h2; cases h2
      | some d => rw [hl] at h2; exact h p (.inl ⟨d, ns, hl, h2⟩)
  · exact h p (.inr hr)

theorem setSpecKind_kept {path : Path} (kind : NodeKind) {s : ParseState} (hp : path.length ≤ 2)
    (hd : DefinedAt s specPath path) : SpecKept s (setSpecKind path kind s) := by
  refine ⟨fun p _ h => h, fun h p hr => ?_⟩
  rcases hr with hr | ⟨d, k, h1, h2⟩
  · exact h p (.inl hr)
  · rw [setSpecKind, lookup_dictUpdate_self] at h1
    cases h1
    by_cases hpp : p = path
    · subst hpp; exact ⟨hp, hd⟩
    · rw [lookup_dictSet_ne _ _ hpp] at h2
      cases hl : s.kinds.lookup specPath with
      | none => rw [hl] at h2; cases h2
      | some d => rw [hl] at h2; exact h p (.inr ⟨d, k, hl, h2⟩)

/-- Provided that the objects are defined. -/
def SpecKeptIf (names : List Path) (s t : ParseState) : Prop :=
  (∀ p ∈ names, p.length ≤ 2 ∧ DefinedAt s specPath p) → SpecKept s t

theorem specKeptIf_preorder (names : List Path) : Preorder' (SpecKeptIf names) where
  refl s _ := specKept_preorder.refl s
  trans h h' hd := specKept_preorder.trans (h hd) (h' fun p hp =>
    ⟨(hd p hp).1, (h hd).defined p (hd p hp).1 (hd p hp).2⟩)

theorem registerDependency_kept (n : Nat) (gm sm : Path) (names : List String) (name : String) :
    Pres SpecKept (registerDependency n gm sm names name) := by
  refine Pres.bind specKept_preorder (Pres.resolveNow specKept_preorder _ _ _ _) fun q => ?_
  split
  · exact Pres.update fun s => specKept_same rfl rfl rfl
  · exact Pres.pure' specKept_preorder _

theorem registerMember_kept {names : List Path} (n : Nat) (gm go sm so : Path) (table : Dict Path Expr)
    (args : List String) (nodes : Dict Path (List Stmt)) (name : String) (hn : so ++ [name] ∈ names) :
    Pres (SpecKeptIf names) (registerMember o n gm go sm so table args nodes name) := by
  have hR := specKeptIf_preorder names
  unfold registerMember
  exact Pres.bind hR (Pres.lift hR _) fun g => Pres.bind hR (Pres.lift hR _) fun new =>
    Pres.bind hR (Pres.update fun s hd => setSpecNodes_kept _ (hd _ hn).1 (hd _ hn).2) fun _ =>
    Pres.bind hR (Pres.lift hR _) fun defined =>
    Pres.bind hR ((Pres.each specKept_preorder _ fun _ _ => registerDependency_kept _ _ _ _ _).mono
      fun _ _ h _ => h) fun _ => Pres.bind hR (Pres.item hR ParseState.kinds gm) fun kinds =>
    Pres.bind hR (Pres.lift hR _) fun kind =>
    Pres.update fun s hd => setSpecKind_kept _ (hd _ hn).1 (hd _ hn).2

theorem registerGeneric_kept (n : Nat) (gm go sm : Path) (name : String) (params : List Path)
    (args : List Expr) : Pres SpecKept (registerGeneric o n gm go sm [name] params args) := by
  have hR := specKept_preorder
  unfold registerGeneric
  refine Pres.bind hR (Pres.update fun s => setSpecScope_kept (fun scope p _ h => defines_add_mono _ scope p h) s)
    fun _ => Pres.bind hR (Pres.item hR _ _) fun defs => ?_
  split
  · exact Pres.fail hR _
  · next genericScope _ =>
    intro s
    have h1 : SpecKept s (setSpecScope (·.mergeAt genericScope.entries [name]) s) :=
      setSpecScope_kept (fun scope p hp h => mergeAt_keeps hp h) s
    have h2 : ∀ p ∈ [name] :: (genericScope.entries.map Prod.fst).map fun x => [name] ++ [x],
        p.length ≤ 2 ∧ DefinedAt (setSpecScope (·.mergeAt genericScope.entries [name]) s) specPath p := by
      intro p hp
      simp only [List.mem_cons, List.mem_map] at hp
      rcases hp with rfl | ⟨x, hx, rfl⟩
      · exact ⟨by simp, setSpecScope_defined (p := [name]) (fun _ => by
          exact ⟨_, lookup_dictSet_self _ _ _, trivial⟩) s⟩
      · exact ⟨by simp, setSpecScope_defined (fun _ => mergeAt_defines (by simpa using hx)) s⟩
    have hR' := specKeptIf_preorder ([name] :: (genericScope.entries.map Prod.fst).map fun x => [name] ++ [x])
    have h3 : Pres (SpecKeptIf ([name] :: (genericScope.entries.map Prod.fst).map fun x => [name] ++ [x])) (do
        let nodes ← P.item ParseState.nodes gm
        P.update (setSpecKind [name] .class_)
        P.each (registerMember o n gm go sm [name] (params.zip args) (argsNames args) nodes)
          (genericScope.entries.map Prod.fst)) :=
      Pres.bind hR' (Pres.item hR' _ _) fun nodes =>
        Pres.bind hR' (Pres.update fun s hd => setSpecKind_kept _ (hd _ (by simp)).1 (hd _ (by simp)).2)
        fun _ => Pres.each hR' _ fun x hx => registerMember_kept _ _ _ _ _ _ _ _ _ (by
          simp only [List.mem_cons, List.mem_map]
          exact .inr ⟨x, List.mem_map.1 hx, rfl⟩)
    exact hR.trans h1 (h3 _ h2)

section

variable (rep : Atom → String) (n : Nat)

theorem registerSubscript_kept (g : QPath) (cm : Path) (table : Dict Path Expr) (i : Nat)
    (value slice : Expr) (load : Bool) :
    Pres SpecKept (registerSubscript o rep n g cm table i value slice load) := by
  have hR := specKept_preorder
  unfold registerSubscript
  refine Pres.bind hR (Pres.lift hR _) fun _ => Pres.bind hR (Pres.lift hR _) fun _ =>
    Pres.bind hR (Pres.update fun s => specKept_same rfl rfl rfl) fun _ => Pres.bind hR (Pres.lift hR _)
    fun _ => Pres.bind hR (Pres.isRegistered hR _) fun b => ?_
  split
  · exact Pres.pure' hR _
  · exact Pres.bind hR (Pres.lift hR _) fun _ => Pres.bind hR (Pres.resolveNow hR _ _ _ _)
      fun q => Pres.bind hR (Pres.item hR ParseState.generics q) fun _ =>
      Pres.bind hR (registerGeneric_kept _ _ _ _ _ _ _) fun _ => Pres.pure' hR _

theorem registerNew_kept (name : String) (value slice : Expr) (cm co : Path) :
    Pres SpecKept (registerNew o rep n name value slice cm co) := by
  have hR := specKept_preorder
  unfold registerNew
  refine Pres.bind hR (Pres.lift hR _) fun _ => Pres.bind hR (Pres.resolveNow hR _ _ _ _)
      fun q => Pres.bind hR (Pres.item hR ParseState.generics q) fun _ =>
      Pres.bind hR (registerGeneric_kept _ _ _ _ _ _ _) fun _ => Pres.bind hR (Pres.get hR) fun s => ?_
  split
  · exact Pres.fail hR _
  · refine Pres.bind hR (Pres.item hR ParseState.classesBases q) fun _ => Pres.each hR _ fun b _ => ?_
    refine Pres.bind hR ?_ fun _ => Pres.update fun s => specKept_same rfl rfl rfl
    unfold baseBasePath
    split
    · exact registerSubscript_kept rep n _ _ _ _ _ _ _
    · exact Pres.bind hR (Pres.lift hR _) fun _ => Pres.resolveNow hR _ _ _ _

theorem registerBase_kept (base : Expr) (cm co : Path) :
    Pres SpecKept (registerBase o rep n base cm co) := by
  have hR := specKept_preorder
  unfold registerBase
  split
  · refine Pres.bind hR (Pres.lift hR _) fun _ => Pres.bind hR (Pres.isRegistered hR _) fun b => ?_
    split
    · exact Pres.pure' hR _
    · exact Pres.bind hR (registerNew_kept rep n _ _ _ _ _) fun _ => Pres.pure' hR _
  · exact Pres.bind hR (Pres.lift hR _) fun _ => Pres.resolveNow hR _ _ _ _

theorem processClass_kept (c : QPath) : Pres SpecKept (processClass o rep n c) := by
  have hR := specKept_preorder
  refine Pres.bind hR (Pres.item hR _ _) fun bases => Pres.each hR _ fun i _ => ?_
  unfold processBase
  refine Pres.bind hR (Pres.item hR ParseState.classesBases c) fun bases => ?_
  split
  · exact Pres.pure' hR _
  · exact Pres.bind hR (registerBase_kept rep n _ _ _) fun _ =>
      Pres.update fun s => specKept_same rfl rfl rfl

end

theorem openSpecializations_ok {s u : ParseState} (h : openSpecializations s = (.ok (), u)) : SpecOk u := by
  unfold openSpecializations at h
  obtain ⟨s0, s1, h0, g0⟩ := bind_ok h
  cases h0
  split at g0
  · cases g0
  split at g0
  · cases g0
  split at g0
  · cases g0
  split at g0
  · cases g0
  cases g0
  intro p hr
  rcases hr with ⟨d, _, h1, h2⟩ | ⟨d, _, h1, h2⟩
  · rw [lookup_dictSet_self] at h1; cases h1; cases h2
  · rw [lookup_dictSet_self] at h1; cases h1; cases h2

theorem processBases_ok {rep : Atom → String} {n : Nat} {s t : ParseState}
    (h : processBases o rep n s = (.ok (), t)) : SpecOk t := by
  unfold processBases at h
  obtain ⟨_, u, h0, h1⟩ := bind_ok h
  obtain ⟨v, u', h2, h3⟩ := bind_ok h1
  cases h2
  have := Pres.each specKept_preorder (u.classesBases.map Prod.fst) (fun c _ => processClass_kept (o := o) rep n c) u
  rw [h3] at this
  exact this.ok (openSpecializations_ok h0)

end Paradigm
