import Verif.Lemmas.EvaluationRelations
import Verif.Lemmas.Specialization
import Verif.Props.Evaluation
import Verif.Spec.Defining

/-!
# Lemmas about executing definitions that are only in stub files
-/

namespace Paradigm

open Spec

/-- The names a definition with postponed annotations depends on. -/
theorem dependencies_lazy {other : Atom → String} {f g : FunctionDef} (h : lazyFunction other f = .ok g)
    (id : String) : id ∈ (Stmt.functionDef g).dependencies ↔ id ∈ namesUsed f := by
  obtain ⟨h1, -, h3, -⟩ := Props.C80_postponed other f g h
  have hd : g.decorators = f.decorators := congrArg FunctionDef.decorators (a₁ := Props.bareFunction g) (a₂ := Props.bareFunction f) h1
  have ha : g.args.defaults = f.args.defaults := congrArg (fun f => f.args.defaults) (a₁ := Props.bareFunction g) (a₂ := Props.bareFunction f) h1
  have hk : g.args.kwDefaults = f.args.kwDefaults := congrArg (fun f => f.args.kwDefaults) (a₁ := Props.bareFunction g) (a₂ := Props.bareFunction f) h1
  have hiff : id ∈ (Stmt.functionDef g).dependencies ↔ ∃ e ∈ (Stmt.functionDef g).roots, id ∈ loadedNames e := by
    rw [← mem_dependencyNames]
    exact ⟨mem_of_mem_dedup, mem_dedup_of_mem⟩
  have hc : ∀ e, (some e ∈ Props.annotationsOf g) → id ∉ loadedNames e := by
    intro e he
    obtain ⟨t, rfl⟩ := h3 e he
    have : loadedNames (.constant (.str t)) = [] := by simp [loadedNames, subtrees]
    rw [this]
    exact List.not_mem_nil
  rw [hiff, namesUsed, List.mem_flatMap]
  simp only [Stmt.roots, evaluatedParts, hd, ha, hk, List.mem_append]
  constructor
  · rintro ⟨e, ((((he | he) | he) | he) | he), hid⟩
    · refine absurd hid (hc e ?_)
      obtain ⟨a, ha, hx⟩ := List.mem_filterMap.1 he
      exact List.mem_append_left _ (List.mem_map.2 ⟨a, by simpa [or_assoc] using ha, hx⟩)
    · exact ⟨e, .inr he, hid⟩
    · exact ⟨e, .inl (.inr he), hid⟩
    · exact ⟨e, .inl (.inl he), hid⟩
    · refine absurd hid (hc e ?_)
      refine List.mem_append_right _ ?_
      rw [Option.mem_toList] at he
      exact List.mem_singleton.2 he.symm
  · rintro ⟨e, ((he | he) | he), hid⟩
    · exact ⟨e, .inl (.inr he), hid⟩
    · exact ⟨e, .inl (.inl (.inr he)), hid⟩
    · exact ⟨e, .inl (.inl (.inl (.inr he))), hid⟩

section

variable {V : Type} {W : Interpreter V} {T : Stubs} {depth : Nat} {other : Atom → String}

/-- Everything in the namespace but `__name__` is what it should be. -/
def ModuleGood (W : Interpreter V) (T : Stubs) (depth : Nat) (scope : QPath) (mod : Dict String V) : Prop :=
  ∀ id v, mod.lookup id = some v → id = "__name__" ∨
    ∃ r, resolve T.toTables depth scope.1 scope.2 [id] [] = .ok r ∧ r.1 ≠ ["builtins"] ∧
      runtimeObject W r = .ok (some v)

/-- Nothing is in the namespace but members of the class. -/
def ClassGood (names : List String) (cls : Dict String V) : Prop :=
  ∀ id, (cls.lookup id).isSome → id = "__module__" ∨ id ∈ names

theorem lookup_append {α β : Type} [BEq α] (k : α) : ∀ d d' : Dict α β,
    (d ++ d').lookup k = match d.lookup k with
      | some v => some v
      | none => d'.lookup k
  | [], d' => rfl
  | (a, b) :: d, d' => by
    simp only [List.cons_append, List.lookup]
    cases hk : k == a with
    | true => rfl
    | false => exact lookup_append k d d'

theorem evalDependencies_ok {m path : Path} (n : Nat) : ∀ (ids : List String) (s : EvalState V),
    (∀ id ∈ ids, NameExists W T depth (m, path) id) → ModuleGood W T depth (m, path) s.ns →
    ∃ ns, evalDependencies T depth (evalPath W T depth other (n + 1)) m path ids s
        = (.ok (), { s with ns := ns }) ∧ ModuleGood W T depth (m, path) ns ∧
      (∀ id, (s.ns.lookup id).isSome → (ns.lookup id).isSome) ∧
      ∀ id ∈ ids, ∀ r, resolve T.toTables depth m path [id] [] = .ok r → r.1 ≠ ["builtins"] →
        (ns.lookup id).isSome
  | [], s, _, hg => ⟨s.ns, rfl, hg, fun _ h => h, fun _ h => by cases h⟩
  | id :: ids, s, hx, hg => by
    obtain ⟨r, hr, hb⟩ := hx id (by simp)
    have hrest := fun id h => hx id (List.mem_cons_of_mem _ h)
    rw [evalDependencies, Ev.bind_ok (show evResolve T depth m path [id] s = (.ok r, s) from Ev.lift_ok hr _)]
    by_cases hbi : r.1 = builtinsPath
    · rw [if_neg (fun h => h hbi)]
      obtain ⟨ns, h1, h2, h3, h4⟩ := evalDependencies_ok n ids s hrest hg
      refine ⟨ns, h1, h2, h3, fun x hx r' hr' hne => ?_⟩
      rcases List.mem_cons.1 hx with rfl | hx
      · have : Except.ok r = .ok r' := hr.symm.trans hr'
        cases this
        exact absurd hbi hne
      · exact h4 x hx r' hr' hne
    · rw [if_pos hbi]
      obtain ⟨v, hv⟩ := hb.resolve_left hbi
      rw [Ev.bind_ok (evalPath_runtime hv n s), Ev.bind_ok (show putName id v s = (.ok (), _) from rfl)]
      have hg' : ModuleGood W T depth (m, path) (dictPut id v s.ns) := by
        intro x w hxw
        rw [lookup_dictPut] at hxw
        by_cases hxi : x = id
        · subst hxi
          rw [if_pos rfl] at hxw
          cases hxw
          exact .inr ⟨r, hr, hbi, hv⟩
        · rw [if_neg hxi] at hxw
          exact hg x w hxw
      obtain ⟨ns, h1, h2, h3, h4⟩ := evalDependencies_ok n ids { s with ns := dictPut id v s.ns } hrest hg'
      refine ⟨ns, h1, h2, fun x hx => h3 x ?_, fun x hx r' hr' hne => ?_⟩
      · dsimp only
        rw [lookup_dictPut]
        split
        · rfl
        · exact hx
      · rcases List.mem_cons.1 hx with rfl | hx
        · exact h3 x (by dsimp only; rw [lookup_dictPut, if_pos rfl]; rfl)
        · exact h4 x hx r' hr' hne

theorem evalDefinitions_ok {m path : Path} {names : List String} (n : Nat) : ∀ (nodes : List Stmt)
    (w0 : Option V) (cls mod : Dict String V) (s : EvalState V),
    (∀ node ∈ nodes, ∃ f, node = .functionDef f ∧ f.name ∈ names ∧ Executable W T depth other (m, path) f ∧
      ∀ id ∈ namesUsed f, NameExists W T depth (m, path) id ∧ id ∉ names ∧ id ≠ "__module__" ∧
        id ≠ "__name__") →
    ModuleGood W T depth (m, path) mod → ClassGood names cls →
    ∃ value cls' mod' t, evalDefinitions W T depth other (evalPath W T depth other (n + 1)) m path w0 nodes
        cls mod s = (.ok (value, cls', mod'), t) ∧
      ModuleGood W T depth (m, path) mod' ∧ ClassGood names cls'
  | [], w0, cls, mod, s, _, hm, hc => ⟨w0, cls, mod, s, rfl, hm, hc⟩
  | node :: nodes, w0, cls, mod, s, hn, hm, hc => by
    obtain ⟨f, rfl, hf, ⟨g, hg, hex⟩, hids⟩ := hn node (by simp)
    have hl : lazyStmt other (.functionDef f) = .ok (.functionDef g) := by rw [lazyStmt, hg]
    rw [evalDefinitions, Ev.bind_ok (Ev.lift_ok hl s)]
    obtain ⟨mod1, h1, h2, -, h4⟩ := evalDependencies_ok (W := W) (other := other) n
      (W.order (Stmt.functionDef g).dependencies) { s with ns := mod, back := [] }
      (fun id h => (hids id ((dependencies_lazy hg id).1 ((W.order_perm _).mem_iff.1 h))).1) hm
    have h1' : Ev.within mod [] (evalDependencies T depth (evalPath W T depth other (n + 1)) m path
        (W.order (Stmt.functionDef g).dependencies)) s = (.ok ((), mod1), s) := by
      unfold Ev.within
      rw [h1]
    rw [Ev.bind_ok h1']
    dsimp only
    have hden : ∀ id ∈ namesUsed f, Denoted W T depth (m, path) (cls ++ mod1) id := by
      intro id hid
      obtain ⟨⟨r, hr, hrb⟩, hno, hno1, hno2⟩ := hids id hid
      have hcl : cls.lookup id = none := by
        cases hk : cls.lookup id with
        | none => rfl
        | some v => exact absurd (hc id (by rw [hk]; rfl)) (by simp [hno, hno1])
      refine ⟨r, hr, ?_⟩
      rw [lookup_append, hcl]
      dsimp only
      by_cases hbi : r.1 = ["builtins"]
      · refine .inl ⟨hbi, ?_⟩
        cases hk : mod1.lookup id with
        | none => rfl
        | some v =>
          rcases h2 id v hk with h | ⟨r', hr', hb', -⟩
          · exact absurd h hno2
          · have : Except.ok r = .ok r' := hr.symm.trans hr'
            cases this
            exact absurd hbi hb'
      · refine .inr ⟨hbi, ?_⟩
        have := h4 id ((W.order_perm _).mem_iff.2 ((dependencies_lazy hg id).2 hid)) r hr hbi
        cases hk : mod1.lookup id with
        | none => rw [hk] at this; cases this
        | some v =>
          rcases h2 id v hk with h | ⟨r', hr', hb', hv⟩
          · exact absurd h hno2
          · have : Except.ok r = .ok r' := hr.symm.trans hr'
            cases this
            exact ⟨v, hv, rfl⟩
    obtain ⟨w, hw⟩ := hex _ hden
    have hidem : lazyFunction other g = .ok g := (Props.C80_postponed other f g hg).2.2.2
    have h5 : Ev.within cls mod1 (evalStmt W T depth other (evalPath W T depth other (n + 1)) m path
        (.functionDef g)) s = (.ok (w, dictPut g.name w cls), s) := by
      unfold Ev.within
      rw [evalStmt, Ev.bind_ok (Ev.lift_ok hidem _), Ev.bind_ok (show Ev.get _ = (.ok _, _) from rfl),
        Ev.bind_ok (Ev.lift_ok hw _), Ev.bind_ok (show putName _ _ _ = (.ok (), _) from rfl)]
      rfl
    rw [Ev.bind_ok h5]
    dsimp only
    refine evalDefinitions_ok n nodes (some w) _ mod1 s (fun x hx => hn x (by simp [hx])) h2 ?_
    intro id hid
    rw [lookup_dictPut] at hid
    by_cases h : id = g.name
    · rw [h, lazyFunction_name hg]
      exact .inr hf
    · rw [if_neg h] at hid
      exact hc id hid

theorem evalMembers_ok {m path : Path} {nodes : Dict Path (List Stmt)} {all : List String} (n : Nat) :
    ∀ (names : List String) (cls mod : Dict String V) (s : EvalState V), (∀ name ∈ names, name ∈ all) →
    (∀ name ∈ names, ∃ stmts, nodes.lookup (path ++ [name]) = some stmts ∧
      ∀ node ∈ stmts, ∃ f, node = .functionDef f ∧ f.name ∈ all ∧ Executable W T depth other (m, path) f ∧
        ∀ id ∈ namesUsed f, NameExists W T depth (m, path) id ∧ id ∉ all ∧ id ≠ "__module__" ∧
          id ≠ "__name__") →
    ModuleGood W T depth (m, path) mod → ClassGood all cls →
    ∃ cls' mod' t, evalMembers W T depth other (evalPath W T depth other (n + 1)) m path nodes names
        cls mod [] s = (.ok (cls', mod', []), t)
  | [], cls, mod, s, _, _, _, _ => ⟨cls, mod, s, rfl⟩
  | name :: names, cls, mod, s, hsub, hall, hm, hc => by
    obtain ⟨stmts, hl, hst⟩ := hall name (by simp)
    have hk : getKey nodes (path ++ [name]) = .ok stmts := by unfold getKey; rw [hl]
    have hnone : ∀ node ∈ stmts, bareAnnotation node = none := by
      intro node hnode
      obtain ⟨f, rfl, -⟩ := hst node hnode
      rfl
    have hf : stmts.filterMap bareAnnotation = [] := List.filterMap_eq_nil_iff.2 hnone
    have hfil : stmts.filter (fun s => (bareAnnotation s).isNone) = stmts :=
      List.filter_eq_self.2 fun node h => by rw [hnone node h]; rfl
    rw [evalMembers, Ev.bind_ok (Ev.lift_ok hk s)]
    simp only [hf, hfil, List.foldl_nil]
    obtain ⟨value, cls1, mod1, t, h1, h2, h3⟩ := evalDefinitions_ok n stmts none cls mod s hst hm hc
    rw [Ev.bind_ok h1]
    dsimp only
    refine evalMembers_ok n names _ mod1 t (fun x hx => hsub x (by simp [hx]))
      (fun x hx => hall x (by simp [hx])) h2 ?_
    cases value with
    | none => exact h3
    | some v =>
      intro id hid
      rw [lookup_dictPut] at hid
      by_cases h : id = name
      · exact .inr (h ▸ hsub name (by simp))
      · rw [if_neg h] at hid
        exact h3 id hid

theorem each_ok {α β : Type} {f : α → Ev V β} : ∀ (xs : List α) (s : EvalState V),
    (∀ x ∈ xs, ∃ y, ∀ s, f x s = (.ok y, s)) → ∃ ys, Ev.each f xs s = (.ok ys, s)
  | [], s, _ => ⟨[], rfl⟩
  | x :: xs, s, h => by
    obtain ⟨y, hy⟩ := h x (by simp)
    obtain ⟨ys, hys⟩ := each_ok xs s fun x hx => h x (by simp [hx])
    refine ⟨y :: ys, ?_⟩
    rw [Ev.each, Ev.bind_ok (hy s), Ev.bind_ok hys]
    rfl

theorem scopeAt_of_inner : ∀ {path : Path} {scope inner : Scope}, innerScope path scope = some inner →
    scopeAt scope path = .ok inner
  | [], scope, inner, h => by cases h; rfl
  | name :: path, scope, inner, h => by
    rw [innerScope] at h
    rw [scopeAt]
    have hg : scope.get? name = scope.entries.lookup name := rfl
    rw [hg]
    cases hx : scope.entries.lookup name with
    | none => rw [hx] at h; cases h
    | some x => rw [hx] at h; exact scopeAt_of_inner h

end

end Paradigm
