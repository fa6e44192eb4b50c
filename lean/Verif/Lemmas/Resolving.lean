import Verif.Lemmas.Imports

/-!
# Lemmas about name resolution inside of the stub parser
-/

namespace Paradigm

open Spec

theorem item_ok {α β : Type} [BEq α] {d : ParseState → Dict α β} {k : α} {s : ParseState} {v : β}
    (h : (d s).lookup k = some v) : P.item d k s = (.ok v, s) := by
  unfold P.item
  rw [h]

theorem parse_visited_ok (E : StubFiles) (n : Nat) {m : Path} {s : ParseState} {defs : Scope}
    (h : m ∈ s.visited) (hd : s.definitions.lookup m = some defs) :
    parseScope E (n + 1) m s = (.ok defs, s) := by
  rw [parse_visited E n h]
  exact item_ok hd

theorem bind_of_ok {α β : Type} {x : P α} {f : α → P β} {s t : ParseState} {a : α}
    (h : x s = (.ok a, t)) : (x >>= f) s = f a t := by
  show P.bind x f s = _
  unfold P.bind
  rw [h]

theorem bind_of_error {α β : Type} {x : P α} {f : α → P β} {s t : ParseState} {e : PyErr}
    (h : x s = (.error e, t)) : (x >>= f) s = (.error e, t) := by
  show P.bind x f s = _
  unfold P.bind
  rw [h]

/-- A name without a definition in a module without star imports goes to the references. -/
theorem resolveP_reference (E : StubFiles) (n : Nat) {m parent : Path} {head : String} {rest : Path}
    {s : ParseState} {defs : Scope} {refs : Dict Path QPath} {k : Nat} {q : QPath}
    (hv : m ∈ s.visited) (hd : s.definitions.lookup m = some defs)
    (hno : ¬ Defines defs (parent ++ [head])) (hno' : ¬ Defines defs [head])
    (hstar : (s.submodules.lookup m).getD [] = []) (hr : s.references.lookup m = some refs)
    (hk : 1 ≤ k) (hk' : k ≤ rest.length + 1)
    (hq : refs.lookup ((head :: rest).take k) = some q)
    (hlong : ∀ j, k < j → j ≤ rest.length + 1 → refs.lookup ((head :: rest).take j) = none) :
    resolveP E (n + 2) m parent (head :: rest) s = (.ok (q.1, q.2 ++ (head :: rest).drop k), s) := by
  rw [resolveP, bind_of_ok (parse_visited_ok E n hv hd)]
  unfold resolveIn
  have h1 : ¬ scopeContains defs (parent ++ [head]) = true :=
    fun h => hno ((scopeContains_iff _ _).1 h)
  have h2 : ¬ (defs.get? head).isSome = true := by
    intro h
    obtain ⟨inner, hi⟩ := Option.isSome_iff_exists.1 h
    exact hno' ⟨inner, hi, trivial⟩
  rw [if_neg h1, if_neg h2]
  show P.firstFound _ _ ((s.submodules.lookup m).getD []) s = _
  rw [hstar, P.firstFound, bind_of_ok (item_ok hr), longestReference_eq hk hk' hq hlong]
  rfl

/-- Two modules that star-import each other first: a name that neither defines is looked up
forever. -/
theorem star_loop (E : StubFiles) {a b : Path} {head : String} {rest : Path} {s : ParseState}
    {A B : Scope} {as bs : List Path} (ha : a ∈ s.visited) (hb : b ∈ s.visited)
    (hA : s.definitions.lookup a = some A) (hB : s.definitions.lookup b = some B)
    (hAh : ¬ Defines A [head]) (hBh : ¬ Defines B [head])
    (sa : s.submodules.lookup a = some (b :: as)) (sb : s.submodules.lookup b = some (a :: bs)) :
    ∀ n, resolveP E n a [] (head :: rest) s = (.error .recursionError, s) ∧
      resolveP E n b [] (head :: rest) s = (.error .recursionError, s) := by
  have step : ∀ (n : Nat) (x y : Path) (X : Scope) (xs : List Path), x ∈ s.visited →
      s.definitions.lookup x = some X → ¬ Defines X [head] →
      s.submodules.lookup x = some (y :: xs) →
      resolveP E n y [] (head :: rest) s = (.error .recursionError, s) →
      resolveP E (n + 1) x [] (head :: rest) s = (.error .recursionError, s) := by
    intro n x y X xs hx hX hXh sx hy
    rw [resolveP]
    cases n with
    | zero =>
      refine bind_of_error ?_
      rw [parseScope]
      rfl
    | succ n =>
      rw [bind_of_ok (parse_visited_ok E n hx hX)]
      unfold resolveIn
      have h1 : ¬ scopeContains X ([] ++ [head]) = true :=
        fun h => hXh ((scopeContains_iff _ _).1 h)
      have h2 : ¬ (X.get? head).isSome = true := by
        intro h
        obtain ⟨inner, hi⟩ := Option.isSome_iff_exists.1 h
        exact hXh ⟨inner, hi, trivial⟩
      rw [if_neg h1, if_neg h2]
      show P.firstFound _ _ ((s.submodules.lookup x).getD []) s = _
      rw [sx, Option.getD_some, P.firstFound, P.orNotFound, hy]
  intro n
  induction n with
  | zero => constructor <;> rw [resolveP] <;> rfl
  | succ n ih =>
    exact ⟨step n a b A as ha hA hAh sa ih.2, step n b a B bs hb hB hBh sb ih.1⟩

theorem loadedNames_eq (test : Expr) :
    loadedNames test = (subtrees test).filterMap Expr.dependencyName := by
  unfold loadedNames
  congr 1 <;> (funext e; cases e <;> first | rfl | (rename_i load; cases load <;> rfl))

theorem dependencyName_some {e : Expr} {name : String} (h : e.dependencyName = some name) :
    e = .name name true := by
  cases e
  case name id load =>
    cases load
    · cases h
    · cases h; rfl
  all_goals cases h

/-- The tests of statements: what is looked up for them. -/
theorem dependencies_complete {test : Expr} (h : ∀ id load, test ≠ .name id load) :
    ∀ name ∈ loadedNames test, name ∈ test.dependencies := by
  have mem_dedup : ∀ {l : List String} {x : String}, x ∈ l → x ∈ dedup l := by
    intro l
    induction l with
    | nil => intro x hx; cases hx
    | cons y ys ih =>
      intro x hx
      rw [dedup, List.mem_cons]
      by_cases e : x = y
      · exact .inl e
      · right
        rw [List.mem_filter]
        exact ⟨ih ((List.mem_cons.1 hx).resolve_left e), by simpa using e⟩
  intro name hn
  rw [loadedNames_eq] at hn
  obtain ⟨e, he, hname⟩ := List.mem_filterMap.1 hn
  have hne : e ≠ test := by
    intro heq
    exact h _ _ (heq ▸ dependencyName_some hname)
  rw [subtrees_eq, List.mem_cons] at he
  have he := he.resolve_left hne
  unfold Expr.dependencies
  refine mem_dedup (List.mem_filterMap.2 ⟨e, ?_, hname⟩)
  rw [descendants_levels]
  have hs : Expr.sizes test.children ≤ test.size := by rw [size_children test]; omega
  exact (levels_perm _ _ hs).mem_iff.2 he

theorem mem_of_mem_dedup : ∀ {l : List String} {x : String}, x ∈ dedup l → x ∈ l
  | y :: ys, x, h => by
    rw [dedup, List.mem_cons] at h
    rcases h with rfl | h
    · exact List.mem_cons_self
    · exact List.mem_cons_of_mem _ (mem_of_mem_dedup (List.mem_filter.1 h).1)

theorem dependencies_sound {test : Expr} : ∀ name ∈ test.dependencies, name ∈ loadedNames test := by
  intro name h
  have h : name ∈ test.descendants.filterMap Expr.dependencyName := mem_of_mem_dedup h
  obtain ⟨e, he, hname⟩ := List.mem_filterMap.1 h
  rw [descendants_levels] at he
  have hs : Expr.sizes test.children ≤ test.size := by rw [size_children test]; omega
  have he := (levels_perm _ _ hs).mem_iff.1 he
  rw [loadedNames_eq]
  refine List.mem_filterMap.2 ⟨e, ?_, hname⟩
  rw [subtrees_eq]
  exact List.mem_cons_of_mem _ he

theorem map_resolve_ok {resolve : Path → Path → Path → P QPath} {c : Place} {s : ParseState} :
    ∀ names : List String, (∀ name ∈ names, ∃ q, resolve c.module c.parent [name] s = (.ok q, s)) →
    ∃ ns : List (String × QPath), ns.map Prod.fst = names ∧
      P.map (fun name => do
        let q ← resolve c.module c.parent [name]
        pure (name, q)) names s = (.ok ns, s)
  | [], _ => ⟨[], rfl, rfl⟩
  | name :: names, h => by
    obtain ⟨q, hq⟩ := h name List.mem_cons_self
    obtain ⟨ns, h1, h2⟩ := map_resolve_ok (resolve := resolve) (c := c) (s := s) names
      fun x hx => h x (List.mem_cons_of_mem _ hx)
    refine ⟨(name, q) :: ns, by simp [h1], ?_⟩
    show ((do
        let q ← resolve c.module c.parent [name]
        pure (name, q)) >>= fun y => (P.map (fun name => do
          let q ← resolve c.module c.parent [name]
          pure (name, q)) names) >>= fun ys => P.pure (y :: ys)) s = _
    rw [bind_of_ok (t := s) (a := (name, q)) (by rw [bind_of_ok hq]; rfl), bind_of_ok h2]
    rfl

theorem toPath_of_dotted : ∀ {e : Expr} {path : Path}, dotted e = some path → toPath e = .ok path
  | .name .., _, h => by cases h; rfl
  | .attribute value attr _, path, h => by
    rw [dotted] at h
    obtain ⟨p, hp, rfl⟩ := Option.map_eq_some_iff.1 h
    rw [toPath, toPath_of_dotted hp]

/-- An exception while the first star import is looked through ends the lookup. -/
theorem resolveP_star_error (E : StubFiles) (n : Nat) {x y : Path} {head : String} {rest : Path}
    {s t u : ParseState} {X : Scope} {xs : List Path} {e : PyErr}
    (hp : parseScope E n x s = (.ok X, t)) (hX : ¬ Defines X [head])
    (hs : t.submodules.lookup x = some (y :: xs)) (he : e ≠ .objectNotFound)
    (hy : resolveP E n y [] (head :: rest) t = (.error e, u)) :
    resolveP E (n + 1) x [] (head :: rest) s = (.error e, u) := by
  rw [resolveP, bind_of_ok hp]
  unfold resolveIn
  have h1 : ¬ scopeContains X ([] ++ [head]) = true := fun h => hX ((scopeContains_iff _ _).1 h)
  have h2 : ¬ (X.get? head).isSome = true := by
    intro h
    obtain ⟨inner, hi⟩ := Option.isSome_iff_exists.1 h
    exact hX ⟨inner, hi, trivial⟩
  rw [if_neg h1, if_neg h2]
  show P.firstFound _ _ ((t.submodules.lookup x).getD []) t = _
  rw [hs, Option.getD_some, P.firstFound, P.orNotFound, hy]
  cases e
  case objectNotFound => exact absurd rfl he
  all_goals rfl

end Paradigm
