import Verif.Lemmas.Star

/-!
# C32–C38: name resolution in the stub tables, and C61
-/

namespace Paradigm.Props

open Spec

/-- A scope without names. -/
def noNames : Scope := .mk []

/-- A scope of names that have no attributes. -/
def names (xs : List String) : Scope := .mk (xs.map (fun x => (x, noNames)))

/-! ### Sample tables

`pkg` defines class `C(Base)` with `run`, star-imports `pkg.sub` (which star-imports `pkg` back and
defines `helper`), and does `from ext import Base, f as g`; `ext` defines `Base` with `close`. -/
def sampleTables : Tables where
  definitions := [
    (["builtins"], .mk [("object", names ["__init__", "__new__"]), ("int", noNames)]),
    (["pkg"], .mk [("C", names ["run"])]),
    (["pkg", "sub"], names ["helper"]),
    (["ext"], .mk [("Base", names ["close"]), ("f", noNames)])]
  references := [
    (["builtins"], []),
    (["pkg"], [(["Base"], (["ext"], ["Base"])), (["g"], (["ext"], ["f"])), (["ext"], (["ext"], []))]),
    (["pkg", "sub"], []),
    (["ext"], [])]
  submodules := [(["pkg"], [["pkg", "sub"]]), (["pkg", "sub"], [["pkg"]])]
  superclasses := [(["pkg"], [(["C"], [(["pkg"], ["Base"])])])]

/-! ### C32 -/

/-- **C32.** -/
theorem C32_resolved_is_defined (T : Tables) (n : Nat) (m parent object : Path)
    (visited : List Path) (q : QPath) (h : resolve T n m parent object visited = .ok q) :
    DefinedIn T q.1 q.2 :=
  resolve_defined h

example : resolve sampleTables 5 ["pkg"] [] ["C", "close"] [] = .ok (["ext"], ["Base", "close"]) :=
  rfl
example : resolve sampleTables 5 ["pkg"] ["C"] ["run"] [] = .ok (["pkg"], ["C", "run"]) := rfl
example : resolve sampleTables 5 ["pkg"] ["C"] ["helper"] [] = .ok (["pkg", "sub"], ["helper"]) :=
  rfl
example : resolve sampleTables 5 ["pkg"] [] ["g"] [] = .ok (["ext"], ["f"]) := rfl
example : resolve sampleTables 5 ["pkg"] [] ["ext", "f"] [] = .ok (["ext"], ["f"]) := rfl
example : resolve sampleTables 5 ["pkg"] [] ["C", "__init__"] []
    = .ok (["builtins"], ["object", "__init__"]) := rfl
example : resolve sampleTables 5 ["pkg"] [] ["nope"] [] = .error .objectNotFound := rfl

/-! ### C33 -/

/-- **C33.** Whatever had been visited, and in a single call. -/
theorem C33_resolve_idempotent (T : Tables) (n : Nat) (m parent object : Path)
    (visited : List Path) (q : QPath) (h : resolve T n m parent object visited = .ok q)
    (k : Nat) (visited' : List Path) :
    resolve T (k + 1) q.1 [] q.2 visited' = .ok q :=
  resolve_of_defined (resolve_defined h) k visited'

example : resolve sampleTables 5 ["pkg"] [] ["g"] [] = .ok (["ext"], ["f"])
    ∧ resolve sampleTables 1 ["ext"] [] ["f"] [] = .ok (["ext"], ["f"]) := ⟨rfl, rfl⟩

/-! ### C34 -/

/-- The claim for explicit imports against builtins: a single name that the module does not define,
that no star-imported module binds in any way, and that the module imports from where it is defined,
resolves to the imported object. -/
def C34_statement : Prop :=
  ∀ (T : Tables) (m : Path) (x : String) (refs : Dict Path QPath) (rm ro : Path),
    Known T builtinsPath →
    (∀ s, Known T s → ∃ refs, T.references.lookup s = some refs) →
    Known T m → ¬ DefinedIn T m [x] →
    (∀ s, StarReach T m s → s ≠ m → ¬ DefinedIn T s [x] ∧
      ∀ refs, T.references.lookup s = some refs → refs.lookup [x] = none) →
    T.references.lookup m = some refs → refs.lookup [x] = some (rm, ro) → DefinedIn T rm ro →
    Answers T m [] [x] [] (.ok (rm, ro))

/-- `from helpers import *` and `from io import open` in `m`. -/
def shadowTables : Tables where
  definitions := [(["builtins"], names ["open"]), (["m"], noNames), (["helpers"], names ["h"]),
    (["io"], names ["open"])]
  references := [(["builtins"], []), (["m"], [(["open"], (["io"], ["open"]))]), (["helpers"], []),
    (["io"], [])]
  submodules := [(["m"], [["helpers"]])]
  superclasses := []

theorem shadow_reach {s : Path} (h : StarReach shadowTables ["m"] s) :
    s = ["m"] ∨ s = ["helpers"] := by
  cases h with
  | refl => exact .inl rfl
  | step h1 h2 =>
    obtain ⟨_, ss, h3, h4⟩ := h1
    simp only [shadowTables, List.lookup, beq_self_eq_true, Option.some.injEq] at h3
    subst h3
    simp only [List.mem_cons, List.not_mem_nil, or_false] at h4
    subst h4
    cases h2 with
    | refl => exact .inr rfl
    | step h1 _ =>
      obtain ⟨_, ss, h3, _⟩ := h1
      simp [shadowTables, List.lookup] at h3

/-- The star import finds `open` in builtins before the explicit import is looked at. -/
theorem C34_refuted : ¬ C34_statement := by
  intro h
  have h1 : Answers shadowTables ["m"] [] ["open"] [] (.ok (["io"], ["open"])) := by
    refine h shadowTables ["m"] "open" _ ["io"] ["open"] ⟨_, rfl⟩ ?_ ⟨_, rfl⟩ ?_ ?_ rfl rfl
      ⟨_, rfl, noNames, rfl, trivial⟩
    · rintro s ⟨scope, hs⟩
      have := lookup_mem_keys hs
      simp only [shadowTables, List.map_cons, List.map_nil, List.mem_cons, List.not_mem_nil,
        or_false] at this
      rcases this with rfl | rfl | rfl | rfl <;> exact ⟨_, rfl⟩
    · rintro ⟨scope, h1, inner, h2, _⟩
      simp only [shadowTables, List.lookup, Option.some.injEq] at h1
      rw [← (Option.some.inj (h1 : some noNames = some scope))] at h2
      simp [noNames, Scope.entries] at h2
    · intro s hs hne
      rcases shadow_reach hs with rfl | rfl
      · exact absurd rfl hne
      · refine ⟨?_, ?_⟩
        · rintro ⟨scope, h1, inner, h2, _⟩
          rw [← (Option.some.inj (h1 : some (names ["h"]) = some scope))] at h2
          simp [names, Scope.entries, List.lookup] at h2
        · intro refs h1
          rw [← (Option.some.inj (h1 : some [] = some refs))]
          rfl
  have h2 : Answers shadowTables ["m"] [] ["open"] [] (.ok (["builtins"], ["open"])) :=
    answers_of (n := 3) rfl (by simp)
  have := answers_unique h1 h2
  simp at this

/-- **C34** with one more hypothesis: the claim holds if builtins does not define the name (and the
module does not star-import itself). Missing: names that builtins defines, where the claim is
false (`C34_refuted`). -/
theorem C34_reference_decides_partial (T : Tables) (m : Path) (x : String) (refs : Dict Path QPath)
    (rm ro : Path) (hb : Known T builtinsPath) (hnb : ¬ DefinedIn T builtinsPath [x])
    (hrefs : ∀ s, Known T s → ∃ refs, T.references.lookup s = some refs)
    (hk : Known T m) (hx : ¬ DefinedIn T m [x]) (hself : ¬ Star T m m)
    (hstar : ∀ s, StarReach T m s → s ≠ m → ¬ DefinedIn T s [x] ∧
      ∀ refs, T.references.lookup s = some refs → refs.lookup [x] = none)
    (hr : T.references.lookup m = some refs) (hrx : refs.lookup [x] = some (rm, ro))
    (hd : DefinedIn T rm ro) : Answers T m [] [x] [] (.ok (rm, ro)) := by
  refine answers_of (n := 2 * T.definitions.length + 3) ?_ (by simp)
  rw [resolve_succ]
  obtain ⟨scope, hk'⟩ := hk
  have hg : scope.get? x = none := by
    cases h : scope.get? x with
    | none => rfl
    | some inner => exact absurd ⟨scope, hk', inner, h, trivial⟩ hx
  unfold step
  simp only [hk', scopeContains_nil, Bool.not_true, List.isEmpty_nil, Bool.false_and, hg,
    Bool.false_eq_true, if_false]
  have htry : tryEach (fun s => resolve T (2 * T.definitions.length + 2) s [] [x] ([] ++ [m]))
      ((T.subs m).filter (fun s => !([] : List Path).contains s)) = none := by
    rw [tryEach_none]
    intro s hs
    have hs := (List.mem_filter.1 hs).1
    have hs1 : Star T m s := ⟨⟨scope, hk'⟩, mem_subs.1 hs⟩
    have hsm : s ≠ m := by rintro rfl; exact hself hs1
    have reach_snoc : ∀ {a b c}, StarReach T a b → Star T b c → StarReach T a c := by
      intro a b c h1 h2
      induction h1 with
      | refl => exact .step h2 (.refl _)
      | step h3 _ ih => exact .step h3 (ih h2)
    have := resolve_star (T := T) (x := x) (fun s => StarReach T m s ∧ s ≠ m) [m]
      (fun a b ha hab => by
        by_cases hbm : b = m
        · exact .inl (by simp [hbm])
        · exact .inr ⟨reach_snoc ha.1 hab, hbm⟩)
      (fun a ha hka => by
        obtain ⟨refs, h1⟩ := hrefs a hka
        exact ⟨refs, h1, (hstar a ha.1 ha.2).2 refs h1⟩)
      hb (2 * T.definitions.length + 2) s [m] (by simp) ⟨.step hs1 (.refl s), hsm⟩
      (by have := starDepth_le_bound T s [m]; omega)
    rcases this with ⟨d, h1, h2, h3 | h3, _⟩ | h
    · exfalso
      by_cases hdm : d = m
      · subst hdm; exact hx h2
      · exact (hstar d (.step hs1 h3) hdm).1 h2
    · exfalso
      subst h3
      exact hnb h2
    · exact h.1
  rw [htry]
  simp only [hr, longestReference, List.length_nil, Nat.zero_add]
  simp only [List.take_succ_cons, List.take_zero, hrx, List.drop_succ_cons, List.drop_nil,
    List.append_nil]
  rw [resolve_of_defined hd]
  simp only
  exact resolve_of_defined hd _ _

/-- Non-vacuity: `m` does `from helpers import *` and `from io import text`. -/
def okTables : Tables where
  definitions := [(["builtins"], names ["open"]), (["m"], noNames), (["helpers"], names ["h"]),
    (["io"], names ["text"])]
  references := [(["builtins"], []), (["m"], [(["text"], (["io"], ["text"]))]), (["helpers"], []),
    (["io"], [])]
  submodules := [(["m"], [["helpers"]]), (["helpers"], [["m"]])]
  superclasses := []

theorem ok_star {a s : Path} (h : Star okTables a s) :
    a = ["m"] ∧ s = ["helpers"] ∨ a = ["helpers"] ∧ s = ["m"] := by
  obtain ⟨_, ss, h3, h4⟩ := h
  have h3 := lookup_mem h3
  simp only [okTables, List.mem_cons, Prod.mk.injEq, List.not_mem_nil, or_false] at h3
  rcases h3 with ⟨rfl, rfl⟩ | ⟨rfl, rfl⟩ <;> simp_all

theorem ok_reach {a s : Path} (h : StarReach okTables a s) (ha : a = ["m"] ∨ a = ["helpers"]) :
    s = ["m"] ∨ s = ["helpers"] := by
  induction h with
  | refl => exact ha
  | step h1 _ ih => rcases ok_star h1 with ⟨_, h⟩ | ⟨_, h⟩ <;> exact ih (by simp [h])

theorem ok_not_defined {m : Path} {xs : List String}
    (hm : okTables.definitions.lookup m = some (names xs))
    (hx : (names xs).entries.lookup "text" = none) : ¬ DefinedIn okTables m ["text"] := by
  rintro ⟨scope, h1, inner, h2, _⟩
  rw [← Option.some.inj (hm.symm.trans h1), hx] at h2
  simp at h2

example : Answers okTables ["m"] [] ["text"] [] (.ok (["io"], ["text"])) := by
  refine C34_reference_decides_partial okTables ["m"] "text" _ ["io"] ["text"] ⟨_, rfl⟩
    (ok_not_defined rfl rfl) ?_ ⟨_, rfl⟩ (ok_not_defined (xs := []) rfl rfl) ?_ ?_ rfl rfl
    ⟨_, rfl, noNames, rfl, trivial⟩
  · rintro s ⟨scope, hs⟩
    have := lookup_mem_keys hs
    simp only [okTables, List.map_cons, List.map_nil, List.mem_cons, List.not_mem_nil,
      or_false] at this
    rcases this with rfl | rfl | rfl | rfl <;> exact ⟨_, rfl⟩
  · intro h
    rcases ok_star h with ⟨_, h⟩ | ⟨h, _⟩ <;> simp at h
  · intro s hs hne
    rcases ok_reach hs (.inl rfl) with rfl | rfl
    · exact absurd rfl hne
    · refine ⟨ok_not_defined rfl rfl, ?_⟩
      intro refs h1
      rw [← Option.some.inj (h1 : some [] = some refs)]
      rfl

/-- A name bound in the enclosing class wins: looking it up in the class scope is looking up the
dotted path. -/
theorem C34_class_first (T : Tables) (n : Nat) (m parent : Path) (head : String) (rest : Path)
    (visited : List Path) (hp : parent ≠ []) (h : DefinedIn T m (parent ++ [head])) :
    resolve T (n + 1) m parent (head :: rest) visited
      = resolve T n m [] (parent ++ head :: rest) visited := by
  obtain ⟨scope, hd, h⟩ := h
  have h' : Defines scope parent := defines_prefix h
  rw [resolve_succ]
  unfold step
  have : parent.isEmpty = false := by cases parent <;> simp_all
  simp [hd, (scopeContains_iff _ _).2 h, (scopeContains_iff _ _).2 h', this]

example : resolve sampleTables 5 ["pkg"] ["C"] ["run"] []
    = resolve sampleTables 4 ["pkg"] [] ["C", "run"] [] := rfl

/-- Then the module itself. -/
theorem C34_module_second (T : Tables) (n : Nat) (m parent : Path) (head : String) (rest : Path)
    (visited : List Path) (hp : DefinedIn T m parent)
    (hc : parent ≠ [] → ¬ DefinedIn T m (parent ++ [head]))
    (h : DefinedIn T m (head :: rest)) :
    resolve T (n + 1) m parent (head :: rest) visited = .ok (m, head :: rest) := by
  obtain ⟨scope, hd, inner, h1, h2⟩ := h
  obtain ⟨scope', hd', hp⟩ := hp
  obtain rfl : scope = scope' := Option.some.inj (hd.symm.trans hd')
  have hcc : (!parent.isEmpty && scopeContains scope (parent ++ [head])) = false := by
    cases parent with
    | nil => rfl
    | cons a as =>
      have := hc (by simp)
      cases hs : scopeContains scope (a :: as ++ [head]) with
      | false => simp
      | true => exact absurd ⟨scope, hd, (scopeContains_iff _ _).1 hs⟩ this
  rw [resolve_succ]
  unfold step
  simp [hd, (scopeContains_iff _ _).2 hp, hcc, Scope.get?, h1, (missingIndex_none rest inner 1).2 h2]

example : resolve sampleTables 1 ["ext"] ["Base"] ["f"] [] = .ok (["ext"], ["f"]) := rfl

/-- Then star imports, in order: the first one that resolves the name decides (with the module
itself no longer star-imported). -/
theorem C34_star_third (T : Tables) (m : Path) (head : String) (rest : Path) (scope : Scope)
    (pre post : List Path) (s : Path) (q : QPath)
    (hk : T.definitions.lookup m = some scope) (hx : ¬ DefinedIn T m [head])
    (hs : T.submodules.lookup m = some (pre ++ s :: post))
    (hpre : ∀ p ∈ pre, Answers T p [] (head :: rest) [m] (.error .objectNotFound))
    (hq : Answers T s [] (head :: rest) [m] (.ok q)) :
    Answers T m [] (head :: rest) [] (.ok q) := by
  obtain ⟨n, hn⟩ := hq
  obtain ⟨n', hn'⟩ := answers_uniform hpre
  have hg : scope.get? head = none := by
    cases h : scope.get? head with
    | none => rfl
    | some inner => exact absurd ⟨scope, hk, inner, h, trivial⟩ hx
  refine answers_of (n := max n n' + 1) ?_ (by simp)
  rw [resolve_succ]
  unfold step
  simp only [hk, scopeContains_nil, Bool.not_true, List.isEmpty_nil, Bool.false_and, hg,
    Bool.false_eq_true, if_false]
  have : (T.subs m).filter (fun s => !([] : List Path).contains s) = pre ++ s :: post := by
    rw [List.filter_eq_self.2 (by simp)]
    simp [Tables.subs, hs]
  rw [this, tryEach_first (f := fun s => resolve T (max n n') s [] (head :: rest) ([] ++ [m]))
    (r := .ok q) (by simp) (hn _ (by omega)) (fun p hp => hn' p hp _ (by omega))]

example : resolve sampleTables 5 ["pkg"] [] ["helper"] [] = .ok (["pkg", "sub"], ["helper"]) := rfl

/-- Then explicit imports and aliases, the longest dotted prefix first. -/
theorem C34_reference_fourth (T : Tables) (m : Path) (head : String) (rest : Path) (scope : Scope)
    (refs : Dict Path QPath) (k : Nat) (rm ro rm' ro' : Path) (r : Except PyErr QPath)
    (hk : T.definitions.lookup m = some scope) (hx : ¬ DefinedIn T m [head])
    (hs : ∀ s ∈ T.subs m, Answers T s [] (head :: rest) [m] (.error .objectNotFound))
    (hr : T.references.lookup m = some refs) (hk1 : 1 ≤ k) (hk2 : k ≤ rest.length + 1)
    (hrx : refs.lookup ((head :: rest).take k) = some (rm, ro))
    (hlong : ∀ j, k < j → j ≤ rest.length + 1 → refs.lookup ((head :: rest).take j) = none)
    (hq : Answers T rm [] ro [m] (.ok (rm', ro')))
    (hq' : Answers T rm' [] (ro' ++ (head :: rest).drop k) [m] r)
    (hne : r ≠ .error .recursionError) :
    Answers T m [] (head :: rest) [] r := by
  obtain ⟨n, hn⟩ := hq
  obtain ⟨n1, hn1⟩ := hq'
  obtain ⟨n', hn'⟩ := answers_uniform hs
  have hg : scope.get? head = none := by
    cases h : scope.get? head with
    | none => rfl
    | some inner => exact absurd ⟨scope, hk, inner, h, trivial⟩ hx
  refine answers_of (n := max (max n n1) n' + 1) ?_ hne
  rw [resolve_succ]
  unfold step
  simp only [hk, scopeContains_nil, Bool.not_true, List.isEmpty_nil, Bool.false_and, hg,
    Bool.false_eq_true, if_false]
  rw [tryEach_none.2]
  · simp only [hr, longestReference_eq hk1 hk2 hrx hlong, List.nil_append]
    rw [hn _ (by omega)]
    exact hn1 _ (by omega)
  · intro s hs'
    exact hn' s (List.mem_filter.1 hs').1 _ (by omega)

example : resolve sampleTables 5 ["pkg"] [] ["Base", "close"] [] = .ok (["ext"], ["Base", "close"]) :=
  rfl

/-- Builtins come last. -/
theorem C34_builtins_last (T : Tables) (m : Path) (head : String) (rest : Path) (scope : Scope)
    (refs : Dict Path QPath)
    (hk : T.definitions.lookup m = some scope) (hx : ¬ DefinedIn T m [head])
    (hs : ∀ s ∈ T.subs m, Answers T s [] (head :: rest) [m] (.error .objectNotFound))
    (hr : T.references.lookup m = some refs)
    (hno : ∀ j, 1 ≤ j → j ≤ rest.length + 1 → refs.lookup ((head :: rest).take j) = none)
    (hb : DefinedIn T builtinsPath (head :: rest)) :
    Answers T m [] (head :: rest) [] (.ok (builtinsPath, head :: rest)) := by
  obtain ⟨n', hn'⟩ := answers_uniform hs
  obtain ⟨bs, hb1, hb2⟩ := hb
  have hg : scope.get? head = none := by
    cases h : scope.get? head with
    | none => rfl
    | some inner => exact absurd ⟨scope, hk, inner, h, trivial⟩ hx
  refine answers_of (n := n' + 1) ?_ (by simp)
  rw [resolve_succ]
  unfold step
  simp only [hk, scopeContains_nil, Bool.not_true, List.isEmpty_nil, Bool.false_and, hg,
    Bool.false_eq_true, if_false]
  rw [tryEach_none.2]
  · simp [hr, longestReference_none.2 hno, hb1, (scopeContains_iff _ _).2 hb2]
  · intro s hs'
    exact hn' s (List.mem_filter.1 hs').1 _ (by omega)

example : resolve sampleTables 5 ["ext"] [] ["int"] [] = .ok (["builtins"], ["int"]) := rfl

/-! ### C35 -/

/-- **C35.** For a name that no module imports explicitly, resolution always terminates and finds
the name iff a module reachable by star imports defines it, or builtins does (and the module is
known); otherwise it reports not-found. The location found is one of these. -/
theorem C35_star_imports (T : Tables) (x : String) (m : Path)
    (hrefs : ∀ s, Known T s → ∃ refs, T.references.lookup s = some refs ∧ refs.lookup [x] = none)
    (hb : Known T builtinsPath) :
    ∃ r, Answers T m [] [x] [] r ∧
      (r = .error .objectNotFound ∨
        ∃ d, r = .ok (d, [x]) ∧ DefinedIn T d [x] ∧ (StarReach T m d ∨ d = builtinsPath)) ∧
      ((∃ q, r = .ok q) ↔ (∃ d, StarReach T m d ∧ DefinedIn T d [x]) ∨
        Known T m ∧ DefinedIn T builtinsPath [x]) := by
  have h := resolve_star (T := T) (x := x) (fun _ => True) [] (fun _ _ _ _ => .inr trivial)
    (fun s _ hs => hrefs s hs) hb (2 * T.definitions.length + 2) m [] (by simp) trivial
    (by have := starDepth_le_bound T m []; omega)
  rcases h with ⟨d, h1, h2, h3, h4⟩ | ⟨h1, h2, h3⟩
  · refine ⟨_, answers_of h1 (by simp), .inr ⟨d, rfl, h2, h3⟩, ?_⟩
    simp only [Except.ok.injEq, exists_eq', true_iff]
    rcases h3 with h3 | rfl
    · exact .inl ⟨d, h3, h2⟩
    · exact .inr ⟨h4, h2⟩
  · refine ⟨_, answers_of h1 (by simp), .inl rfl, ?_⟩
    simp only [reduceCtorEq, exists_false, false_iff, not_or]
    exact ⟨fun ⟨d, hd, hdx⟩ => h2 d (starReach_avoid hd) hdx, h3⟩

/-- Three modules star-importing each other in a circle; only the last defines `x`. -/
def cycleTables : Tables where
  definitions := [(["builtins"], noNames), (["a"], noNames), (["b"], noNames), (["c"], names ["x"])]
  references := [(["builtins"], []), (["a"], []), (["b"], []), (["c"], [])]
  submodules := [(["a"], [["a"], ["b"]]), (["b"], [["a"], ["c"]]), (["c"], [["a"]])]
  superclasses := []

theorem cycle_refs (x : String) (s : Path) (hs : Known cycleTables s) :
    ∃ refs, cycleTables.references.lookup s = some refs ∧ refs.lookup [x] = none := by
  obtain ⟨scope, hs⟩ := hs
  have := lookup_mem_keys hs
  simp only [cycleTables, List.map_cons, List.map_nil, List.mem_cons, List.not_mem_nil,
    or_false] at this
  rcases this with rfl | rfl | rfl | rfl <;> exact ⟨[], rfl, rfl⟩

example : Answers cycleTables ["a"] [] ["x"] [] (.ok (["c"], ["x"])) := answers_of (n := 9) rfl (by simp)
example : Answers cycleTables ["a"] [] ["y"] [] (.error .objectNotFound) :=
  answers_of (n := 9) rfl (by simp)

/-! ### C36 -/

/-- Resolution of any name terminates. -/
def C36_statement : Prop :=
  ∀ (T : Tables) (m parent object : Path), Terminates T m parent object []

/-- `from b import x` in `a` and `from a import x` in `b`. -/
def mutualTables : Tables where
  definitions := [(["builtins"], noNames), (["a"], noNames), (["b"], noNames)]
  references := [(["builtins"], []), (["a"], [(["x"], (["b"], ["x"]))]),
    (["b"], [(["x"], (["a"], ["x"]))])]
  submodules := []
  superclasses := []

theorem mutual_diverges : ∀ (n : Nat) (V : List Path),
    resolve mutualTables n ["a"] [] ["x"] V = .error .recursionError ∧
    resolve mutualTables n ["b"] [] ["x"] V = .error .recursionError
  | 0, V => ⟨rfl, rfl⟩
  | n + 1, V => by
    have ha := (mutual_diverges n (V ++ [["b"]])).1
    have hb := (mutual_diverges n (V ++ [["a"]])).2
    constructor
    · rw [resolve_succ]
      show (match resolve mutualTables n ["b"] [] ["x"] (V ++ [["a"]]) with
        | .ok (rm, ro) => resolve mutualTables n rm [] (ro ++ []) (V ++ [["a"]])
        | .error .objectNotFound => _
        | .error e => .error e) = _
      rw [hb]
    · rw [resolve_succ]
      show (match resolve mutualTables n ["a"] [] ["x"] (V ++ [["b"]]) with
        | .ok (rm, ro) => resolve mutualTables n rm [] (ro ++ []) (V ++ [["b"]])
        | .error .objectNotFound => _
        | .error e => .error e) = _
      rw [ha]

theorem C36_refuted : ¬ C36_statement := by
  intro h
  obtain ⟨r, hr, n, hn⟩ := h mutualTables ["a"] [] ["x"]
  exact hr ((hn n (Nat.le_refl n)).symm.trans (mutual_diverges n []).1)

/-- **C36** for tables whose explicit imports, aliases and base classes are not circular (there is a
rank, see `Spec.Ranked`); star imports and module imports may be circular. Missing: circular
explicit imports, for which the claim is false (`C36_refuted`). -/
theorem C36_terminates_partial (T : Tables) (ρ : Path → Path → Nat) (H : Ranked T ρ)
    (m parent object : Path) : Terminates T m parent object [] := by
  have key : ∀ m object V, ∃ n, resolve T n m [] object V ≠ .error .recursionError :=
    fun m object V => ⟨_, (resolve_ranked H _ m object V (Nat.lt_succ_self _)).1⟩
  have : ∃ n, resolve T n m parent object [] ≠ .error .recursionError := by
    by_cases hp : parent = []
    · subst hp; exact key m object []
    · cases object with
      | nil =>
        refine ⟨1, ?_⟩
        rw [resolve_succ]
        unfold step
        cases T.definitions.lookup m <;> simp
      | cons head rest =>
        obtain ⟨n1, h1⟩ := key m (parent ++ head :: rest) []
        obtain ⟨n2, h2⟩ := key m (head :: rest) []
        refine ⟨max n1 n2 + 1, ?_⟩
        cases hd : T.definitions.lookup m with
        | none => rw [resolve_succ]; unfold step; simp [hd]
        | some scope =>
          by_cases c1 : scopeContains scope parent = true
          · by_cases c2 : scopeContains scope (parent ++ [head]) = true
            · rw [C34_class_first T _ m parent head rest [] hp ⟨scope, hd, (scopeContains_iff _ _).1 c2⟩,
                resolve_mono (by omega) h1]
              exact h1
            · have : resolve T (max n1 n2 + 1) m parent (head :: rest) []
                  = resolve T (max n1 n2 + 1) m [] (head :: rest) [] := by
                rw [resolve_succ, resolve_succ]
                unfold step
                simp [hd, c1, c2, scopeContains_nil]
              rw [this, resolve_mono (by omega) h2]
              exact h2
          · rw [resolve_succ]; unfold step; simp [hd, c1]
  obtain ⟨n, hn⟩ := this
  exact ⟨_, hn, answers_of rfl hn⟩

/-- `a` and `b` import each other, `a` and `c` star-import each other, and `a` has
`class C(b.B)`. -/
def importCycleTables : Tables where
  definitions := [(["builtins"], .mk [("object", names ["__init__"])]),
    (["a"], .mk [("C", noNames)]), (["b"], .mk [("B", names ["run"])]), (["c"], noNames)]
  references := [(["builtins"], []), (["a"], [(["b"], (["b"], []))]), (["b"], [(["a"], (["a"], []))]),
    (["c"], [])]
  submodules := [(["a"], [["c"]]), (["c"], [["a"]])]
  superclasses := [(["a"], [(["C"], [(["a"], ["b", "B"])])])]

/-- Weight of a name in a module. -/
def weight (m : Path) (x : String) : Nat :=
  if x = "object" then 0
  else if m = ["a"] ∨ m = ["c"] then (if x = "C" then 22 else if x = "b" then 11 else 1)
  else if m = ["b"] then (if x = "a" then 13 else 1)
  else 1

/-- A rank for `importCycleTables`: imports shorten the path. -/
def sampleRank (m : Path) : Path → Nat
  | [] => 0
  | x :: p => 10 * p.length + 10 + weight m x

theorem sampleRank_a (p : Path) : sampleRank ["a"] p ≤ 10 * p.length + 22 := by
  cases p with
  | nil => simp [sampleRank]
  | cons x p =>
    simp only [sampleRank, List.length_cons, weight]
    repeat' split
    all_goals omega

theorem sampleRank_b (p : Path) : sampleRank ["b"] p ≤ 10 * p.length + 13 := by
  cases p with
  | nil => simp [sampleRank]
  | cons x p =>
    simp only [sampleRank, List.length_cons, weight]
    repeat' split
    all_goals first | omega | simp_all

/-- The hypothesis of `C36_terminates_partial` holds although imports are circular. -/
theorem importCycle_ranked : Ranked importCycleTables sampleRank where
  append m p rest := by
    cases p with
    | nil => simp [sampleRank]
    | cons x p => simp [sampleRank]; omega
  star m s p h := by
    obtain ⟨_, ss, h1, h2⟩ := h
    have := lookup_mem h1
    simp only [importCycleTables, List.mem_cons, Prod.mk.injEq, List.not_mem_nil, or_false] at this
    rcases this with ⟨rfl, rfl⟩ | ⟨rfl, rfl⟩ <;>
    · simp only [List.mem_cons, List.not_mem_nil, or_false] at h2
      subst h2
      cases p <;> simp [sampleRank, weight]
  builtin m p _ := by
    cases p with
    | nil => simp [sampleRank]
    | cons x p =>
      by_cases hx : x = "object"
      · simp [sampleRank, weight, hx]
      · simp [sampleRank, weight, hx, builtinsPath]
        repeat' split
        all_goals omega
  object m head p rest _ h := by
    simp only [sampleRank, weight, builtinsPath, if_neg h, if_true, List.length_append]
    repeat' split
    all_goals omega
  superclass m c ss s rest _ h hs := by
    have : m = ["a"] := by
      by_cases hm : m = ["a"]
      · exact hm
      · have hb : (m == ["a"]) = false := by simpa using hm
        simp [Tables.supers, importCycleTables, List.lookup, hb] at h
    subst this
    have h := lookup_mem (d := [(["C"], [(["a"], ["b", "B"])])]) (h : _ = some ss)
    simp only [List.mem_cons, Prod.mk.injEq, List.not_mem_nil, or_false] at h
    obtain ⟨rfl, rfl⟩ := h
    simp only [List.mem_cons, List.not_mem_nil, or_false] at hs
    subst hs
    simp [sampleRank, weight]
    omega
  reference m refs p rm ro rest _ h1 h2 := by
    have h1 := lookup_mem h1
    simp only [importCycleTables, List.mem_cons, Prod.mk.injEq, List.not_mem_nil, or_false] at h1
    rcases h1 with ⟨rfl, rfl⟩ | ⟨rfl, rfl⟩ | ⟨rfl, rfl⟩ | ⟨rfl, rfl⟩
    · simp at h2
    · have h2 := lookup_mem h2
      simp only [List.mem_cons, Prod.mk.injEq, List.not_mem_nil, or_false] at h2
      obtain ⟨rfl, rfl, rfl⟩ := h2
      have := sampleRank_b rest
      simp only [List.nil_append, List.cons_append]
      refine Nat.lt_of_le_of_lt this ?_
      simp [sampleRank, weight]
    · have h2 := lookup_mem h2
      simp only [List.mem_cons, Prod.mk.injEq, List.not_mem_nil, or_false] at h2
      obtain ⟨rfl, rfl, rfl⟩ := h2
      have := sampleRank_a rest
      simp only [List.nil_append, List.cons_append]
      refine Nat.lt_of_le_of_lt this ?_
      simp [sampleRank, weight]
    · simp at h2
  referenceModule m refs p rm ro rest _ h1 h2 := by
    have h1 := lookup_mem h1
    simp only [importCycleTables, List.mem_cons, Prod.mk.injEq, List.not_mem_nil, or_false] at h1
    rcases h1 with ⟨rfl, rfl⟩ | ⟨rfl, rfl⟩ | ⟨rfl, rfl⟩ | ⟨rfl, rfl⟩
    · simp at h2
    · have h2 := lookup_mem h2
      simp only [List.mem_cons, Prod.mk.injEq, List.not_mem_nil, or_false] at h2
      obtain ⟨rfl, rfl, rfl⟩ := h2
      have := sampleRank_b rest
      simp only [List.append_nil, List.cons_append, List.nil_append]
      refine Nat.lt_of_le_of_lt this ?_
      simp [sampleRank, weight]
    · have h2 := lookup_mem h2
      simp only [List.mem_cons, Prod.mk.injEq, List.not_mem_nil, or_false] at h2
      obtain ⟨rfl, rfl, rfl⟩ := h2
      have := sampleRank_a rest
      simp only [List.append_nil, List.cons_append, List.nil_append]
      refine Nat.lt_of_le_of_lt this ?_
      simp [sampleRank, weight]
    · simp at h2

example : Terminates importCycleTables ["a"] [] ["C", "run"] [] :=
  C36_terminates_partial importCycleTables sampleRank importCycle_ranked ["a"] [] ["C", "run"]
example : resolve importCycleTables 9 ["a"] [] ["C", "run"] [] = .ok (["b"], ["B", "run"]) := rfl

/-! ### C37 -/

/-- The claim: a class `cls` of module `m` that does not define `attr` has it exactly where its first
declared base has it, and where `builtins.object` has it if no base has. -/
def C37_statement : Prop :=
  ∀ (T : Tables) (m cls : Path) (attr : String) (bases : List QPath),
    cls ≠ [] → DefinedIn T m cls → ¬ DefinedIn T m (cls ++ [attr]) →
    T.supers m cls = some bases →
    (∀ pre s post q, bases = pre ++ s :: post →
      (∀ p ∈ pre, Answers T p.1 [] (p.2 ++ [attr]) [] (.error .objectNotFound)) →
      Answers T s.1 [] (s.2 ++ [attr]) [] (.ok q) →
      Answers T m [] (cls ++ [attr]) [] (.ok q)) ∧
    (∀ r, r ≠ .error .recursionError →
      (∀ p ∈ bases, Answers T p.1 [] (p.2 ++ [attr]) [] (.error .objectNotFound)) →
      Answers T builtinsPath [] ["object", attr] [] r →
      Answers T m [] (cls ++ [attr]) [] r)

/-- `m` defines `Base` with `close` and `class C(m2.Base)`; `m2` star-imports `m`. -/
def lostBaseTables : Tables where
  definitions := [(["builtins"], .mk [("object", names ["__init__"])]),
    (["m"], .mk [("Base", names ["close"]), ("C", noNames)]), (["m2"], noNames)]
  references := [(["builtins"], []), (["m"], []), (["m2"], [])]
  submodules := [(["m2"], [["m"]])]
  superclasses := [(["m"], [(["C"], [(["m2"], ["Base"])])])]

/-- The base resolves on its own, but not as a base: its module is star-imported from the module of
the class, which counts as visited. -/
theorem C37_refuted : ¬ C37_statement := by
  intro h
  have h1 := (h lostBaseTables ["m"] ["C"] "close" [(["m2"], ["Base"])] (by simp)
    ⟨_, rfl, noNames, rfl, trivial⟩
    (by
      rintro ⟨scope, h1, inner, h2, inner', h3, _⟩
      rw [← Option.some.inj (h1 : some (Scope.mk [("Base", names ["close"]), ("C", noNames)])
        = some scope)] at h2
      rw [← Option.some.inj (h2 : some noNames = some inner)] at h3
      simp [noNames, Scope.entries] at h3) rfl).1
    [] (["m2"], ["Base"]) [] (["m"], ["Base", "close"]) rfl (by simp)
    (answers_of (n := 3) rfl (by simp))
  have h2 : Answers lostBaseTables ["m"] [] ["C", "close"] [] (.error .objectNotFound) :=
    answers_of (n := 3) rfl (by simp)
  have := answers_unique h1 h2
  simp at this

/-- A class named `object` elsewhere than in builtins does not inherit from `builtins.object`. -/
theorem C37_refuted_object_name :
    let T : Tables := {
      definitions := [(["builtins"], .mk [("object", names ["__init__"])]),
        (["m"], .mk [("object", noNames)])]
      references := [(["builtins"], []), (["m"], [])], submodules := [],
      superclasses := [(["m"], [(["object"], [])])] }
    Answers T ["builtins"] [] ["object", "__init__"] [] (.ok (["builtins"], ["object", "__init__"])) ∧
    Answers T ["m"] [] ["object", "__init__"] [] (.error .objectNotFound) :=
  ⟨answers_of (n := 1) rfl (by simp), answers_of (n := 1) rfl (by simp)⟩

/-- **C37**, with what the code really asks of the bases: they are resolved with the module of the
class marked as visited. Missing for the full claim: bases found through a star import of the
module of the class (`C37_refuted`). -/
theorem C37_inherited_partial (T : Tables) (m : Path) (head : String) (cls : Path) (attr : String)
    (rest : Path) (bases pre post : List QPath) (s : QPath) (r : Except PyErr QPath)
    (hc : DefinedIn T m (head :: cls)) (ha : ¬ DefinedIn T m (head :: cls ++ [attr]))
    (hsup : T.supers m (head :: cls) = some bases) (hb : bases = pre ++ s :: post)
    (hpre : ∀ p ∈ pre, Answers T p.1 [] (p.2 ++ attr :: rest) [m] (.error .objectNotFound))
    (hs : Answers T s.1 [] (s.2 ++ attr :: rest) [m] r)
    (hr : r ≠ .error .objectNotFound) (hr' : r ≠ .error .recursionError) :
    Answers T m [] (head :: cls ++ attr :: rest) [] r := by
  obtain ⟨n, hn⟩ := hs
  obtain ⟨n', hn'⟩ := answers_uniform (f := fun p : QPath => p.1)
    (g := fun p => p.2 ++ attr :: rest) hpre
  refine answers_of (n := max n n' + 1) ?_ hr'
  rw [resolve_class hc ha, hsup, Option.getD_some, hb]
  simp only [List.nil_append]
  rw [tryEach_first (f := fun s : QPath => resolve T (max n n') s.1 [] (s.2 ++ attr :: rest) [m])
    hr (hn _ (by omega)) (fun p hp => hn' p hp _ (by omega))]

example : resolve sampleTables 5 ["pkg"] [] ["C", "close"] [] = .ok (["ext"], ["Base", "close"]) :=
  rfl

/-- **C37**, last part: if no base has the attribute, `builtins.object` decides, unless the class
path starts with the name `object`. -/
theorem C37_object_partial (T : Tables) (m : Path) (head : String) (cls : Path) (attr : String)
    (rest : Path) (r : Except PyErr QPath)
    (hc : DefinedIn T m (head :: cls)) (ha : ¬ DefinedIn T m (head :: cls ++ [attr]))
    (hpre : ∀ bases, T.supers m (head :: cls) = some bases →
      ∀ p ∈ bases, Answers T p.1 [] (p.2 ++ attr :: rest) [m] (.error .objectNotFound))
    (hobj : head ≠ "object")
    (hs : Answers T builtinsPath [] ("object" :: attr :: rest) [] r)
    (hr' : r ≠ .error .recursionError) :
    Answers T m [] (head :: cls ++ attr :: rest) [] r := by
  obtain ⟨n, hn⟩ := hs
  obtain ⟨n', hn'⟩ := answers_uniform (f := fun p : QPath => p.1)
    (g := fun p => p.2 ++ attr :: rest)
    (xs := (T.supers m (head :: cls)).getD []) (V := [m]) (fun p hp => by
      cases h : T.supers m (head :: cls) with
      | none => simp [h] at hp
      | some bases =>
        rw [h] at hp
        exact hpre bases h p hp)
  refine answers_of (n := max n n' + 1) ?_ hr'
  rw [resolve_class hc ha, tryEach_none.2]
  · simp only [if_pos hobj]
    exact hn _ (by omega)
  · intro p hp
    exact hn' p hp _ (by omega)

example : resolve sampleTables 5 ["pkg"] [] ["C", "__init__"] []
    = .ok (["builtins"], ["object", "__init__"]) := rfl

/-- **C37** in full for tables without star imports. Missing: star imports, and classes under the
name `object`. -/
theorem C37_no_star_partial (T : Tables) (hT : T.submodules = []) (m : Path) (head : String)
    (cls : Path) (attr : String) (bases : List QPath)
    (hc : DefinedIn T m (head :: cls)) (ha : ¬ DefinedIn T m (head :: cls ++ [attr]))
    (hsup : T.supers m (head :: cls) = some bases) :
    (∀ pre s post q, bases = pre ++ s :: post →
      (∀ p ∈ pre, Answers T p.1 [] (p.2 ++ [attr]) [] (.error .objectNotFound)) →
      Answers T s.1 [] (s.2 ++ [attr]) [] (.ok q) →
      Answers T m [] (head :: cls ++ [attr]) [] (.ok q)) ∧
    (∀ r, head ≠ "object" → r ≠ .error .recursionError →
      (∀ p ∈ bases, Answers T p.1 [] (p.2 ++ [attr]) [] (.error .objectNotFound)) →
      Answers T builtinsPath [] ["object", attr] [] r →
      Answers T m [] (head :: cls ++ [attr]) [] r) := by
  have conv : ∀ {m parent object r V V'}, Answers T m parent object V r →
      Answers T m parent object V' r := by
    rintro m parent object r V V' ⟨n, hn⟩
    refine ⟨n, fun k hk => ?_⟩
    rw [resolve_no_star hT k m parent object V' V]
    exact hn k hk
  refine ⟨fun pre s post q hb hpre hs => ?_, fun r hobj hr hpre hs => ?_⟩
  · exact C37_inherited_partial T m head cls attr [] bases pre post s (.ok q) hc ha hsup hb
      (fun p hp => conv (hpre p hp)) (conv hs) (by simp) (by simp)
  · refine C37_object_partial T m head cls attr [] r hc ha ?_ hobj hs hr
    intro bases' hb' p hp
    rw [hsup, Option.some.injEq] at hb'
    subst hb'
    exact conv (hpre p hp)

/-! ### C38 -/

/-- The locations an index lists for an object. -/
def located (index : Index) (m object : Path) : List QPath :=
  (((index.lookup m).getD []).lookup object).getD []

/-- The location resolves / is reported missing. -/
def Resolvable (T : Tables) (n : Nat) (q : QPath) : Prop :=
  ∃ r, resolve T n q.1 [] q.2 [] = .ok r

/-- **C38.** If no location makes resolution raise anything but `ObjectNotFound`, filtering succeeds;
the locations kept are exactly the resolvable ones, in order; there are no empty entries; and keys
keep their order. -/
theorem C38_index_filter (T : Tables) (n : Nat) (index : Index)
    (hkeys : (index.map Prod.fst).Nodup ∧ ∀ e ∈ index, (e.2.map Prod.fst).Nodup)
    (hok : ∀ e ∈ index, ∀ e' ∈ e.2, ∀ q ∈ e'.2, Resolvable T n q ∨
      resolve T n q.1 [] q.2 [] = .error .objectNotFound) :
    ∃ out, supportedPaths T n index = .ok out ∧
      (∀ m object, List.Sublist (located out m object) (located index m object) ∧
        ∀ q, q ∈ located out m object ↔ q ∈ located index m object ∧ Resolvable T n q) ∧
      (∀ e ∈ out, e.2 ≠ [] ∧ ∀ e' ∈ e.2, e'.2 ≠ []) ∧
      List.Sublist (out.map Prod.fst) (index.map Prod.fst) ∧
      (∀ m, List.Sublist (((out.lookup m).getD []).map Prod.fst)
        (((index.lookup m).getD []).map Prod.fst)) := by
  have h1 : ∀ d : Dict Path (List QPath), (∀ e' ∈ d, ∀ q ∈ e'.2, Resolvable T n q ∨
      resolve T n q.1 [] q.2 [] = .error .objectNotFound) →
      filterEntries (filterExcept (fun q : QPath => containsObjectPath T n q.1 [] q.2)) d
        = .ok (keepEntries (List.filter (keeps T n)) d) := by
    intro d hd
    refine filterEntries_ok (fun e he => filterExcept_ok (fun q hq => ?_))
    rcases hd e he q hq with ⟨r, hr⟩ | hr
    · simp [containsObjectPath, keeps, hr]
    · simp [containsObjectPath, keeps, hr]
  have hkeep : ∀ q, keeps T n q = true ↔ Resolvable T n q := by
    intro q
    unfold keeps Resolvable
    cases resolve T n q.1 [] q.2 [] <;> simp
  refine ⟨keepEntries (keepEntries (List.filter (keeps T n))) index,
    filterEntries_ok (fun e he => h1 e.2 (hok e he)), ?_, ?_, keepEntries_keys _ _, ?_⟩
  · intro m object
    have : located (keepEntries (keepEntries (List.filter (keeps T n))) index) m object
        = (located index m object).filter (keeps T n) := by
      unfold located
      rw [keepEntries_lookup rfl hkeys.1]
      cases h : index.lookup m with
      | none => simp [keepEntries]
      | some d =>
        simp only [Option.getD_some]
        rw [keepEntries_lookup rfl (hkeys.2 _ (lookup_mem h))]
    rw [this]
    refine ⟨List.filter_sublist, fun q => ?_⟩
    rw [List.mem_filter, hkeep]
  · intro e he
    obtain ⟨d, h2, h3⟩ := keepEntries_mem he
    refine ⟨h3, fun e' he' => ?_⟩
    rw [h2] at he'
    obtain ⟨_, _, h4⟩ := keepEntries_mem he'
    exact h4
  · intro m
    rw [keepEntries_lookup rfl hkeys.1]
    exact keepEntries_keys _ _

/-- An index with one good and one bad location. -/
def sampleIndex : Index :=
  [(["pkg"], [(["g"], [(["ext"], ["f"]), (["ext"], ["gone"])]), (["h"], [(["ext"], ["gone"])])])]

example : supportedPaths sampleTables 5 sampleIndex
    = .ok [(["pkg"], [(["g"], [(["ext"], ["f"])])])] := rfl

/-! ### C61 -/

/-- Resolution either succeeds, reports not-found or runs out of stack; no other exception. -/
def C61_statement : Prop :=
  ∀ (T : Tables) (n : Nat) (m object : Path), Known T builtinsPath →
    (∀ s, Known T s → ∃ refs, T.references.lookup s = some refs) →
    ∀ e, resolve T n m [] object [] = .error e → e = .objectNotFound ∨ e = .recursionError

/-- An import of a name that its module does not have is an `AssertionError`. -/
theorem C61_refuted : ¬ C61_statement := by
  intro h
  have := h { definitions := [(["builtins"], noNames), (["a"], noNames), (["b"], noNames)]
              references := [(["builtins"], []), (["a"], [(["x"], (["b"], ["x"]))]), (["b"], [])]
              submodules := [], superclasses := [] } 3 ["a"] ["x"] ⟨_, rfl⟩
    (by
      rintro s ⟨scope, hs⟩
      have := lookup_mem_keys hs
      simp only [List.map_cons, List.map_nil, List.mem_cons, List.not_mem_nil, or_false] at this
      rcases this with rfl | rfl | rfl <;> exact ⟨_, rfl⟩) .assertionError rfl
  simp at this

/-- The same although the import is legal: `m` has `from m2 import y as x`, `m2` star-imports `m`,
and `m` defines `y`. -/
theorem C61_refuted_legal_import :
    let T : Tables := {
      definitions := [(["builtins"], noNames), (["m"], names ["y"]), (["m2"], noNames)]
      references := [(["builtins"], []), (["m"], [(["x"], (["m2"], ["y"]))]), (["m2"], [])]
      submodules := [(["m2"], [["m"]])], superclasses := [] }
    Answers T ["m2"] [] ["y"] [] (.ok (["m"], ["y"])) ∧
    Answers T ["m"] [] ["x"] [] (.error .assertionError) :=
  ⟨answers_of (n := 2) rfl (by simp), answers_of (n := 3) rfl (by simp)⟩

/-- **C61** for tables whose explicit imports point at definitions. Missing: imports that point at
something that itself needs resolution, for which the claim is false. -/
theorem C61_only_not_found_partial (T : Tables) (hb : Known T builtinsPath)
    (hrefs : ∀ s, Known T s → ∃ refs, T.references.lookup s = some refs ∧
      ∀ p q, refs.lookup p = some q → DefinedIn T q.1 q.2)
    (n : Nat) (m object : Path) (visited : List Path) (e : PyErr)
    (h : resolve T n m [] object visited = .error e) :
    e = .objectNotFound ∨ e = .recursionError := by
  obtain ⟨bs, hb⟩ := hb
  induction n generalizing m object visited with
  | zero =>
    simp only [resolve, Except.error.injEq] at h
    exact .inr h.symm
  | succ n ih =>
    rw [resolve_succ] at h
    unfold step at h
    cases hd : T.definitions.lookup m with
    | none => simp only [hd, Except.error.injEq] at h; exact .inl h.symm
    | some defs =>
      simp only [hd] at h
      cases object with
      | nil => simp at h
      | cons head rest =>
        simp only [scopeContains_nil, Bool.not_true, List.isEmpty_nil, Bool.false_and,
          Bool.false_eq_true, if_false] at h
        cases hg : defs.get? head with
        | some scope =>
          simp only [hg] at h
          split at h
          · simp at h
          · split at h
            · rename_i ht
              obtain ⟨s, _, hs, _⟩ := tryEach_some ht
              exact ih _ _ _ (hs.trans h)
            · split at h
              · exact ih _ _ _ h
              · simp only [Except.error.injEq] at h; exact .inl h.symm
        | none =>
          simp only [hg] at h
          split at h
          · rename_i ht
            obtain ⟨s, _, hs, _⟩ := tryEach_some ht
            exact ih _ _ _ (hs.trans h)
          · obtain ⟨refs, hr, hdef⟩ := hrefs m ⟨defs, hd⟩
            simp only [hr] at h
            split at h
            · rename_i k rm ro hl
              obtain ⟨_, _, hlk, _⟩ := longestReference_some hl
              have hdef := hdef _ _ hlk
              cases n with
              | zero =>
                simp only [resolve, Except.error.injEq] at h
                exact .inr h.symm
              | succ n =>
                rw [resolve_of_defined hdef] at h
                exact ih _ _ _ h
            · simp only [hb] at h
              split at h
              · simp at h
              · simp only [Except.error.injEq] at h; exact .inl h.symm

example : resolve sampleTables 3 ["pkg"] [] ["ext", "nope"] [] = .error .objectNotFound := rfl

end Paradigm.Props
