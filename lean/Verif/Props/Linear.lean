import Verif.Lemmas.Linear
import Verif.Props.Bases

/-!
# C116: members are inherited in the method resolution order
-/

namespace Paradigm.Props

open Spec

/-- **C116**, full statement: if the ancestors of a class are known, then what is found for a member of it
is the one of the first class in its method resolution order that has the member. -/
def C116_statement : Prop :=
  ∀ (E : StubFiles) (rep : Atom → String) (n : Nat) (modules : List Path) (T : Stubs),
    parseStubs E rep n modules = .ok T →
    ∀ (c : QPath) (x : String) (order pre post : List QPath) (q : QPath), Hierarchy T.toTables c →
      Mro (runtimeBases T.toTables) c order → order = pre ++ q :: post → HasMember T.toTables x q →
      (∀ p ∈ pre, ¬ HasMember T.toTables x p) →
      Answers T.toTables c.1 [] (c.2 ++ [x]) [] (.ok (q.1, q.2 ++ [x]))

/-- **C116**, for members that no ancestor has: they are not found. -/
theorem C116_nothing (T : Tables) (c : QPath) (x : String) (order : List QPath) (hc : Hierarchy T c)
    (h : Mro (runtimeBases T) c order) (hno : ∀ p ∈ order, ¬ HasMember T x p) :
    Answers T c.1 [] (c.2 ++ [x]) [] (.error .objectNotFound) :=
  finds_none hc h (.refl c) (fun e he => hno e (h.mem he)) []

/-- **C116** for a class `q` that all ways to other classes with the member go through (in particular for
members that only one ancestor has), in any hierarchy: `q` is the first in the method resolution order that
has it, and found. Missing: see `C116_refuted`. -/
theorem C116_through_partial (T : Tables) (c : QPath) (x : String) (order : List QPath) (q : QPath)
    (hc : Hierarchy T c) (h : Mro (runtimeBases T) c order) (hq : Above (runtimeBases T) c q) (hx : HasMember T x q)
    (hway : ∀ e, Around (runtimeBases T) q c e → ¬ HasMember T x e) :
    Answers T c.1 [] (c.2 ++ [x]) [] (.ok (q.1, q.2 ++ [x])) ∧
      ∃ pre post, order = pre ++ q :: post ∧ ∀ p ∈ pre, ¬ HasMember T x p := by
  refine ⟨finds_through hc hx h (.refl c) hq hway [], ?_⟩
  obtain ⟨pre, post, rfl⟩ := List.append_of_mem (h.mem hq)
  refine ⟨pre, post, rfl, fun p hp hpx => ?_⟩
  have hcp := h.above p (List.mem_append_left _ hp)
  have hqp : Above (runtimeBases T) q p := hcp.through fun hr => hway p hr hpx
  obtain ⟨o, h1, h2⟩ := h.ancestor q hq
  have hpo := h1.mem hqp
  obtain ⟨rest, rfl⟩ := h1.nonempty
  have hnd := h.nodup
  obtain ⟨hn1, hn2, hn3⟩ := List.nodup_append.1 hnd
  have hpq : p ≠ q := hn3 p hp q List.mem_cons_self
  have hpr : p ∈ rest := (List.mem_cons.1 hpo).resolve_left hpq
  -- `q` comes before `p` in the order of `q`
  have hsub : [q, p].Sublist (pre ++ q :: post) := ((List.singleton_sublist.2 hpr).cons₂ q).trans h2
  obtain ⟨l1, l2, e, s1, s2⟩ := List.sublist_append_iff.1 hsub
  cases l1 with
  | nil =>
    have : p ∈ q :: post := s2.subset (by rw [← show [q, p] = l2 from e]; simp)
    exact hn3 p hp p this rfl
  | cons y l1 =>
    have hy : y = q := (List.cons.inj e).1.symm
    exact hn3 q (s1.subset (by rw [hy]; exact List.mem_cons_self)) q List.mem_cons_self rfl

/-- **C116** for hierarchies in which no class but `object` is inherited in two ways, and members that
`object` does not have, or without multiple inheritance. Missing: see `C116_refuted` for members of `object`
and `C116_refuted_diamond` for classes that are inherited in two ways. -/
theorem C116_branching_partial (T : Tables) (c : QPath) (x : String) (order pre post : List QPath) (q : QPath)
    (hc : Hierarchy T c) (h : Mro (runtimeBases T) c order) (hb : Branching (runtimeBases T) c)
    (hx : ¬ HasMember T x objectClass ∨ ∀ d, Above (runtimeBases T) c d → (runtimeBases T d).length ≤ 1)
    (ho : order = pre ++ q :: post) (hq : HasMember T x q) (hpre : ∀ p ∈ pre, ¬ HasMember T x p) :
    Answers T c.1 [] (c.2 ++ [x]) [] (.ok (q.1, q.2 ++ [x])) := by
  obtain ⟨A, -, -, -, -, r, h1, h2⟩ := branch hc hb hx h (.refl c)
  rw [leading_unique (.inl ⟨pre, q, post, ho, hq, hpre, rfl⟩) h1]
  exact h2 []

/-! ### Samples -/

/-- `C` has a constructor and `run`, `B` has neither; `D` inherits from both. -/
def mixedFiles : StubFiles := filesOf [
  (["builtins"], [.classDef "object" [] [] [meth "__init__" (nm "None")]]),
  (["m"], [.classDef "B" [] [] [], .classDef "C" [] [] [meth "__init__" (nm "None"), meth "run" (nm "None")],
    .classDef "D" [nm "B", nm "C"] [] []])]

/-- The tables of these files. -/
def mixedStubs : Stubs :=
  match parseStubs mixedFiles sampleRep 20 [["m"]] with
  | .ok T => T
  | .error _ => { definitions := [], references := [], submodules := [], superclasses := [], rawAstNodes := [], nodesKinds := [] }

/-- `B` and `C` inherit from `A`; `C` has an `f` of its own. -/
def diamondFiles : StubFiles := filesOf [
  (["builtins"], [.classDef "object" [] [] [meth "__init__" (nm "None")], .classDef "int" [] [] []]),
  (["m"], [.classDef "A" [] [] [meth "f" (nm "int"), meth "g" (nm "int")], .classDef "B" [nm "A"] [] [],
    .classDef "C" [nm "A"] [] [meth "f" (.constant .none)], .classDef "D" [nm "B", nm "C"] [] []])]

/-- The tables of these files. -/
def diamondStubs : Stubs :=
  match parseStubs diamondFiles sampleRep 20 [["m"]] with
  | .ok T => T
  | .error _ => { definitions := [], references := [], submodules := [], superclasses := [], rawAstNodes := [], nodesKinds := [] }

/-- The class `name` of `m`. -/
abbrev ofM (name : String) : QPath := (["m"], [name])

theorem mro_object {bases : QPath → List QPath} (h : bases objectClass = []) : Mro bases objectClass [objectClass] := by
  refine .mk (orders := fun _ => []) (fun b hb => ?_) ?_
  · rw [h] at hb; cases hb
  · rw [h]
    exact .done fun l hl => List.mem_singleton.1 hl

theorem mro_single {bases : QPath → List QPath} {c b : QPath} {o : List QPath} (h : bases c = [b])
    (hb : Mro bases b (b :: o)) (hm : Merge [b :: o, [b]] (b :: o)) :
    Mro bases c (c :: b :: o) := by
  refine .mk (orders := fun _ => b :: o) (fun b' hb' => ?_) (by rw [h]; exact hm)
  rw [h] at hb'
  rw [List.mem_singleton.1 hb']
  exact hb

theorem merge_root {o : QPath} : Merge [[o], [o]] [o] :=
  .step (pre := []) (post := [[o]]) (fun _ _ h => nomatch h) (by simp)
    (.done (by simp [dropHead]))

/-! The first sample. -/

theorem mixed_object : runtimeBases mixedStubs.toTables objectClass = [] := by decide +kernel

theorem mixed_mro_of {bases : QPath → List QPath} (hO : bases objectClass = []) (hD : bases (ofM "D") = [ofM "B", ofM "C"])
    (hB : bases (ofM "B") = [objectClass]) (hC : bases (ofM "C") = [objectClass]) :
    Mro bases (ofM "D") [ofM "D", ofM "B", ofM "C", objectClass] := by
  refine .mk (orders := fun b => if b = ofM "B" then [ofM "B", objectClass] else [ofM "C", objectClass])
    (fun b hb => ?_) ?_
  · rw [hD] at hb
    simp only [List.mem_cons, List.not_mem_nil, or_false] at hb
    rcases hb with rfl | rfl
    · exact mro_single hB (mro_object hO) merge_root
    · exact mro_single hC (mro_object hO) merge_root
  · rw [hD]
    show Merge ([] ++ [ofM "B", objectClass] :: [[ofM "C", objectClass], [ofM "B", ofM "C"]]) _
    refine .step (fun _ _ h => nomatch h) (by decide) ?_
    show Merge ([[objectClass]] ++ [ofM "C", objectClass] :: [[ofM "C"]]) _
    refine .step (fun x xs h => ?_) (by decide) ?_
    · rw [List.mem_singleton] at h
      cases h
      exact ⟨[ofM "C", objectClass], by decide, by decide⟩
    · show Merge ([] ++ [objectClass] :: [[objectClass], []]) _
      refine .step (fun _ _ h => nomatch h) (by decide) (.done ?_)
      decide

theorem mixed_mro : Mro (runtimeBases mixedStubs.toTables) (ofM "D") [ofM "D", ofM "B", ofM "C", objectClass] :=
  mixed_mro_of mixed_object (by decide +kernel) (by decide +kernel) (by decide +kernel)

theorem mixed_above {e : QPath} (h : Above (runtimeBases mixedStubs.toTables) (ofM "D") e) :
    e ∈ [ofM "D", ofM "B", ofM "C", objectClass] :=
  above_closed (S := [ofM "D", ofM "B", ofM "C", objectClass]) (by decide +kernel) h (by decide)

theorem mixed_hierarchy : Hierarchy mixedStubs.toTables (ofM "D") where
  known d hd := by
    have : ∀ d ∈ [ofM "D", ofM "B", ofM "C", objectClass], d.2 ≠ [] ∧ DefinedIn mixedStubs.toTables d.1 d.2 := by
      decide +kernel
    exact this d (mixed_above hd)
  named d hd := by
    have : ∀ d ∈ [ofM "D", ofM "B", ofM "C", objectClass], d.2.head? = some "object" → d = objectClass := by
      decide +kernel
    exact this d (mixed_above hd)
  object := mixed_object

/-- The full statement is false: for `D.__init__` the constructor of `object` is found, although `C` has one. -/
theorem C116_refuted : ¬ C116_statement := by
  intro h
  have h1 := h mixedFiles sampleRep 20 [["m"]] mixedStubs rfl (ofM "D") "__init__" _ [ofM "D", ofM "B"] [objectClass]
    (ofM "C") mixed_hierarchy mixed_mro rfl (by decide +kernel) (by decide +kernel)
  have h2 : Answers mixedStubs.toTables ["m"] [] ["D", "__init__"] [] (.ok (["builtins"], ["object", "__init__"])) :=
    answers_of (n := 5) rfl (by simp)
  have := answers_unique h1 h2
  simp at this

theorem mixed_branching_of {bases : QPath → List QPath} (hO : bases objectClass = [])
    (hD : bases (ofM "D") = [ofM "B", ofM "C"]) (hB : bases (ofM "B") = [objectClass])
    (hC : bases (ofM "C") = [objectClass]) : Branching bases (ofM "D") := by
  intro d hd
  have hd := above_closed (S := [ofM "D", ofM "B", ofM "C", objectClass]) (by simp only [List.forall_mem_cons, hO, hD, hB, hC]; simp) hd (by decide)
  simp only [List.mem_cons, List.not_mem_nil, or_false] at hd
  rcases hd with rfl | rfl | rfl | rfl
  · rw [hD]
    refine ⟨fun h => absurd h (by decide), List.pairwise_cons.2 ⟨fun b hb e h1 h2 => ?_, List.pairwise_singleton _ _⟩⟩
    rw [List.mem_singleton.1 hb] at h2
    have h1 := above_closed (S := [ofM "B", objectClass]) (by simp only [List.forall_mem_cons, hO, hB]; simp) h1 (by decide)
    have h2 := above_closed (S := [ofM "C", objectClass]) (by simp only [List.forall_mem_cons, hO, hC]; simp) h2 (by decide)
    simp only [List.mem_cons, List.not_mem_nil, or_false] at h1 h2
    rcases h1 with rfl | rfl
    · exact absurd h2 (by decide)
    · rfl
  · rw [hB]
    exact ⟨fun _ => rfl, List.pairwise_singleton _ _⟩
  · rw [hC]
    exact ⟨fun _ => rfl, List.pairwise_singleton _ _⟩
  · rw [hO]
    exact ⟨(fun h => nomatch h), List.Pairwise.nil⟩

theorem mixed_branching : Branching (runtimeBases mixedStubs.toTables) (ofM "D") :=
  mixed_branching_of mixed_object (by decide +kernel) (by decide +kernel) (by decide +kernel)

/-- `D.run` is found in `C`: the hypotheses of `C116_branching_partial` hold. -/
example : Answers mixedStubs.toTables ["m"] [] ["D", "run"] [] (.ok (["m"], ["C", "run"])) :=
  C116_branching_partial mixedStubs.toTables (ofM "D") "run" _ [ofM "D", ofM "B"] [objectClass] (ofM "C")
    mixed_hierarchy mixed_mro mixed_branching (.inl (by decide +kernel)) rfl (by decide +kernel) (by decide +kernel)

/-- No ancestor of `D` has `walk`. -/
example : Answers mixedStubs.toTables ["m"] [] ["D", "walk"] [] (.error .objectNotFound) :=
  C116_nothing mixedStubs.toTables (ofM "D") "walk" _ mixed_hierarchy mixed_mro (by decide +kernel)

/-! The second sample. -/

theorem diamond_object : runtimeBases diamondStubs.toTables objectClass = [] := by decide +kernel

theorem diamond_mro_of {bases : QPath → List QPath} (hO : bases objectClass = [])
    (hD : bases (ofM "D") = [ofM "B", ofM "C"]) (hB : bases (ofM "B") = [ofM "A"]) (hC : bases (ofM "C") = [ofM "A"])
    (hA : bases (ofM "A") = [objectClass]) :
    Mro bases (ofM "D") [ofM "D", ofM "B", ofM "C", ofM "A", objectClass] := by
  have hA : Mro bases (ofM "A") [ofM "A", objectClass] := mro_single hA (mro_object hO) merge_root
  have hm : Merge [[ofM "A", objectClass], [ofM "A"]] [ofM "A", objectClass] := by
    show Merge ([] ++ [ofM "A", objectClass] :: [[ofM "A"]]) _
    refine .step (fun _ _ h => nomatch h) (by decide) ?_
    show Merge ([] ++ [objectClass] :: [[]]) _
    exact .step (fun _ _ h => nomatch h) (by decide) (.done (by decide))
  refine .mk (orders := fun b =>
      if b = ofM "B" then [ofM "B", ofM "A", objectClass] else [ofM "C", ofM "A", objectClass])
    (fun b hb => ?_) ?_
  · rw [hD] at hb
    simp only [List.mem_cons, List.not_mem_nil, or_false] at hb
    rcases hb with rfl | rfl
    · exact mro_single hB hA hm
    · exact mro_single hC hA hm
  · rw [hD]
    show Merge ([] ++ [ofM "B", ofM "A", objectClass] :: [[ofM "C", ofM "A", objectClass], [ofM "B", ofM "C"]]) _
    refine .step (fun _ _ h => nomatch h) (by decide) ?_
    show Merge ([[ofM "A", objectClass]] ++ [ofM "C", ofM "A", objectClass] :: [[ofM "C"]]) _
    refine .step (fun x xs h => ?_) (by decide) ?_
    · rw [List.mem_singleton] at h
      cases h
      exact ⟨[ofM "C", ofM "A", objectClass], by decide, by decide⟩
    · show Merge ([] ++ [ofM "A", objectClass] :: [[ofM "A", objectClass], []]) _
      refine .step (fun _ _ h => nomatch h) (by decide) ?_
      show Merge ([] ++ [objectClass] :: [[objectClass], []]) _
      exact .step (fun _ _ h => nomatch h) (by decide) (.done (by decide))

theorem diamond_mro : Mro (runtimeBases diamondStubs.toTables) (ofM "D")
    [ofM "D", ofM "B", ofM "C", ofM "A", objectClass] :=
  diamond_mro_of diamond_object (by decide +kernel) (by decide +kernel) (by decide +kernel) (by decide +kernel)

theorem diamond_above {e : QPath} (h : Above (runtimeBases diamondStubs.toTables) (ofM "D") e) :
    e ∈ [ofM "D", ofM "B", ofM "C", ofM "A", objectClass] :=
  above_closed (S := [ofM "D", ofM "B", ofM "C", ofM "A", objectClass]) (by decide +kernel) h (by decide)

theorem diamond_hierarchy : Hierarchy diamondStubs.toTables (ofM "D") where
  known d hd := by
    have : ∀ d ∈ [ofM "D", ofM "B", ofM "C", ofM "A", objectClass],
        d.2 ≠ [] ∧ DefinedIn diamondStubs.toTables d.1 d.2 := by
      decide +kernel
    exact this d (diamond_above hd)
  named d hd := by
    have : ∀ d ∈ [ofM "D", ofM "B", ofM "C", ofM "A", objectClass],
        d.2.head? = some "object" → d = objectClass := by
      decide +kernel
    exact this d (diamond_above hd)
  object := diamond_object

/-- Classes that are inherited in two ways: `D.f` is that of `C`, which comes before `A` in the order, but the
one of `A` is found. `f` is no member of `object`. -/
theorem C116_refuted_diamond : Hierarchy diamondStubs.toTables (ofM "D") ∧
    Mro (runtimeBases diamondStubs.toTables) (ofM "D") [ofM "D", ofM "B", ofM "C", ofM "A", objectClass] ∧
    HasMember diamondStubs.toTables "f" (ofM "C") ∧ ¬ HasMember diamondStubs.toTables "f" (ofM "D") ∧
    ¬ HasMember diamondStubs.toTables "f" (ofM "B") ∧
    Answers diamondStubs.toTables ["m"] [] ["D", "f"] [] (.ok (["m"], ["A", "f"])) :=
  ⟨diamond_hierarchy, diamond_mro, by decide +kernel, by decide +kernel, by decide +kernel,
    answers_of (n := 5) rfl (by simp)⟩

/-- `D.g` is found in `A`: the hypotheses of `C116_through_partial` hold. -/
example : Answers diamondStubs.toTables ["m"] [] ["D", "g"] [] (.ok (["m"], ["A", "g"])) := by
  refine (C116_through_partial diamondStubs.toTables (ofM "D") "g" _ (ofM "A") diamond_hierarchy diamond_mro
    (.step (b := ofM "B") (by decide +kernel) (.step (b := ofM "A") (by decide +kernel) (.refl _)))
    (by decide +kernel) fun e he => ?_).1
  have : ∀ e ∈ [ofM "D", ofM "B", ofM "C", ofM "A", objectClass], e ≠ ofM "A" →
      ¬ HasMember diamondStubs.toTables "g" e := by decide +kernel
  exact this e (diamond_above he.above) he.ne

end Paradigm.Props
