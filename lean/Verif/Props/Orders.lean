import Verif.Lemmas.OrderTests
import Verif.Props.Specialization

/-!
# C114: sets
-/

namespace Paradigm.Props

open Spec

/-- **C114**, full statement: what is read from the stubs does not depend on the order in which sets of
names are visited. -/
def C114_statement : Prop :=
  ∀ (E : StubFiles) (o : SetOrder) (rep : Atom → String) (n : Nat) (modules : List Path) (a : Stubs),
    ByMeaning E → NeverSpecializations E → parseStubs E rep n modules = .ok a →
    ∃ b, parseStubs (reordered E o) rep n modules = .ok b ∧ SameTables a b

/-- **C114**, what holds (missing: tests with several names in a module that has star imports). -/
theorem C114_order_partial (E : StubFiles) (o : SetOrder) (rep : Atom → String) (n : Nat)
    (modules : List Path) (a : Stubs) (hE : ByMeaning E) (hsrc : NeverSpecializations E)
    (htests : ∀ m body, E.source m = some body → ∀ test ∈ testsAll body, PlainTest E m test)
    (h : parseStubs E rep n modules = .ok a) :
    ∃ b, parseStubs (reordered E o) rep n modules = .ok b ∧ SameTables a b := by
  obtain ⟨s, t, h1, h2, rfl⟩ := parseStubs_ok h
  obtain ⟨h3, h4, -⟩ := parseAll_runs (o := o) hE hsrc htests n modules {} plain_empty
  rw [h1] at h3 h4
  obtain ⟨t', h5, h6⟩ := processBases_agree (o' := ⟨o.order, o.order_perm⟩) h4.notImported h2
  refine ⟨{ t'.tables with rawAstNodes := t'.nodes, nodesKinds := t'.kinds }, ?_, ?_⟩
  · unfold parseStubs
    rw [bind_of_ok h3.symm]
    have h5 : processBases ⟨(reordered E o).order, (reordered E o).order_perm⟩ rep n s = (.ok (), t') := h5
    simp only [h5]
  · have hr := h6.rest
    have hall : ∀ m, (t.references.lookup m).isSome = (t'.references.lookup m).isSome ∧
        ∀ p, ((t.references.lookup m).getD []).lookup p = ((t'.references.lookup m).getD []).lookup p := by
      intro m
      by_cases hm : m = specPath
      · subst hm
        exact ⟨h6.modules.symm, fun p => (h6.own p).symm⟩
      · rw [h6.others m hm]
        exact ⟨rfl, fun _ => rfl⟩
    refine ⟨?_, ?_, ?_, ?_, ?_, fun m => (hall m).1, fun m => (hall m).2⟩
    · show t.definitions = t'.definitions
      rw [hr]
    · show t.submodules = t'.submodules
      rw [hr]
    · show t.superclasses = t'.superclasses
      rw [hr]
    · show t.nodes = t'.nodes
      rw [hr]
    · show t.kinds = t'.kinds
      rw [hr]

/-! ### An example -/

/-- The reverse order. -/
def backwards : SetOrder := ⟨List.reverse, List.reverse_perm⟩

/-- A test with two names and a specialised class of which a member reads two names. -/
def orderSources : Dict Path (List Stmt) := [
  (["builtins"], sampleBuiltins),
  (["a"], typingHead ++ [.import_ [⟨"sys", none⟩], .import_ [⟨"os", none⟩],
    .ifStmt (.other "Compare" [.attribute (nm "sys") "x" true, .attribute (nm "os") "y" true])
      [.classDef "K" [] [] []] [],
    .classDef "L" [] [] [],
    .classDef "G" [sub (nm "Generic") (nm "T")] [] [.functionDef
      { name := "f", args := { args := [⟨"self", none⟩, ⟨"x", some (nm "K")⟩] }, returns := some (nm "L") }],
    .classDef "D" [sub (nm "G") (nm "L")] [] []])]

/-- Tests hold if they have two names. -/
def orderFiles : StubFiles :=
  { source := fun m => orderSources.lookup m, isPackage := fun _ => false,
    condition := fun _ ns => .ok (ns.length == 2) }

theorem orderFiles_meaning : ByMeaning orderFiles := fun _ ns ns' h => by
  show Except.ok (ns.length == 2) = Except.ok (ns'.length == 2)
  rw [h.length_eq]

theorem orderFiles_source {m : Path} {body : List Stmt} (h : orderFiles.source m = some body) :
    (m, body) ∈ orderSources := mem_of_lookup_some h

theorem orderFiles_never : NeverSpecializations orderFiles := by
  intro m body h
  have := orderFiles_source h
  simp only [orderSources, List.mem_cons, List.not_mem_nil, or_false, Prod.mk.injEq] at this
  rcases this with ⟨rfl, rfl⟩ | ⟨rfl, rfl⟩
  · exact ⟨⟨by decide, by decide⟩, fun x hx => nomatch hx⟩
  · refine ⟨⟨by decide, by decide⟩, fun x hx => ?_⟩
    have hx : x ∈ [["typing"], ["sys"], ["os"]] := hx
    simp only [List.mem_cons, List.not_mem_nil, or_false] at hx
    rcases hx with rfl | rfl | rfl <;> exact ⟨by decide, by decide⟩

theorem orderFiles_tests : ∀ m body, orderFiles.source m = some body → ∀ test ∈ testsAll body,
    PlainTest orderFiles m test := by
  intro m body h test _
  refine .inr fun x ⟨body', hb, hx⟩ => ?_
  rw [h] at hb
  cases hb
  have := orderFiles_source h
  simp only [orderSources, List.mem_cons, List.not_mem_nil, or_false, Prod.mk.injEq] at this
  rcases this with ⟨rfl, rfl⟩ | ⟨rfl, rfl⟩ <;> exact nomatch hx

/-- The names of `G[L]` that refer to something, in the order of the table. -/
def specKeys : Except PyErr Stubs → Option (List Path)
  | .ok T => (T.references.lookup ["__specializations"]).map (·.map Prod.fst)
  | .error _ => none

/-- Both orders succeed, the tables are not equal. -/
example : specKeys (parseStubs orderFiles sampleRep 20 [["a"]]) = some [["K"], ["L"]]
    ∧ specKeys (parseStubs (reordered orderFiles backwards) sampleRep 20 [["a"]])
      = some [["L"], ["K"]] := ⟨rfl, rfl⟩

example (a : Stubs) (h : parseStubs orderFiles sampleRep 20 [["a"]] = .ok a) : ∃ b,
    parseStubs (reordered orderFiles backwards) sampleRep 20 [["a"]] = .ok b ∧ SameTables a b :=
  C114_order_partial _ _ _ _ _ _ orderFiles_meaning orderFiles_never orderFiles_tests h

/-! ### The disagreement -/

/-- `m` star-imports `p` and `q` and compares two names. Both modules define `X`, but the reading of `p`
breaks off at a test with a name that is not defined. -/
def starSources : Dict Path (List Stmt) := [
  (["builtins"], sampleBuiltins),
  (["p"], [.annAssign (tgt "X") (nm "int") none,
    .ifStmt (.attribute (nm "sys") "flag" true) [] []]),
  (["q"], [.annAssign (tgt "X") (nm "int") none, .annAssign (tgt "Y") (nm "int") none]),
  (["m"], [.importFrom (some "p") [⟨"*", none⟩] 0, .importFrom (some "q") [⟨"*", none⟩] 0,
    .ifStmt (.other "Compare" [nm "X", nm "Y"]) [.functionDef (defn "f")] [.functionDef (defn "g")]])]

/-- The test holds for the `X` of `p`. -/
def starFiles : StubFiles :=
  { source := fun m => starSources.lookup m, isPackage := fun _ => false,
    condition := fun _ ns => .ok (ns.contains ("X", (["p"], ["X"]))) }

/-- Whether `m` defines `f`. -/
def definesF : Except PyErr Stubs → Option Bool
  | .ok T => (T.definitions.lookup ["m"]).map (scopeContains · ["f"])
  | .error _ => none

theorem star_forwards : definesF (parseStubs starFiles sampleRep 20 [["m"]]) = some false := by
  decide +kernel

theorem star_backwards :
    definesF (parseStubs (reordered starFiles backwards) sampleRep 20 [["m"]]) = some true := by
  decide +kernel

theorem starFiles_meaning : ByMeaning starFiles := fun _ ns ns' h => by
  show Except.ok (ns.contains _) = Except.ok (ns'.contains _)
  rw [h.contains_eq]

theorem starFiles_never : NeverSpecializations starFiles := by
  intro m body h
  have : (m, body) ∈ starSources := mem_of_lookup_some h
  simp only [starSources, List.mem_cons, List.not_mem_nil, or_false, Prod.mk.injEq] at this
  rcases this with ⟨rfl, rfl⟩ | ⟨rfl, rfl⟩ | ⟨rfl, rfl⟩ | ⟨rfl, rfl⟩
  · exact ⟨⟨by decide, by decide⟩, fun x hx => nomatch hx⟩
  · exact ⟨⟨by decide, by decide⟩, fun x hx => nomatch hx⟩
  · exact ⟨⟨by decide, by decide⟩, fun x hx => nomatch hx⟩
  · refine ⟨⟨by decide, by decide⟩, fun x hx => ?_⟩
    have hx : x ∈ [["p"], ["q"]] := hx
    simp only [List.mem_cons, List.not_mem_nil, or_false] at hx
    rcases hx with rfl | rfl <;> exact ⟨by decide, by decide⟩

/-- A name that is looked up before another one is looked for in fewer modules that were read: whether `m`
defines `f` or `g` depends on the hash seed. -/
theorem C114_refuted : ¬ C114_statement := by
  intro h
  have h1 := star_forwards
  cases ha : parseStubs starFiles sampleRep 20 [["m"]] with
  | error e => rw [ha] at h1; cases h1
  | ok a =>
    obtain ⟨b, hb, hs⟩ := h starFiles backwards sampleRep 20 [["m"]] a starFiles_meaning starFiles_never ha
    have h2 := star_backwards
    rw [ha] at h1
    rw [hb] at h2
    have : definesF (.ok a) = definesF (.ok b) :=
      congrArg (fun d : Dict Path Scope => (d.lookup ["m"]).map (scopeContains · ["f"])) hs.definitions
    rw [this, h2] at h1
    cases h1

end Paradigm.Props
