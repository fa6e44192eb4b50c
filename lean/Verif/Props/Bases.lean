import Verif.Lemmas.Processable
import Verif.Props.Specialization

/-!
# C72: classes whose bases can be resolved
-/

namespace Paradigm.Props

open Spec

/-- **C72**, full statement: if every base of a class is `G` or `G[...]` with a `G` that means a class
(a generic one in the latter case), the bases are processed without an exception. -/
def C72_statement : Prop :=
  ∀ (o : SetOrder) (rep : Atom → String) (n : Nat) (s : ParseState), NoSpecializations s →
    (∀ c bases, s.classesBases.lookup c = some bases → ∀ base ∈ bases, ∃ q, match base with
      | .subscript value _ _ => BaseMeans n s c value q ∧ (s.generics.lookup q).isSome
      | e => BaseMeans n s c e q) →
    (processBases o rep n s).1 = .ok ()

/-- **C72**, what holds for dotted names (missing: bases found through superclasses). If every base
of a class is a dotted name that means a class, no exception is raised and the superclasses recorded
for a class are the meanings of its bases, in order, after those recorded before. -/
theorem C72_plain_partial (o : SetOrder) (rep : Atom → String) (n : Nat) (s : ParseState)
    (hs : NoSpecializations s) (hk : (s.classesBases.map Prod.fst).Nodup)
    (mean : QPath → Expr → QPath)
    (hm : ∀ c bases, s.classesBases.lookup c = some bases → ∀ e ∈ bases, BaseMeans n s c e (mean c e)) :
    ∃ t, processBases o rep n s = (.ok (), t) ∧ ∀ c bases, s.classesBases.lookup c = some bases →
      supersAt t c.1 c.2 = supersAt s c.1 c.2 ++ bases.map (mean c) := by
  have hopen : ∃ u, openSpecializations s = (.ok (), u) ∧ Opened s u
      ∧ u.superclasses = s.superclasses := by
    refine ⟨{ s with
      nodes := dictSet s.nodes specPath []
      definitions := dictSet s.definitions specPath (.mk [])
      kinds := dictSet s.kinds specPath []
      references := dictSet s.references specPath [] }, ?_, ⟨rfl, rfl, rfl, rfl, rfl, rfl⟩, rfl⟩
    unfold openSpecializations
    show (if (s.nodes.lookup specPath).isSome then _ else _ : P Unit) s = _
    rw [specPath, hs.nodes, hs.definitions, hs.kinds, hs.references]
    rfl
  obtain ⟨u, h1, h2, h3⟩ := hopen
  obtain ⟨t, h4, -, h5, -⟩ := processClasses_means (o := o) rep hm (s.classesBases.map Prod.fst) u hk
    (fun c hc => isSome_of_key hc) h2
  refine ⟨t, ?_, fun c bases hb => ?_⟩
  · unfold processBases
    rw [bind_of_ok h1]
    show P.each (processClass o rep n) (u.classesBases.map Prod.fst) u = _
    rw [h2.bases]
    exact h4
  · rw [h5 c (List.mem_map.2 ⟨(c, bases), mem_of_lookup_some hb, rfl⟩), hb, supersAt, supersAt, h3]
    rfl

/-- **C72**, what holds for all bases (missing: names found through superclasses; generic classes with
members that are classes or have attributes of something else than dotted names; identifiers; names that
are not known where they are looked for, see the examples below). If there are bases `B`, those of all
classes among them, each of them a dotted name that means a class or a generic class with arguments for
which the replacement is possible and leads to bases of `B` again, the stubs are read without an
exception. -/
theorem C72_processable_partial (o : SetOrder) (rep : Atom → String) (n : Nat) (s : ParseState)
    (hs : NoSpecializations s) (B : QPath → Expr → Prop)
    (hB : Processable (fun e => (toIdentifier rep e).toOption) n s B) :
    ∃ t, processBases o rep n s = (.ok (), t) :=
  processBases_total hB hs

/-- The same for everything that is read. -/
theorem C72_read_partial (E : StubFiles) (rep : Atom → String) (n : Nat) (modules : List Path)
    (s : ParseState) (h : parseAll E n modules {} = (.ok (), s)) (hs : NoSpecializations s)
    (B : QPath → Expr → Prop) (hB : Processable (fun e => (toIdentifier rep e).toOption) n s B) :
    ∃ T, parseStubs E rep n modules = .ok T := by
  obtain ⟨t, ht⟩ := processBases_total (o := ⟨E.order, E.order_perm⟩) hB hs
  refine ⟨{ t.tables with rawAstNodes := t.nodes, nodesKinds := t.kinds }, ?_⟩
  unfold parseStubs
  rw [bind_of_ok h, ht]

/-- `D` derives from `H[K]`, which derives from `G[T]` with the parameter `T` of `H`. -/
def chainFiles : Dict Path (List Stmt) := [
  (["builtins"], sampleBuiltins),
  (["a"], typingHead ++ [.classDef "K" [] [] [],
    .classDef "G" [sub (nm "Generic") (nm "T")] [] [meth "f" (nm "T")],
    .classDef "H" [sub (nm "G") (nm "T")] [] [], .classDef "D" [sub (nm "H") (nm "K")] [] []])]

/-- The bases that occur. -/
def ChainBases (c : QPath) (e : Expr) : Prop :=
  (c = (["a"], ["H"]) ∧ (e = sub (nm "G") (nm "T") ∨ e = sub (nm "G") (nm "K")))
    ∨ (c = (["a"], ["D"]) ∧ e = sub (nm "H") (nm "K"))

/-- What is known about `a`. -/
theorem chain_known : (readAll chainFiles [["a"]]).definitions.lookup ["a"]
    = some (.mk [("T", .mk []), ("K", .mk []), ("G", .mk [("f", .mk [])]), ("H", .mk []),
      ("D", .mk [])]) := rfl

theorem chain_means {d : String} (h : d ∈ ["T", "K", "G", "H", "D"]) :
    AlwaysMeans 20 (readAll chainFiles [["a"]]) ["a"] [] [d] (["a"], [d]) := by
  intro T hd _ _
  have hT := (hd ["a"] (by decide)).trans chain_known
  simp only [List.mem_cons, List.not_mem_nil, or_false] at h
  rcases h with rfl | rfl | rfl | rfl | rfl <;> exact resolve_own hT rfl

theorem chain_specialisable {x : String} (hx : x = "T" ∨ x = "K") :
    Specialisable 20 (readAll chainFiles [["a"]]) ["a"] (["a"], ["G"]) [["T"]] [nm x] := by
  refine ⟨⟨_, chain_known, _, rfl, trivial⟩, rfl, fun y hy => ?_⟩
  have : y = "f" := by
    obtain ⟨scope, h1, inner, h2, inner', h3, -⟩ := hy
    rw [chain_known] at h1
    cases h1
    cases h2
    have : (y, inner') ∈ [("f", Scope.mk [])] := mem_of_lookup_some h3
    rw [List.mem_singleton] at this
    exact congrArg Prod.fst this
  subst this
  refine ⟨[meth "f" (nm "T")], rfl, rfl, fun node hnode => ?_, fun node hnode d hd _ => ?_⟩
  · rw [List.mem_singleton] at hnode
    subst hnode
    refine ⟨trivial, fun e he => ?_⟩
    have : e = nm "T" := by simpa [exprsOf, meth, Option.toList] using he
    subst this
    intro v a l hm
    simp [subtrees, nm] at hm
  · rw [List.mem_singleton] at hnode
    subst hnode
    have hdx : d = x := by
      have : d ∈ [x] := hd
      exact List.mem_singleton.1 this
    subst hdx
    have : d ∈ ["T", "K", "G", "H", "D"] := by rcases hx with rfl | rfl <;> decide
    exact ⟨fun _ => ⟨_, chain_means this⟩, fun _ => ⟨_, chain_means this⟩⟩

theorem chain_empty {x : Expr} :
    Specialisable 20 (readAll chainFiles [["a"]]) ["a"] (["a"], ["H"]) [["T"]] [x] := by
  refine ⟨⟨_, chain_known, _, rfl, trivial⟩, rfl, fun y hy => ?_⟩
  obtain ⟨scope, h1, inner, h2, inner', h3, -⟩ := hy
  rw [chain_known] at h1
  cases h1
  cases h2
  cases h3

theorem chain_applies {x : String} (hx : x = "T" ∨ x = "K") :
    Applies (fun e => (toIdentifier sampleRep e).toOption) 20 (readAll chainFiles [["a"]]) (["a"], ["H"])
      ["a"] (nm "G") (nm x) true (["a"], ["G"]) [["T"]] :=
  ⟨rfl, ⟨["G"], rfl, chain_means (by decide)⟩, rfl, chain_specialisable hx⟩

/-- The bases of `chainFiles` can be processed. -/
theorem chain_processable :
    Processable (fun e => (toIdentifier sampleRep e).toOption) 20 (readAll chainFiles [["a"]]) ChainBases := by
  refine ⟨fun c bases hb e he => ?_, fun c e h => ?_, fun c v w l h => ?_⟩
  · have := mem_of_lookup_some hb
    have hall : (readAll chainFiles [["a"]]).classesBases = [((["builtins"], ["object"]), []),
      ((["builtins"], ["int"]), []), ((["builtins"], ["str"]), []), ((["a"], ["K"]), []),
      ((["a"], ["G"]), []), ((["a"], ["H"]), [sub (nm "G") (nm "T")]),
      ((["a"], ["D"]), [sub (nm "H") (nm "K")])] := rfl
    rw [hall] at this
    simp only [List.mem_cons, Prod.mk.injEq, List.not_mem_nil, or_false] at this
    rcases this with ⟨-, rfl⟩ | ⟨-, rfl⟩ | ⟨-, rfl⟩ | ⟨-, rfl⟩ | ⟨-, rfl⟩ | ⟨rfl, rfl⟩ | ⟨rfl, rfl⟩
    · cases he
    · cases he
    · cases he
    · cases he
    · cases he
    · exact .inl ⟨rfl, .inl (List.mem_singleton.1 he)⟩
    · exact .inr ⟨rfl, List.mem_singleton.1 he⟩
  · rcases h with ⟨-, rfl | rfl⟩ | ⟨-, rfl⟩ <;> exact .inr ⟨_, _, _, rfl⟩
  · have noG : ∀ e, ¬ ChainBases (["a"], ["G"]) e := by
      rintro e (⟨h, -⟩ | ⟨h, -⟩) <;> exact absurd h (by decide)
    rcases h with ⟨rfl, h | h⟩ | ⟨rfl, h⟩
    · cases h
      exact ⟨_, _, chain_applies (.inl rfl), rfl, fun e he => absurd he (noG e)⟩
    · cases h
      exact ⟨_, _, chain_applies (.inr rfl), rfl, fun e he => absurd he (noG e)⟩
    · cases h
      refine ⟨(["a"], ["H"]), [["T"]], ⟨rfl, ⟨["H"], rfl, chain_means (by decide)⟩, rfl, chain_empty⟩, rfl,
        fun e he => .inr ?_⟩
      rcases he with ⟨-, rfl | rfl⟩ | ⟨h, -⟩
      · refine ⟨_, _, _, _, _, rfl, fun v a l hm => ?_, .inl ⟨rfl, .inr rfl⟩, chain_applies (.inr rfl)⟩
        simp [subtrees, nm, sub] at hm
      · refine ⟨_, _, _, _, _, rfl, fun v a l hm => ?_, .inl ⟨rfl, .inr rfl⟩, chain_applies (.inr rfl)⟩
        simp [subtrees, nm, sub] at hm
      · exact absurd h (by decide)

/-- The hypotheses of `C72_processable_partial` and `C72_read_partial` can be met. -/
example : (∃ t, processBases sampleOrder sampleRep 20 (readAll chainFiles [["a"]]) = (.ok (), t))
    ∧ ∃ T, parseStubs (filesOf chainFiles) sampleRep 20 [["a"]] = .ok T :=
  have hs : NoSpecializations (readAll chainFiles [["a"]]) := ⟨rfl, rfl, rfl, rfl, rfl, fun _ => rfl⟩
  ⟨C72_processable_partial _ _ _ _ hs _ chain_processable,
    C72_read_partial _ _ _ _ (readAll chainFiles [["a"]]) rfl hs _ chain_processable⟩

/-- A generic class with a class inside. -/
def nestedFiles : Dict Path (List Stmt) := [
  (["builtins"], sampleBuiltins),
  (["a"], typingHead ++ [
    .classDef "G" [sub (nm "Generic") (nm "T")] [] [.classDef "Inner" [] [] []],
    .classDef "D" [sub (nm "G") (nm "int")] [] []])]

/-- `class D(G[int]): ...` makes the reading of all stubs fail when `G` contains a class. -/
theorem C72_nested_class :
    (parseAll (filesOf nestedFiles) 20 [["a"]] {}).1.isOk = true
      ∧ (processBases sampleOrder sampleRep 20 (readAll nestedFiles [["a"]])).1 = .error .keyError := ⟨rfl, rfl⟩

/-- A generic class with a list among the arguments. -/
def listFiles : Dict Path (List Stmt) := [
  (["builtins"], sampleBuiltins),
  (["a"], typingHead ++ [.classDef "G" [sub (nm "Generic") (nm "T")] [] [],
    .classDef "D" [sub (nm "G") (.list [nm "int"])] [] []])]

/-- So does `class D(G[[int]]): ...`. -/
theorem C72_list_argument :
    (parseAll (filesOf listFiles) 20 [["a"]] {}).1.isOk = true
      ∧ (processBases sampleOrder sampleRep 20 (readAll listFiles [["a"]])).1
        = .error (.typeError "to_identifier") := ⟨rfl, rfl⟩

/-- `H` derives from `G[Box[T]]`; `a` imports `H` alone. -/
def unknownFiles : Dict Path (List Stmt) := [
  (["builtins"], sampleBuiltins),
  (["b"], typingHead ++ [.classDef "Box" [sub (nm "Generic") (nm "T")] [] [],
    .classDef "G" [sub (nm "Generic") (nm "T")] [] [meth "f" (nm "T")],
    .classDef "H" [sub (nm "G") (sub (nm "Box") (nm "T"))] [] []]),
  (["a"], [.importFrom (some "b") [⟨"H", none⟩] 0,
    .classDef "D" [sub (nm "H") (nm "int")] [] []])]

/-- And `class D(H[int]): ...` in another module than `H`: the name `Box` is looked for in the module of
`D`, where it is not known. -/
theorem C72_unknown_argument :
    (parseAll (filesOf unknownFiles) 20 [["a"], ["b"]] {}).1.isOk = true
      ∧ (processBases sampleOrder sampleRep 20 (readAll unknownFiles [["a"], ["b"]])).1
        = .error .objectNotFound := ⟨rfl, rfl⟩

/-- One class `D` with one base `G[[int]]`. -/
def listState : ParseState :=
  { definitions := [(["a"], .mk [("G", .mk []), ("D", .mk [])])]
    generics := [((["a"], ["G"]), [["T"]])]
    classesBases := [((["a"], ["D"]), [sub (nm "G") (.list [nm "int"])])] }

theorem C72_refuted : ¬ C72_statement := by
  intro h
  have := h sampleOrder sampleRep 20 listState ⟨rfl, rfl, rfl, rfl, rfl, fun _ => rfl⟩ fun c bases hb base hbase => by
    have hc : c = (["a"], ["D"]) ∧ bases = [sub (nm "G") (.list [nm "int"])] := by
      have := mem_of_lookup_some hb
      rw [listState, List.mem_singleton, Prod.mk.injEq] at this
      exact this
    obtain ⟨rfl, rfl⟩ := hc
    rw [List.mem_singleton] at hbase
    subst hbase
    refine ⟨(["a"], ["G"]), ⟨["G"], rfl, fun T hd _ _ => ?_⟩, rfl⟩
    exact resolve_own (defs := .mk [("G", .mk []), ("D", .mk [])]) (inner := .mk [])
      (hd ["a"] (by decide)) rfl
  cases this

/-- The hypotheses of `C72_plain_partial` can be met. -/
example : ∃ t, processBases sampleOrder sampleRep 20
      { definitions := [(["a"], .mk [("G", .mk []), ("D", .mk [])])]
        classesBases := [((["a"], ["G"]), []), ((["a"], ["D"]), [nm "G"])] } = (.ok (), t)
    ∧ supersAt t ["a"] ["D"] = [(["a"], ["G"])] := by
  obtain ⟨t, h1, h2⟩ := C72_plain_partial sampleOrder sampleRep 20
    { definitions := [(["a"], .mk [("G", .mk []), ("D", .mk [])])]
      classesBases := [((["a"], ["G"]), []), ((["a"], ["D"]), [nm "G"])] }
    ⟨rfl, rfl, rfl, rfl, rfl, fun _ => rfl⟩ (by decide) (fun _ _ => (["a"], ["G"])) (fun c bases hb base hbase => by
      have := mem_of_lookup_some hb
      simp only [List.mem_cons, Prod.mk.injEq, List.not_mem_nil, or_false] at this
      rcases this with ⟨rfl, rfl⟩ | ⟨rfl, rfl⟩
      · cases hbase
      · rw [List.mem_singleton] at hbase
        subst hbase
        exact ⟨["G"], rfl, fun T hd _ _ =>
          resolve_own (defs := .mk [("G", .mk []), ("D", .mk [])]) (inner := .mk [])
            (hd ["a"] (by decide)) rfl⟩)
  exact ⟨t, h1, h2 (["a"], ["D"]) [nm "G"] rfl⟩

end Paradigm.Props
