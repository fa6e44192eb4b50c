import Verif.Lemmas.Superclasses
import Verif.Props.Specialization

/-!
# C92: the superclasses recorded
-/

namespace Paradigm.Props

open Spec

/-- The identifier of a base, if it has one. -/
def identifierOf (rep : Atom → String) (e : Expr) : Option String := (toIdentifier rep e).toOption

/-- What a dotted name means where the bases of a class stand. -/
def ResolvesTo (n : Nat) (u : ParseState) (c : QPath) (path : Path) (q : QPath) : Prop :=
  resolve u.tables n c.1 c.2.dropLast path [] = .ok q

/-- **C92**, full statement: the superclasses of a class in the tables that are returned are those of
its bases in the order of declaration, after the one recorded for a named tuple. -/
def C92_statement : Prop :=
  ∀ (E : StubFiles) (rep : Atom → String) (n : Nat) (modules : List Path) (s : ParseState) (T : Stubs),
    parseAll E n modules {} = (.ok (), s) → parseStubs E rep n modules = .ok T →
    ∀ (c : QPath) (bases : List Expr), s.classesBases.lookup c = some bases →
    ∃ qs, supersAt (returned T) c.1 c.2 = supersAt s c.1 c.2 ++ qs ∧
      Pointwise (RecordedFor (identifierOf rep) (ResolvesTo n) s (returned T) c) bases qs

theorem madeForBase_of_origin {rep : Atom → String} {n : Nat} {s t : ParseState} {name : String}
    (h : BaseOrigin rep n s t name) : MadeForBase (identifierOf rep) (ResolvesTo n) s
      (returned { t.tables with rawAstNodes := t.nodes, nodesKinds := t.kinds }) name := by
  obtain ⟨u, c, bases, v, w, l, path, g, params, h1, h2, h3, h4, h5, h6, h7, h8, -⟩ := h
  exact ⟨u, c, bases, v, w, l, path, g, params, h1.since, h2, h3, by rw [identifierOf, h4]; rfl, h5, h6,
    h7, ⟨h8.defined, h8.class_, h8.members⟩⟩

/-- **C92**, what holds (missing: classes that have type parameters themselves, whose stored bases are
rewritten when the class is specialised before its own bases are looked at, see `C92_refuted`). -/
theorem C92_superclasses_partial (E : StubFiles) (rep : Atom → String) (n : Nat) (modules : List Path)
    (s : ParseState) (T : Stubs) (hs : parseAll E n modules {} = (.ok (), s))
    (hT : parseStubs E rep n modules = .ok T) (c : QPath) (bases : List Expr)
    (hb : s.classesBases.lookup c = some bases) (hg : s.generics.lookup c = none) :
    ∃ qs, supersAt (returned T) c.1 c.2 = supersAt s c.1 c.2 ++ qs ∧
      Pointwise (RecordedFor (identifierOf rep) (ResolvesTo n) s (returned T) c) bases qs := by
  obtain ⟨s', t, h1, h2, rfl⟩ := parseStubs_ok hT
  rw [hs] at h1
  cases h1
  have tidy := parseAll_tidy hs
  have hnone : s.definitions.lookup specPath = none := by
    obtain ⟨_, _, h3, -⟩ := bind_ok (show (openSpecializations >>= _) s = _ from h2)
    exact openSpecializations_none h3
  have hne : ∀ d : QPath, (s.definitions.lookup d.1).isSome → d.1 ≠ specPath := by
    intro d hd e
    rw [e, hnone] at hd
    cases hd
  obtain ⟨qs, h3, h4⟩ := processBases_processing (rep := rep) (n := n)
    (fun d hd => hne d (tidy.generics d hd)) tidy.nodup (fun d hd => hne d (tidy.bases d hd)) h2 hg hb
  refine ⟨qs, h3, h4.imp fun base q _ _ ⟨hr, ho⟩ => ?_⟩
  by_cases hsub : ∃ v w l, base = .subscript v w l
  · obtain ⟨v, w, l, rfl⟩ := hsub
    obtain ⟨name, h5, h6, h7⟩ := hr.1 v w l rfl
    exact .inl ⟨v, w, l, name, rfl, by rw [identifierOf, h5]; rfl, h6,
      madeForBase_of_origin (ho name h6 h7)⟩
  · obtain ⟨p, u, h5, h6, h7⟩ := hr.2 fun v w l e => hsub ⟨v, w, l, e⟩
    exact .inr ⟨p, u, h5, h6.since, h7⟩

/-- A dotted name that means the same whatever superclasses are recorded gives that class. -/
theorem C92_means_partial (n : Nat) (identifier : Expr → Option String) (s t : ParseState) (c : QPath)
    (base : Expr) (q q' : QPath) (h : RecordedFor identifier (ResolvesTo n) s t c base q)
    (hm : BaseMeans n s c base q') : q = q' := by
  rcases h with ⟨v, w, l, name, rfl, -⟩ | ⟨path, u, h1, h2, h3⟩
  · obtain ⟨p, hp, -⟩ := hm
    cases hp
  · exact h2.means hm h1 h3

/-- `a` imports `Base` from `b`, where it derives from `Gen[T]`, and derives `D` from `Base[int]`. The
module `a` is read first. -/
def earlyFiles : Dict Path (List Stmt) := [
  (["builtins"], sampleBuiltins),
  (["b"], typingHead ++ [.classDef "Gen" [sub (nm "Generic") (nm "T")] [] [meth "get" (nm "T")],
    .classDef "Base" [sub (nm "Gen") (nm "T")] [] []]),
  (["a"], [.importFrom (some "b") [⟨"Base", none⟩, ⟨"Gen", none⟩] 0,
    .classDef "D" [sub (nm "Base") (nm "int"), nm "Gen"] [] []])]

/-- The tables returned for them. -/
def earlyStubs : Stubs :=
  match parseStubs (filesOf earlyFiles) sampleRep 20 [["a"], ["b"]] with
  | .ok T => T
  | .error _ => ⟨⟨[], [], [], []⟩, [], []⟩

/-- `Base` derives from `Gen[int]` for good. -/
theorem C92_refuted : ¬ C92_statement := by
  intro h
  obtain ⟨qs, h1, h2⟩ := h (filesOf earlyFiles) sampleRep 20 [["a"], ["b"]] (readAll earlyFiles [["a"], ["b"]])
    earlyStubs rfl rfl (["b"], ["Base"]) [sub (nm "Gen") (nm "T")] rfl
  have e : qs = [(specPath, ["Gen_getitem_int"])] := by
    have : supersAt (returned earlyStubs) ["b"] ["Base"] = [(specPath, ["Gen_getitem_int"])] := rfl
    rw [this] at h1
    exact h1.symm
  subst e
  rcases h2.1 with ⟨v, w, l, name, -, h3, h4, -⟩ | ⟨path, u, h3, -⟩
  · have : identifierOf sampleRep (sub (nm "Gen") (nm "T")) = some "Gen_getitem_T" := rfl
    rw [this] at h3
    cases h3
    exact absurd h4 (by decide)
  · cases h3

/-- The hypotheses of `C92_superclasses_partial` can be met. -/
example : parseStubs (filesOf earlyFiles) sampleRep 20 [["a"], ["b"]] = .ok earlyStubs
    ∧ (readAll earlyFiles [["a"], ["b"]]).classesBases.lookup (["a"], ["D"])
      = some [sub (nm "Base") (nm "int"), nm "Gen"]
    ∧ (readAll earlyFiles [["a"], ["b"]]).generics.lookup (["a"], ["D"]) = none
    ∧ supersAt (returned earlyStubs) ["a"] ["D"] = [(specPath, ["Base_getitem_int"]), (["b"], ["Gen"])] :=
  ⟨rfl, rfl, rfl, rfl⟩

end Paradigm.Props
