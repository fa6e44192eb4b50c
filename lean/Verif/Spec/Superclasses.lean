import Verif.Spec.Substitution

/-!
# Specialised classes (specification)
-/

namespace Paradigm.Spec

/-- In the tables `t` the class `name` of `__specializations` has the members of the class `g` of the
tables `s`, of the same kinds, with `σ` applied to them. -/
structure SpecialisedClass (s t : ParseState) (g : QPath) (σ : Path → Option Expr) (name : String) : Prop where
  defined : DefinedAt t ["__specializations"] [name]
  class_ : kindAt t ["__specializations"] [name] = some .class_
  members : ∀ x, DefinedAt s g.1 (g.2 ++ [x]) → DefinedAt t ["__specializations"] [name, x]
    ∧ kindAt t ["__specializations"] [name, x] = kindAt s g.1 (g.2 ++ [x])
    ∧ ((∀ node ∈ nodesAt s g.1 (g.2 ++ [x]), ∀ e ∈ exprsOf node, PlainAttributes σ e) →
      nodesAt t ["__specializations"] [name, x] = (nodesAt s g.1 (g.2 ++ [x])).map (substStmt σ))

/-- The tables `u` are the tables `s` but for `__specializations`, for superclasses recorded since and
for bases that were rewritten. -/
structure Since (s u : ParseState) : Prop where
  definitions : ∀ m, m ≠ ["__specializations"] → u.definitions.lookup m = s.definitions.lookup m
  references : ∀ m, m ≠ ["__specializations"] → u.references.lookup m = s.references.lookup m
  submodules : u.submodules = s.submodules
  supers : ∀ m path, m ≠ ["__specializations"] → supersAt s m path <+: supersAt u m path

/-- The class `name` of `__specializations` in the tables `t` was made for a base `v[w]` with that
identifier: it is the generic class that `v` means where the base stands, with the arguments `w`. -/
def MadeForBase (identifier : Expr → Option String) (resolves : ParseState → QPath → Path → QPath → Prop)
    (s t : ParseState) (name : String) : Prop :=
  ∃ (u : ParseState) (c : QPath) (bases : List Expr) (v w : Expr) (l : Bool) (path : Path) (g : QPath)
    (params : List Path), Since s u ∧ u.classesBases.lookup c = some bases ∧
    .subscript v w l ∈ bases ∧ identifier (.subscript v w l) = some name ∧ dotted v = some path ∧
    resolves u c path g ∧ s.generics.lookup g = some params ∧
    SpecialisedClass s t g (fun p => (params.zip (bracketed w)).lookup p) name

/-- `q` is what is recorded for a base of the class `c`: for `v[w]` the class of `__specializations`
with its identifier, for a dotted name what it means when it is looked at. -/
def RecordedFor (identifier : Expr → Option String)
    (resolves : ParseState → QPath → Path → QPath → Prop) (s t : ParseState) (c : QPath) (base : Expr)
    (q : QPath) : Prop :=
  (∃ v w l name, base = .subscript v w l ∧ identifier base = some name ∧
    q = (["__specializations"], [name]) ∧ MadeForBase identifier resolves s t name) ∨
  ∃ path u, dotted base = some path ∧ Since s u ∧ resolves u c path q

/-- The tables that are returned, as tables. -/
def returned (T : Stubs) : ParseState :=
  { definitions := T.definitions, references := T.references, submodules := T.submodules
    superclasses := T.superclasses, nodes := T.rawAstNodes, kinds := T.nodesKinds }

end Paradigm.Spec
