import Verif.Spec.Superclasses

/-!
# Bases that can be processed (specification)
-/

namespace Paradigm.Spec

/-- Where it stands in `parent` of module `m`, `path` means `q`, whatever superclasses are recorded and
whatever classes were specialised. -/
def AlwaysMeans (n : Nat) (s : ParseState) (m parent path : Path) (q : QPath) : Prop :=
  ∀ T : Tables,
    (∀ m, m ≠ ["__specializations"] → T.definitions.lookup m = s.definitions.lookup m) →
    (∀ m, m ≠ ["__specializations"] → T.references.lookup m = s.references.lookup m) →
    T.submodules = s.submodules → resolve T n m parent path [] = .ok q

/-- The base `e` of class `c` is a dotted name that means `q`, whatever superclasses are recorded. -/
def BaseMeans (n : Nat) (s : ParseState) (c : QPath) (e : Expr) (q : QPath) : Prop :=
  ∃ path, dotted e = some path ∧ AlwaysMeans n s c.1 c.2.dropLast path q

/-- Functions and assignments to names. -/
def IsMember : Stmt → Prop
  | .functionDef _ => True
  | .annAssign target _ _ => ∃ x, target = .name x false
  | .assign targets _ => ∀ target ∈ targets, ∃ x, target = .name x false
  | _ => False

/-- Putting `args` in the place of the parameters of the class `g` for a class of module `cm` is
possible: every member is recorded, as functions or assignments whose attributes are plain, and the names
read after the replacement mean something, in module `cm` those of the arguments, in the module of `g` the
others. -/
structure Specialisable (n : Nat) (s : ParseState) (cm : Path) (g : QPath) (params : List Path)
    (args : List Expr) : Prop where
  class_ : DefinedAt s g.1 g.2
  table : (s.nodes.lookup g.1).isSome
  members : ∀ x, DefinedAt s g.1 (g.2 ++ [x]) → ∃ nodes,
    nodesEntry s g.1 (g.2 ++ [x]) = some nodes ∧ (kindAt s g.1 (g.2 ++ [x])).isSome ∧
    (∀ node ∈ nodes, IsMember node ∧
      ∀ e ∈ exprsOf node, PlainAttributes (fun p => (params.zip args).lookup p) e) ∧
    ∀ node ∈ nodes, ∀ d ∈ namesRead (substStmt (fun p => (params.zip args).lookup p) node),
      (∀ node' ∈ nodes, ¬ BindsName d node') →
      ((∃ e ∈ args, d ∈ loadedNames e) → ∃ q, AlwaysMeans n s cm [] [d] q) ∧
      ((¬ ∃ e ∈ args, d ∈ loadedNames e) → ∃ q, AlwaysMeans n s g.1 [] [d] q)

/-- `v[w]`, standing where the bases of class `c` stand, is a generic class `g` with arguments that can
be put in the place of its parameters `params` for a class of module `cm`. -/
structure Applies (identifier : Expr → Option String) (n : Nat) (s : ParseState) (c : QPath) (cm : Path)
    (v w : Expr) (l : Bool) (g : QPath) (params : List Path) : Prop where
  named : (identifier (.subscript v w l)).isSome
  means : BaseMeans n s c v g
  generic : s.generics.lookup g = some params
  possible : Specialisable n s cm g params (bracketed w)

/-- The bases `B` can be processed, those of generic classes also with arguments in the place of the
parameters, which are then bases in `B` again. -/
structure Processable (identifier : Expr → Option String) (n : Nat) (s : ParseState)
    (B : QPath → Expr → Prop) : Prop where
  stored : ∀ c bases, s.classesBases.lookup c = some bases → ∀ e ∈ bases, B c e
  plain : ∀ c e, B c e → (∃ q, BaseMeans n s c e q) ∨ ∃ v w l, e = .subscript v w l
  generic : ∀ c v w l, B c (.subscript v w l) → ∃ g params, Applies identifier n s c c.1 v w l g params ∧
    (s.classesBases.lookup g).isSome ∧
    ∀ e, B g e → (∃ path q, dotted e = some path ∧ AlwaysMeans n s g.1 [] path q) ∨
      ∃ v' w' l' g' params', e = .subscript v' w' l' ∧
        PlainAttributes (fun p => (params.zip (bracketed w)).lookup p) e ∧
        B g (subst (fun p => (params.zip (bracketed w)).lookup p) e) ∧
        Applies identifier n s g c.1 (subst (fun p => (params.zip (bracketed w)).lookup p) v')
          (subst (fun p => (params.zip (bracketed w)).lookup p) w') l' g' params'

/-- Nothing is called `__specializations`. -/
structure NoSpecializations (s : ParseState) : Prop where
  nodes : s.nodes.lookup ["__specializations"] = none
  definitions : s.definitions.lookup ["__specializations"] = none
  kinds : s.kinds.lookup ["__specializations"] = none
  references : s.references.lookup ["__specializations"] = none
  superclasses : s.superclasses.lookup ["__specializations"] = none
  bases : ∀ path, s.classesBases.lookup (["__specializations"], path) = none

end Paradigm.Spec
