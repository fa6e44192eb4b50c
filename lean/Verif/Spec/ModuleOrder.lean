import Verif.Spec.Stubs

/-!
# The order in which modules are read

Independent of the parser but for the files it opens.
-/

namespace Paradigm.Spec

/-- Reading the first `k` modules (after `builtins`, which always comes first) opens exactly these files, in
this order, for every `k`: no module needs one that comes later. -/
def ReadInTurn (E : StubFiles) (n : Nat) (modules : List Path) : Prop :=
  ∀ k ≤ modules.length, ∃ s, parseAll E n (modules.take k) {} = (.ok (), s) ∧
    s.reads.reverse = ["builtins"] :: modules.take k

/-- The tables of two outcomes say the same of the module. -/
structure TellAlike (a b : Stubs) (m : Path) : Prop where
  nodes : a.rawAstNodes.lookup m = b.rawAstNodes.lookup m
  kinds : a.nodesKinds.lookup m = b.nodesKinds.lookup m
  definitions : a.definitions.lookup m = b.definitions.lookup m
  references : a.references.lookup m = b.references.lookup m
  submodules : a.submodules.lookup m = b.submodules.lookup m

/-- The tables of two outcomes say the same of everything. -/
structure SayAlike (a b : Stubs) : Prop where
  tell : ∀ m, TellAlike a b m
  superclasses : ∀ m p, (((a.superclasses.lookup m).getD []).lookup p).getD []
    = (((b.superclasses.lookup m).getD []).lookup p).getD []

end Paradigm.Spec
