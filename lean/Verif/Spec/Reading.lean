import Verif.Spec.Kinds

/-!
# How the reading of a stub file ended (specification)
-/

namespace Paradigm.Spec

/-- The module was read to its end (when it was first asked for), and what was recorded about it then
is what the tables say. -/
def ReadToEnd (E : StubFiles) (t : ParseState) (m : Path) : Prop :=
  ∃ k s scope u, m ∉ s.visited ∧ parseScope E k m s = (.ok scope, u) ∧ SameAt u t m

/-- The reading of the module was broken off by an exception, and what was recorded about it until then
is what the tables say. -/
def BrokenOff (E : StubFiles) (t : ParseState) (m : Path) : Prop :=
  ∃ k s e u, m ∉ s.visited ∧ parseScope E k m s = (.error e, u) ∧ SameAt u t m

end Paradigm.Spec
