import Verif.Model.Execution

/-!
# Runs of calls in several threads
-/

namespace Paradigm.Spec

/-- Any number of steps. -/
inductive Runs {α : Type} (step : α → α → Prop) : α → α → Prop
  | refl {a : α} : Runs step a a
  | step {a b c : α} : Runs step a b → step b c → Runs step a c

/-- No call has begun. -/
def Machine.Fresh (m : Machine) : Prop := ∀ i, m.phase i = .idle

/-- No call is going on. -/
def Machine.Quiet (m : Machine) : Prop := ∀ i, (m.phase i).active = false

/-- No two calls are going on. -/
def Machine.Exclusive (m : Machine) : Prop :=
  ∀ i j, (m.phase i).active = true → (m.phase j).active = true → i = j

end Paradigm.Spec
