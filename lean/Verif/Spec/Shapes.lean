import Verif.Model.Models
import Verif.Spec.Definitions

/-!
# Signatures that differ in annotations and defaults only (specification)
-/

namespace Paradigm.Spec

/-- Parameters of the same name, the same kind, and both optional or both required. -/
structure AlikeParameter (p q : Param) : Prop where
  name : p.name = q.name
  kind : p.kind = q.kind
  optional : p.isOptional = q.isOptional

/-- Plain signatures with parameters alike. -/
def AlikePlain (s t : PlainSig) : Prop := Pointwise AlikeParameter s.parameters t.parameters

/-- Both plain or both overloaded, with as many overloads, pairwise alike. -/
def Alike : Sig → Sig → Prop
  | .plain s, .plain t => AlikePlain s t
  | .overloaded ss, .overloaded ts => Pointwise AlikePlain ss ts
  | _, _ => False

end Paradigm.Spec
