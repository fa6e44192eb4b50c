import Verif.Model.Models

/-!
# Hashing of parameters and signatures

Models the `__hash__` methods of `/repo/paradigm/_core/models.py`. Python's own `hash` of
annotation/default objects, of strings, of enum members and of tuples is a parameter (`PyHash`); the
only thing assumed about it is Python's contract "objects that compare equal with `==` and are
hashable have the same hash".
-/

namespace Paradigm

/-- A runtime `hash`. `obj` is `none` on unhashable objects (`TypeError`). -/
structure PyHash where
  obj : Obj → Option Nat
  str : String → Nat
  kind : Kind → Nat
  /-- `tuplehash`, a function of the hashes of the elements -/
  tuple : List Nat → Nat
  obj_eq : ∀ a b x y, a.pyEq b = true → obj a = some x → obj b = some y → x = y

namespace PyHash

/-- `hash((h1, h2, ...))`: fails as soon as an element does. -/
def ofTuple (H : PyHash) (l : List (Option Nat)) : Option Nat :=
  (l.mapM id).map H.tuple

/-- `RequiredParameter.__hash__` / `OptionalParameter.__hash__`,
`/repo/paradigm/_core/models.py:126-127,218-221`. -/
def param (H : PyHash) : Param → Option Nat
  | .required a k n => H.ofTuple [H.obj a, some (H.kind k), some (H.str n)]
  | .optional a d k n =>
    H.ofTuple ([H.obj a] ++ (match d with
        | some d => [H.obj d]
        | none => [])
      ++ [some (H.kind k), some (H.str n)])

/-- `PlainSignature.__hash__`, `/repo/paradigm/_core/models.py:459-460`. -/
def plain (H : PyHash) (s : PlainSig) : Option Nat :=
  H.ofTuple [H.ofTuple (s.parameters.map H.param), H.obj s.returns]

/-- `__hash__` of signatures, `/repo/paradigm/_core/models.py:459-460,549-550`. -/
def sig (H : PyHash) : Sig → Option Nat
  | .plain s => H.plain s
  | .overloaded ss => H.ofTuple (ss.map H.plain)

end PyHash

end Paradigm
