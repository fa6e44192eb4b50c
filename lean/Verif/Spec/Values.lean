import Verif.Model.Models

/-! Classes of annotation / default values used in statements about equality and hashing. -/

namespace Paradigm.Spec

mutual
/-- No `nan` anywhere inside. -/
def noNan : Obj → Bool
  | .atom (.nan _) => false
  | .atom _ | .cls _ | .form _ | .special .. => true
  | .alias _ _ as => noNans as
  | .pep585 _ as => noNans as
  | .typeVar _ _ b _ _ cs => noNan b && noNans cs
  | .paramSpec _ _ b _ _ => noNan b
  | .paramArgs o => noNan o
  | .paramKwargs o => noNan o
  | .newType _ _ s => noNan s
  | .list xs => noNans xs
  | .tuple xs => noNans xs

def noNans : List Obj → Bool
  | [] => true
  | x :: xs => noNan x && noNans xs
end

mutual
/-- Values free of: `nan`; unsubscripted `typing` aliases (`typing.List`); builtin generic aliases
(`list[int]`); special forms subscripted by nothing (`Literal[()]`). -/
def regular : Obj → Bool
  | .atom (.nan _) => false
  | .atom _ | .cls _ | .form _ => true
  | .special .. => false
  | .pep585 .. => false
  | .alias _ o as => regulars as && (match o with
      | .form _ => !as.isEmpty
      | .cls _ => true)
  | .typeVar _ _ b _ _ cs => regular b && regulars cs
  | .paramSpec _ _ b _ _ => regular b
  | .paramArgs o => regular o
  | .paramKwargs o => regular o
  | .newType _ _ s => regular s
  | .list xs => regulars xs
  | .tuple xs => regulars xs

def regulars : List Obj → Bool
  | [] => true
  | x :: xs => regular x && regulars xs
end

/-- All values of a parameter satisfy `f`. -/
def paramAll (f : Obj → Bool) (p : Param) : Bool :=
  f p.annotation && (match p.default? with
    | some d => f d
    | none => true)

/-- All values of a plain signature satisfy `f`. -/
def plainAll (f : Obj → Bool) (s : PlainSig) : Bool := s.parameters.all (paramAll f) && f s.returns

/-- All values of a signature satisfy `f`. -/
def sigAll (f : Obj → Bool) : Sig → Bool
  | .plain s => plainAll f s
  | .overloaded ss => ss.all (plainAll f)

end Paradigm.Spec

namespace Paradigm.Spec

/-- Not a `bool`. -/
def notBool : Obj → Bool
  | .atom (.bool _) => false
  | _ => true

mutual
/-- Values on which `are_equal` refines Python's `==`: additionally to `regular`, no type variables,
parameter specifications or new types (compared by structure but hashed by identity), no alias of a
class without arguments (`Tuple[()]`), no `bool` directly inside `Literal` (`Literal[True]`). -/
def hashRegular : Obj → Bool
  | .atom (.nan _) => false
  | .atom _ | .cls _ | .form _ => true
  | .special .. => false
  | .pep585 .. => false
  | .alias _ o as => hashRegulars as && !as.isEmpty
      && (if o == .form literalForm then as.all notBool else true)
  | .typeVar .. => false
  | .paramSpec .. => false
  | .paramArgs o => hashRegular o
  | .paramKwargs o => hashRegular o
  | .newType .. => false
  | .list xs => hashRegulars xs
  | .tuple xs => hashRegulars xs

def hashRegulars : List Obj → Bool
  | [] => true
  | x :: xs => hashRegular x && hashRegulars xs
end

end Paradigm.Spec
