/-!
# Python objects that occur as annotations, defaults and bound arguments

Models the values paradigm handles opaquely (annotations, defaults, arguments) and
`/repo/paradigm/_core/annotated.py` (`are_equal`).

Runtime facts modelled (trusted): CPython 3.11 `typing.get_args`, `typing.get_origin`,
`functools.singledispatch` selection by the class of the first argument, `==` of builtin values
and of `typing` objects.
-/

namespace Paradigm

/-- Object identity (`id(x)`), used where Python compares with `is`. -/
abbrev Ident := Nat

/-- Python exceptions as values. The message texts of the code are abbreviated to short tags;
only the exception class matters to callers. -/
inductive PyErr where
  | typeError (tag : String)
  | valueError (tag : String)
  | keyError
  | indexError
  | attributeError
  | assertionError
  | stopIteration
  | recursionError
  | objectNotFound
  | signatureNotFound
  | sourceNotFound
  | nameError
  deriving DecidableEq, Repr

/-- Values that `are_equal` compares with plain `==`
(`/repo/paradigm/_core/annotated.py:17-21` default case and `:112-117` for `str`/`bytes`).
`opaque id eqc hashable` is any other object whose `==` is an equivalence with class `eqc`
(objects with identity equality have `eqc = id`); objects with a non-equivalence `==`
other than `nan` are not modelled. `noDefault` is `models._NONE`
(`/repo/paradigm/_core/models.py:18-23`). -/
inductive Atom where
  | none
  | ellipsis
  | notImplemented
  | noDefault
  | bool (b : Bool)
  | int (i : Int)
  | nan (id : Ident)
  | str (s : String)
  | bytes (b : List UInt8)
  | opaque (id eqc : Ident) (hashable : Bool)
  deriving DecidableEq, Repr, Inhabited

/-- Python's `==` on atoms: `True == 1`, `nan != nan`, otherwise by kind and content. -/
def Atom.eq : Atom → Atom → Bool
  | .none, .none => true
  | .ellipsis, .ellipsis => true
  | .notImplemented, .notImplemented => true
  | .noDefault, .noDefault => true
  | .bool a, .bool b => a == b
  | .bool a, .int j => (if a then 1 else 0) == j
  | .int i, .bool b => i == (if b then 1 else 0)
  | .int i, .int j => i == j
  | .str s, .str t => s == t
  | .bytes s, .bytes t => s == t
  | .opaque _ c _, .opaque _ d _ => c == d
  | _, _ => false

/-- What `typing.get_origin` can return for the aliases modelled here, or a class / special form
standing for itself (`to_origin(x) or x`, `/repo/paradigm/_core/annotated.py:29-30`). -/
inductive Origin where
  | cls (id : Ident)
  | form (id : Ident)
  deriving DecidableEq, Repr

/-- Annotation / default / argument objects.

* `cls i` – a class (dispatches to the `type` handler);
* `form i` – a special form such as `typing.Any`, `typing.Union`, `typing.Literal`;
* `special i o` – an unsubscripted `typing` alias such as `typing.List` (`get_origin` = class `o`,
  `get_args` = `()`), an instance of `typing._SpecialGenericAlias`, hence default dispatch;
* `alias n o args` – an instance of `typing._GenericAlias` (or a subclass) or of
  `types.UnionType`; `n` is its `_name`, `o` its origin;
* `pep585 o args` – `types.GenericAlias`, e.g. `list[int]` (default dispatch on 3.11);
* `typeVar`, `paramSpec`, `paramArgs`, `paramKwargs`, `newType` – the objects with own handlers;
* `list`, `tuple` – the `abc.Sequence` handler; other sequences are not modelled. -/
inductive Obj where
  | atom (a : Atom)
  | cls (id : Ident)
  | form (id : Ident)
  | special (id origin : Ident)
  | alias (name : Option String) (origin : Origin) (args : List Obj)
  | pep585 (origin : Ident) (args : List Obj)
  | typeVar (id : Ident) (name : String) (bound : Obj) (contravariant covariant : Bool)
      (constraints : List Obj)
  | paramSpec (id : Ident) (name : String) (bound : Obj) (contravariant covariant : Bool)
  | paramArgs (origin : Obj)
  | paramKwargs (origin : Obj)
  | newType (id : Ident) (qualname : String) (supertype : Obj)
  | list (xs : List Obj)
  | tuple (xs : List Obj)
  deriving Repr, Inhabited

/-- `typing.Union`. -/
def unionForm : Ident := 0
/-- `typing.Literal`. -/
def literalForm : Ident := 1
/-- `typing.Any`. -/
def anyForm : Ident := 2
/-- `typing_extensions.Self`. -/
def selfForm : Ident := 3
/-- `types.UnionType` (origin of `int | str`). -/
def unionTypeCls : Ident := 0
/-- `type(None)`. -/
def noneTypeCls : Ident := 1

def Obj.none : Obj := .atom .none
/-- `models._NONE`, `/repo/paradigm/_core/models.py:23`. -/
def Obj.noDefault : Obj := .atom .noDefault

namespace Obj

/-- `to_arguments = typing.get_args`, `/repo/paradigm/_core/annotated.py:120`. -/
def getArgs : Obj → List Obj
  | .alias _ _ args => args
  | .pep585 _ args => args
  | _ => []

/-- `to_origin(x) or x` as something comparable with `is` to a class or special form
(`/repo/paradigm/_core/annotated.py:29-30,121`); `none` means "some object that is neither". -/
def originOrSelf : Obj → Option Origin
  | .alias _ o _ => some o
  | .pep585 o _ => some (.cls o)
  | .special _ o => some (.cls o)
  | .cls i => some (.cls i)
  | .form i => some (.form i)
  | _ => Option.none

end Obj

/-- Object identity of atoms, used for the identity shortcut of container comparison. -/
def Obj.isNanWith : Obj → Obj → Bool
  | .atom (.nan i), .atom (.nan j) => i == j
  | _, _ => false

/-- Type of a literal value as seen by `typing.Literal.__eq__` (`type(v)`): distinguishes
`1` from `True`. -/
def Atom.tag : Atom → Nat
  | .none => 0 | .ellipsis => 1 | .notImplemented => 2 | .noDefault => 3
  | .bool _ => 4 | .int _ => 5 | .nan _ => 6 | .str _ => 7 | .bytes _ => 8 | .opaque .. => 9

def Obj.tag : Obj → Nat
  | .atom a => a.tag
  | .cls _ => 10 | .form _ => 11 | .special .. => 12 | .alias .. => 13 | .pep585 .. => 14
  | .typeVar .. => 15 | .paramSpec .. => 16 | .paramArgs _ => 17 | .paramKwargs _ => 18
  | .newType .. => 19 | .list _ => 20 | .tuple _ => 21

/-- Is the origin one whose Python `==` compares arguments as sets?
(`typing._UnionGenericAlias.__eq__`, `types.UnionType.__eq__`). -/
def Origin.isUnionLike : Origin → Bool
  | .form i => i == unionForm
  | .cls i => i == unionTypeCls

mutual
/-- Python's `==` on these objects (runtime fact, used by the default case of `are_equal`). -/
def Obj.pyEq : Obj → Obj → Bool
  | .atom a, .atom b => a.eq b
  | .cls i, .cls j => i == j
  | .form i, .form j => i == j
  | .special i _, .special j _ => i == j
  | .alias _ o as, .alias _ o' bs =>
    if o.isUnionLike && o'.isUnionLike then
      Obj.pyAllAny as bs && bs.all (fun b => Obj.pyAny as b)
    else if o == .form literalForm && o' == .form literalForm then
      Obj.pyAllAnyTag as bs && bs.all (fun b => Obj.pyAnyTag as b)
    else o == o' && Obj.pyEqs as bs
  | .pep585 o as, .pep585 o' bs => o == o' && Obj.pyEqs as bs
  | .typeVar i .., .typeVar j .. => i == j
  | .paramSpec i .., .paramSpec j .. => i == j
  | .paramArgs o, .paramArgs o' => Obj.pyEq o o'
  | .paramKwargs o, .paramKwargs o' => Obj.pyEq o o'
  | .newType i .., .newType j .. => i == j
  | .list as, .list bs => Obj.pyEqs as bs
  | .tuple as, .tuple bs => Obj.pyEqs as bs
  | _, _ => false

/-- Element-wise comparison of tuples/lists (with the identity shortcut). -/
def Obj.pyEqs : List Obj → List Obj → Bool
  | [], [] => true
  | a :: as, b :: bs => (Obj.isNanWith a b || Obj.pyEq a b) && Obj.pyEqs as bs
  | _, _ => false

/-- Each left element is equal to some right element. -/
def Obj.pyAllAny : List Obj → List Obj → Bool
  | [], _ => true
  | a :: as, bs => bs.any (fun b => Obj.isNanWith a b || Obj.pyEq a b) && Obj.pyAllAny as bs

/-- Some left element is equal to the right one. -/
def Obj.pyAny : List Obj → Obj → Bool
  | [], _ => false
  | a :: as, b => (Obj.isNanWith a b || Obj.pyEq a b) || Obj.pyAny as b

def Obj.pyAllAnyTag : List Obj → List Obj → Bool
  | [], _ => true
  | a :: as, bs =>
    bs.any (fun b => a.tag == b.tag && (Obj.isNanWith a b || Obj.pyEq a b))
      && Obj.pyAllAnyTag as bs

def Obj.pyAnyTag : List Obj → Obj → Bool
  | [], _ => false
  | a :: as, b => (a.tag == b.tag && (Obj.isNanWith a b || Obj.pyEq a b)) || Obj.pyAnyTag as b
end

mutual
/-- `annotated.are_equal`, `/repo/paradigm/_core/annotated.py:17-117`, one equation per registered
handler, selected by the class of the left argument:
default `:17-21` and `str`/`bytes` `:112-117` (`==`); aliases, unions and classes `:24-40`;
sequences `:43-47`; `ParamSpec` `:50-56`; `ParamSpecArgs` `:59-62`; `NewType` `:79-87` (>= 3.10);
`ParamSpecKwargs` `:90-93`; `TypeVar` `:96-109`.
Simplified: the `assert isinstance(result, bool)` always holds for the modelled objects. -/
def Obj.areEqual : Obj → Obj → Bool
  | .cls i, r =>
    -- `get_args` of a class is `()`
    r.originOrSelf == some (.cls i) && r.getArgs.length == 0
  | .alias _ o as, r =>
    r.originOrSelf == some o
      && as.length == r.getArgs.length
      && (if o == .form unionForm || o == .form literalForm then
            Obj.areAllAny as r.getArgs && r.getArgs.all (fun b => Obj.areAny as b)
          else Obj.areEquals as r.getArgs)
  | .list as, .list bs => as.length == bs.length && Obj.areEquals as bs
  | .list _, _ => false
  | .tuple as, .tuple bs => as.length == bs.length && Obj.areEquals as bs
  | .tuple _, _ => false
  | .paramSpec _ n b c v, .paramSpec _ n' b' c' v' =>
    n == n' && Obj.areEqual b b' && c == c' && v == v'
  | .paramSpec .., _ => false
  | .paramArgs o, .paramArgs o' => Obj.areEqual o o'
  | .paramArgs _, _ => false
  | .paramKwargs o, .paramKwargs o' => Obj.areEqual o o'
  | .paramKwargs _, _ => false
  | .newType _ q s, .newType _ q' s' => q == q' && Obj.areEqual s s'
  | .newType .., _ => false
  | .typeVar _ n b c v cs, .typeVar _ n' b' c' v' cs' =>
    n == n' && Obj.areEqual b b' && c == c' && v == v'
      && cs.length == cs'.length && Obj.areEquals cs cs'
  | .typeVar .., _ => false
  -- default dispatch: `left == right`
  | .atom a, r => Obj.pyEq (.atom a) r
  | .form i, r => Obj.pyEq (.form i) r
  | .special i o, r => Obj.pyEq (.special i o) r
  | .pep585 o as, r => Obj.pyEq (.pep585 o as) r

/-- `all(map(are_equal, left, right))` (stops at the shorter one). -/
def Obj.areEquals : List Obj → List Obj → Bool
  | a :: as, b :: bs => Obj.areEqual a b && Obj.areEquals as bs
  | _, _ => true

/-- `all(any(are_equal(l, r) for r in right) for l in left)`. -/
def Obj.areAllAny : List Obj → List Obj → Bool
  | [], _ => true
  | a :: as, bs => bs.any (fun b => Obj.areEqual a b) && Obj.areAllAny as bs

/-- `any(are_equal(l, r) for l in left)`. -/
def Obj.areAny : List Obj → Obj → Bool
  | [], _ => false
  | a :: as, b => Obj.areEqual a b || Obj.areAny as b
end

end Paradigm
