import Verif.Model.Models

/-!
# `to_repr`, `repr` and `str`

Models `to_repr` of `/repo/paradigm/_core/annotated.py` and the `__repr__`/`__str__` methods of
`/repo/paradigm/_core/models.py`. Texts are lists of characters. The texts CPython itself produces
(`repr` of builtin values, module and qualified names of classes) are the parameter `Repr`.
-/

namespace Paradigm

abbrev Text := List Char

/-- `sep.join(texts)`. -/
def join (sep : Text) : List Text → Text
  | [] => []
  | [t] => t
  | t :: ts => t ++ sep ++ join sep ts

/-- `", "`. -/
def commaSep : Text := [',', ' ']

/-- Texts produced by the runtime. -/
structure Reprs where
  /-- `repr(value)` of builtin values -/
  atom : Atom → Text
  /-- `f'{cls.__module__}.{cls.__qualname__}'` -/
  cls : Ident → Text
  /-- `repr(form)`, e.g. `typing.Any` -/
  form : Ident → Text
  /-- `repr(value)` of the other objects without a handler in `to_repr` -/
  other : Obj → Text
  /-- `repr(kind)` -/
  kind : Kind → Text

/-- `type(NotImplemented)` and `type(Ellipsis)`. -/
def notImplementedTypeCls : Ident := 2
def ellipsisTypeCls : Ident := 3

/-- `to_repr` of a class, `/repo/paradigm/_core/annotated.py:141-150`
(`to_arguments(value)` of a class is empty). -/
def clsRepr (rt : Reprs) (i : Ident) : Text :=
  if i = noneTypeCls then "type(None)".toList
  else if i = notImplementedTypeCls then "type(NotImplemented)".toList
  else if i = ellipsisTypeCls then "type(Ellipsis)".toList
  else rt.cls i

/-- `to_repr(origin)` of an alias' origin: a class or a special form. -/
def originRepr (rt : Reprs) : Origin → Text
  | .cls i => clsRepr rt i
  | .form i => rt.form i

/-- `type(None) in arguments`, `/repo/paradigm/_core/annotated.py:159`. -/
def isNoneType : Obj → Bool
  | .cls i => i == noneTypeCls
  | _ => false

/-- `f'{head}[{", ".join(map(to_repr, arguments))}]' if arguments else f'{head}[()]'`,
`/repo/paradigm/_core/annotated.py:163-171`. -/
def subscripted (head : Text) (args : List Text) : Text :=
  if args.isEmpty then head ++ "[()]".toList
  else head ++ ['['] ++ join commaSep args ++ [']']

/-- `to_repr` of an alias given the texts of its arguments,
`/repo/paradigm/_core/annotated.py:153-171`.
`types.UnionType` (an alias with origin `types.UnionType` in this model) has no handler.
`value.__module__` of a named alias is `typing`. -/
def aliasRepr (rt : Reprs) (name : Option String) (o : Origin) (args : List Obj)
    (texts : List Text) : Text :=
  if o = .cls unionTypeCls then rt.other (.alias name o args)
  else if o = .form unionForm then
    if args.length = 2 && args.any isNoneType then
      "typing.Optional[".toList
        ++ (texts.getD (if (args.head?.map isNoneType) = some true then 1 else 0) []) ++ [']']
    else originRepr rt o ++ ['['] ++ join commaSep texts ++ [']']
  else match name with
    | Option.none => subscripted (originRepr rt o) texts
    | some name => subscripted ("typing.".toList ++ name.toList) texts

/-- `to_repr` of a type variable given the texts of its bound and constraints,
`/repo/paradigm/_core/annotated.py:174-184`. -/
def typeVarRepr (rt : Reprs) (name : String) (bound : Obj) (boundText : Text)
    (contravariant covariant : Bool) (constraints : List Text) : Text :=
  "typing.TypeVar(".toList
    ++ join commaSep ([rt.atom (.str name)] ++ constraints
        ++ (match bound with
            | .atom .none => []
            | _ => ["bound=".toList ++ boundText])
        ++ (if contravariant then ["contravariant=True".toList] else [])
        ++ (if covariant then ["covariant=True".toList] else []))
    ++ [')']

/-- `to_repr` of a tuple given the texts of its elements,
`/repo/paradigm/_core/annotated.py:134-138`. -/
def tupleRepr : List Text → Text
  | [t] => ['('] ++ t ++ ",)".toList
  | ts => ['('] ++ join commaSep ts ++ [')']

mutual
/-- `to_repr`, `/repo/paradigm/_core/annotated.py:124-184`: default `:124-126`, lists `:129-131`,
tuples `:134-138`, classes `:141-150`, aliases `:153-171`, type variables `:174-184`. -/
def toRepr (rt : Reprs) : Obj → Text
  | .atom a => rt.atom a
  | .cls i => clsRepr rt i
  | .form i => rt.form i
  | .special i o => rt.other (.special i o)
  | .alias name o args => aliasRepr rt name o args (toReprs rt args)
  | .pep585 o as => rt.other (.pep585 o as)
  | .typeVar _ name bound contravariant covariant constraints =>
    typeVarRepr rt name bound (toRepr rt bound) contravariant covariant (toReprs rt constraints)
  | .paramSpec i n b c v => rt.other (.paramSpec i n b c v)
  | .paramArgs o => rt.other (.paramArgs o)
  | .paramKwargs o => rt.other (.paramKwargs o)
  | .newType i q t => rt.other (.newType i q t)
  | .list xs => ['['] ++ join commaSep (toReprs rt xs) ++ [']']
  | .tuple xs => tupleRepr (toReprs rt xs)

/-- `map(to_repr, values)`. -/
def toReprs (rt : Reprs) : List Obj → List Text
  | [] => []
  | x :: xs => toRepr rt x :: toReprs rt xs
end

/-- `RequiredParameter.__repr__` / `OptionalParameter.__repr__`,
`/repo/paradigm/_core/models.py:129-134,223-231`. -/
def Param.repr (rt : Reprs) : Param → Text
  | .required a k n =>
    "RequiredParameter(annotation=".toList ++ toRepr rt a ++ ", kind=".toList ++ rt.kind k
      ++ ", name=".toList ++ rt.atom (.str n) ++ [')']
  | .optional a d k n =>
    "OptionalParameter(annotation=".toList ++ toRepr rt a ++ commaSep
      ++ (match d with
          | some d => "default=".toList ++ toRepr rt d ++ commaSep
          | Option.none => [])
      ++ "kind=".toList ++ rt.kind k ++ ", name=".toList ++ rt.atom (.str n) ++ [')']

/-- `RequiredParameter.__str__` / `OptionalParameter.__str__`,
`/repo/paradigm/_core/models.py:136-137,233-243`. -/
def Param.str (rt : Reprs) : Param → Text
  | .required a _ n => n.toList ++ ": ".toList ++ toRepr rt a
  | .optional a d k n =>
    (if k = .variadicPositional then ['*'] else if k = .variadicKeyword then ['*', '*'] else [])
      ++ n.toList ++ (": ".toList ++ toRepr rt a)
      ++ (match d with
          | some d => " = ".toList ++ toRepr rt d
          | Option.none => [])

/-- `PlainSignature.__repr__`, `/repo/paradigm/_core/models.py:462-467`. -/
def PlainSig.repr (rt : Reprs) (s : PlainSig) : Text :=
  "PlainSignature(".toList
    ++ (if s.parameters.isEmpty then []
        else join commaSep (s.parameters.map (Param.repr rt)) ++ commaSep)
    ++ "returns=".toList ++ toRepr rt s.returns ++ [')']

/-- The list `parts` built by `PlainSignature.__str__`,
`/repo/paradigm/_core/models.py:470-488`. -/
def PlainSig.strParts (rt : Reprs) (s : PlainSig) : List Text :=
  let positionalsOnly := byKind s.parameters .positionalOnly
  let variadicPositionals := byKind s.parameters .variadicPositional
  let keywordsOnly := byKind s.parameters .keywordOnly
  positionalsOnly.map (Param.str rt)
    ++ (if positionalsOnly.isEmpty then [] else [['/']])
    ++ (byKind s.parameters .positionalOrKeyword).map (Param.str rt)
    ++ variadicPositionals.map (Param.str rt)
    ++ (if !keywordsOnly.isEmpty && variadicPositionals.isEmpty then [['*']] else [])
    ++ keywordsOnly.map (Param.str rt)
    ++ (byKind s.parameters .variadicKeyword).map (Param.str rt)

/-- `PlainSignature.__str__`, `/repo/paradigm/_core/models.py:469-490`. -/
def PlainSig.str (rt : Reprs) (s : PlainSig) : Text :=
  ['('] ++ join commaSep (s.strParts rt) ++ ") -> ".toList ++ toRepr rt s.returns

/-- `__repr__` of signatures, `/repo/paradigm/_core/models.py:462-467,552-554`. -/
def Sig.repr (rt : Reprs) : Sig → Text
  | .plain s => s.repr rt
  | .overloaded ss =>
    "OverloadedSignature(".toList ++ join commaSep (ss.map (PlainSig.repr rt)) ++ [')']

/-- `__str__` of signatures, `/repo/paradigm/_core/models.py:469-490,556-557`. -/
def Sig.str (rt : Reprs) : Sig → Text
  | .plain s => s.str rt
  | .overloaded ss => join " | ".toList (ss.map (PlainSig.str rt))

end Paradigm
