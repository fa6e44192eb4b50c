import Verif.Model.Objects

/-!
# Parameters and signatures

Models `/repo/paradigm/_core/models.py` (construction, `all_set`, `expects`, `bind`, equality,
pickling arguments). `str`/`repr` are in `Verif.Model.Text`, hashing in `Verif.Model.Hashing`.
-/

namespace Paradigm

/-- `ParameterKind`, `/repo/paradigm/_core/models.py:26-32`. -/
inductive Kind where
  | positionalOnly
  | positionalOrKeyword
  | variadicPositional
  | keywordOnly
  | variadicKeyword
  deriving DecidableEq, Repr

/-- The `IntEnum` values, `/repo/paradigm/_core/models.py:28-32`. -/
def Kind.toNat : Kind → Nat
  | .positionalOnly => 0
  | .positionalOrKeyword => 1
  | .variadicPositional => 2
  | .keywordOnly => 3
  | .variadicKeyword => 4

/-- `RequiredParameter` / `OptionalParameter` instances (their slots),
`/repo/paradigm/_core/models.py:65-243`. `default = none` is `has_default = False`
(the `_default` slot is then unset). -/
inductive Param where
  | required (annotation : Obj) (kind : Kind) (name : String)
  | optional (annotation : Obj) (default : Option Obj) (kind : Kind) (name : String)
  deriving Repr

namespace Param

/-- `/repo/paradigm/_core/models.py:67-69,142-144`. -/
def annotation : Param → Obj
  | required a _ _ => a
  | optional a _ _ _ => a

/-- `/repo/paradigm/_core/models.py:71-73,154-156`. -/
def kind : Param → Kind
  | required _ k _ => k
  | optional _ _ k _ => k

/-- `/repo/paradigm/_core/models.py:75-77,158-160`. -/
def name : Param → String
  | required _ _ n => n
  | optional _ _ _ n => n

/-- `isinstance(parameter, OptionalParameter)`. -/
def isOptional : Param → Bool
  | required .. => false
  | optional .. => true

/-- `isinstance(parameter, RequiredParameter)`. -/
def isRequired : Param → Bool
  | required .. => true
  | optional .. => false

/-- The `_default` slot, `none` when unset or when the parameter is a required one. -/
def default? : Param → Option Obj
  | required .. => Option.none
  | optional _ d _ _ => d

end Param

/-- What a caller may pass as `kind`: a `ParameterKind` member or something else. -/
inductive KindArg where
  | kind (k : Kind)
  | other
  deriving DecidableEq, Repr

/-- `_validate_kind`, `/repo/paradigm/_core/models.py:656-659`. -/
def validateKind : KindArg → Except PyErr Kind
  | .kind k => .ok k
  | .other => .error (.typeError "kind")

/-- `RequiredParameter.__new__`, `/repo/paradigm/_core/models.py:85-103`
(`_REQUIRED_PARAMETERS_KINDS` at `:58-62`). -/
def RequiredParameter.new (annotation : Obj) (kind : KindArg) (name : String) :
    Except PyErr Param :=
  match validateKind kind with
  | .error e => .error e
  | .ok k =>
    if [Kind.positionalOnly, .positionalOrKeyword, .keywordOnly].contains k then
      .ok (.required annotation k name)
    else .error (.valueError "required kind")

/-- Is this object `_NONE` (`default is not _NONE`, `/repo/paradigm/_core/models.py:177`)? -/
def Obj.isNoDefault : Obj → Bool
  | .atom .noDefault => true
  | _ => false

/-- `OptionalParameter.__new__`, `/repo/paradigm/_core/models.py:170-189`. An omitted `default`
argument is `Obj.noDefault`, as in the code (`:173`). -/
def OptionalParameter.new (annotation : Obj) (kind : KindArg) (name : String)
    (default : Obj := Obj.noDefault) : Except PyErr Param :=
  match validateKind kind with
  | .error e => .error e
  | .ok k =>
    let hasDefault := !default.isNoDefault
    if (k == .variadicPositional || k == .variadicKeyword) && hasDefault then
      .error (.valueError "variadic default")
    else .ok (.optional annotation (if hasDefault then some default else Option.none) k name)

/-- `to_parameters_by_kind(parameters)[kind]`, `/repo/paradigm/_core/models.py:249-255`.
Simplified: the `defaultdict` of lists is represented by its lookup function. -/
def byKind (parameters : List Param) (k : Kind) : List Param :=
  parameters.filter (fun p => p.kind == k)

/-- `dict[key] = value` on an insertion-ordered dictionary. -/
def dictSet {α β : Type} [BEq α] (d : List (α × β)) (k : α) (v : β) : List (α × β) :=
  match d with
  | [] => [(k, v)]
  | (k', v') :: d => if k' == k then (k', v) :: d else (k', v') :: dictSet d k v

/-- `to_parameters_by_name`, `/repo/paradigm/_core/models.py:258-261`. -/
def byName (parameters : List Param) : List (String × Param) :=
  parameters.foldl (fun d p => dictSet d p.name p) []

/-- `all_parameters_are_optional`, `/repo/paradigm/_core/models.py:264-268`. -/
def allOptional (parameters : List Param) : Bool :=
  parameters.all Param.isOptional

/-- `kwargs`: keyword dictionary in insertion order (Python guarantees distinct keys). -/
abbrev Kwargs := List (String × Obj)

/-- `dict.keys()`. -/
def keys {α β : Type} (d : List (α × β)) : List α := d.map Prod.fst

/-- `PlainSignature` instances, `/repo/paradigm/_core/models.py:294-305,389-392`. -/
structure PlainSig where
  parameters : List Param
  returns : Obj
  deriving Repr

namespace PlainSig

/-- `PlainSignature.all_set`, `/repo/paradigm/_core/models.py:307-342`. -/
def allSet (self : PlainSig) (args : List Obj) (kwargs : Kwargs) : Bool :=
  let positionals := byKind self.parameters .positionalOnly
    ++ byKind self.parameters .positionalOrKeyword
  let unexpectedPositional :=
    (byKind self.parameters .variadicPositional).isEmpty && decide (args.length > positionals.length)
  if unexpectedPositional then false
  else
    let restPositionals := positionals.drop args.length
    let restKeywords := byKind restPositionals .positionalOrKeyword
      ++ byKind self.parameters .keywordOnly
    let restKeywordsByName := byName restKeywords
    let unexpectedKeyword :=
      (byKind self.parameters .variadicKeyword).isEmpty
        && (keys kwargs).any (fun k => !(keys restKeywordsByName).contains k)
    if unexpectedKeyword then false
    else
      let restKeywordsByName := restKeywordsByName.filter
        (fun np => !(keys kwargs).contains np.1)
      let restPositionalsOnly := byKind restPositionals .positionalOnly
      allOptional restPositionalsOnly && allOptional (restKeywordsByName.map Prod.snd)

/-- `PlainSignature.expects`, `/repo/paradigm/_core/models.py:344-367`. -/
def expects (self : PlainSig) (args : List Obj) (kwargs : Kwargs) : Bool :=
  let positionals := byKind self.parameters .positionalOnly
    ++ byKind self.parameters .positionalOrKeyword
  let unexpectedPositional :=
    (byKind self.parameters .variadicPositional).isEmpty && decide (args.length > positionals.length)
  if unexpectedPositional then false
  else
    let restPositionals := positionals.drop args.length
    let restKeywords := byKind restPositionals .positionalOrKeyword
      ++ byKind self.parameters .keywordOnly
    let restKeywordsByName := byName restKeywords
    let unexpectedKeyword :=
      (byKind self.parameters .variadicKeyword).isEmpty
        && (keys kwargs).any (fun k => !(keys restKeywordsByName).contains k)
    !unexpectedKeyword

/-- The validation loop of `PlainSignature.__new__`, `/repo/paradigm/_core/models.py:402-434`. -/
def validateRest (prior : Param) (visitedNames : List String) (visitedKinds : List Kind) :
    List Param → Except PyErr Unit
  | [] => .ok ()
  | parameter :: rest =>
    if visitedNames.contains parameter.name then .error (.valueError "duplicate name")
    else if parameter.kind.toNat < prior.kind.toNat then .error (.valueError "kinds order")
    else if (parameter.kind == .positionalOrKeyword || parameter.kind == .positionalOnly) then
      if parameter.isRequired && prior.isOptional then .error (.valueError "required after optional")
      else validateRest parameter (parameter.name :: visitedNames)
        (parameter.kind :: visitedKinds) rest
    else if (parameter.kind == .variadicPositional || parameter.kind == .variadicKeyword) then
      if visitedKinds.contains parameter.kind then .error (.valueError "duplicate variadic")
      else validateRest parameter (parameter.name :: visitedNames)
        (parameter.kind :: visitedKinds) rest
    else validateRest parameter (parameter.name :: visitedNames)
      (parameter.kind :: visitedKinds) rest

/-- The whole validation, `/repo/paradigm/_core/models.py:395-434`. -/
def validate : List Param → Except PyErr Unit
  | [] => .ok ()
  | prior :: rest => validateRest prior [prior.name] [prior.kind] rest

/-- `PlainSignature.__new__`, `/repo/paradigm/_core/models.py:394-437`. -/
def new (parameters : List Param) (returns : Obj) : Except PyErr PlainSig :=
  match validate parameters with
  | .error e => .error e
  | .ok () => .ok { parameters, returns }

end PlainSig

/-- `is_positionable`, `/repo/paradigm/_core/models.py:583-585`. -/
def isPositionable (p : Param) : Bool :=
  p.kind == .positionalOrKeyword || p.kind == .positionalOnly

/-- The duplicate check loop of `_bind_positionals`, `/repo/paradigm/_core/models.py:593-602`. -/
def checkPositionals (kwargs : Kwargs) : List Param → Except PyErr Unit
  | [] => .ok ()
  | positional :: rest =>
    if (keys kwargs).contains positional.name then
      if positional.kind == .positionalOrKeyword || positional.kind == .keywordOnly then
        .error (.typeError "multiple values")
      else .error (.typeError "positional passed as keyword")
    else checkPositionals kwargs rest

/-- `_bind_positionals`, `/repo/paradigm/_core/models.py:578-603`. -/
def bindPositionals (parameters : List Param) (args : List Obj) (kwargs : Kwargs)
    (hasVariadic : Bool) : Except PyErr (List Param) :=
  let positionals := parameters.takeWhile isPositionable
  if args.length > positionals.length && !hasVariadic then
    .error (.typeError "too many positionals")
  else
    match checkPositionals kwargs (positionals.take args.length) with
    | .error e => .error e
    | .ok () =>
      .ok (positionals.drop args.length ++ parameters.drop positionals.length)

/-- `parameter.kind is POSITIONAL_OR_KEYWORD or parameter.kind is KEYWORD_ONLY`,
`/repo/paradigm/_core/models.py:615-616,648-649`. -/
def isKeywordable (p : Param) : Bool :=
  p.kind == .positionalOrKeyword || p.kind == .keywordOnly

/-- The element expression of the comprehension in `_bind_keywords`,
`/repo/paradigm/_core/models.py:630-650`. -/
def rebindKeyword (kwargs : Kwargs) (kwargsNames : List String) (parameter : Param) :
    Except PyErr Param :=
  if isKeywordable parameter then
    if parameter.isOptional || kwargsNames.contains parameter.name then
      match parameter.default? with
      | some d =>
        OptionalParameter.new parameter.annotation (.kind .keywordOnly) parameter.name d
      | Option.none =>
        if kwargsNames.contains parameter.name then
          match kwargs.lookup parameter.name with
          | some v =>
            OptionalParameter.new parameter.annotation (.kind .keywordOnly) parameter.name v
          | Option.none => .error .keyError
        else OptionalParameter.new parameter.annotation (.kind .keywordOnly) parameter.name
    else RequiredParameter.new parameter.annotation (.kind .keywordOnly) parameter.name
  else .ok parameter

/-- `[f(x) for x in xs]` where `f` may raise. -/
def mapExcept {α β : Type} (f : α → Except PyErr β) : List α → Except PyErr (List β)
  | [] => .ok []
  | x :: xs =>
    match f x with
    | .error e => .error e
    | .ok y =>
      match mapExcept f xs with
      | .error e => .error e
      | .ok ys => .ok (y :: ys)

/-- `_bind_keywords`, `/repo/paradigm/_core/models.py:606-653`. Sets of names are lists here;
only membership and emptiness are used. -/
def bindKeywords (parameters : List Param) (kwargs : Kwargs) (hasVariadic : Bool) :
    Except PyErr (List Param) :=
  let kwargsNames := keys kwargs
  let keywordNames := (parameters.filter isKeywordable).map Param.name
  let extraNames := kwargsNames.filter (fun k => !keywordNames.contains k)
  if !extraNames.isEmpty && !hasVariadic then .error (.typeError "unexpected keyword")
  else
    let kwargsNames := kwargsNames.filter (fun k => !extraNames.contains k)
    if kwargsNames.isEmpty then .ok parameters
    else
      match parameters.findIdx? (fun p => kwargsNames.contains p.name) with
      | Option.none => .error .stopIteration
      | some firstKwargIndex =>
        match mapExcept (rebindKeyword kwargs kwargsNames)
            ((parameters.drop firstKwargIndex).filter
              (fun p => !(p.kind == .variadicPositional))) with
        | .error e => .error e
        | .ok tail => .ok (parameters.take firstKwargIndex ++ tail)

/-- `PlainSignature.bind`, `/repo/paradigm/_core/models.py:369-387`. -/
def PlainSig.bind (self : PlainSig) (args : List Obj) (kwargs : Kwargs) :
    Except PyErr PlainSig :=
  match bindPositionals self.parameters args kwargs
      (!(byKind self.parameters .variadicPositional).isEmpty) with
  | .error e => .error e
  | .ok ps =>
    match bindKeywords ps kwargs (!(byKind self.parameters .variadicKeyword).isEmpty) with
    | .error e => .error e
    | .ok ps => PlainSig.new ps self.returns

/-- `Signature = Union[OverloadedSignature, PlainSignature]`,
`/repo/paradigm/_core/models.py:493-497,515-517,560`. -/
inductive Sig where
  | plain (s : PlainSig)
  | overloaded (ss : List PlainSig)
  deriving Repr

/-- The `isinstance(signature, PlainSignature)` check of `OverloadedSignature.__new__`,
`/repo/paradigm/_core/models.py:519-538`. -/
def asPlain : Sig → Except PyErr PlainSig
  | .plain p => .ok p
  | .overloaded _ => .error (.typeError "not plain")

/-- `OverloadedSignature.__new__`, `/repo/paradigm/_core/models.py:519-538`
(arguments may be plain or overloaded; `_MIN_SUB_SIGNATURES_COUNT = 2` at `:15`). -/
def OverloadedSignature.new (signatures : List Sig) : Except PyErr Sig :=
  match mapExcept asPlain signatures with
  | .error e => .error e
  | .ok ps =>
    if ps.length < 2 then .error (.valueError "too few signatures")
    else .ok (.overloaded ps)

/-- `flatten_signature`, `/repo/paradigm/_core/models.py:563-567`. -/
def flattenSignature : Sig → List PlainSig
  | .plain s => [s]
  | .overloaded ss => ss

/-- `from_signatures`, `/repo/paradigm/_core/models.py:570-575`. -/
def fromSignatures (signatures : List Sig) : Except PyErr Sig :=
  let plainSignatures := (signatures.map flattenSignature).flatten
  match plainSignatures with
  | [s] => .ok (.plain s)
  | ss => OverloadedSignature.new (ss.map Sig.plain)

namespace Sig

/-- `all_set`, `/repo/paradigm/_core/models.py:307-342,499-501`. -/
def allSet : Sig → List Obj → Kwargs → Bool
  | plain s, args, kwargs => s.allSet args kwargs
  | overloaded ss, args, kwargs => ss.any (fun s => s.allSet args kwargs)

/-- `expects`, `/repo/paradigm/_core/models.py:344-367,503-505`. -/
def expects : Sig → List Obj → Kwargs → Bool
  | plain s, args, kwargs => s.expects args kwargs
  | overloaded ss, args, kwargs => ss.any (fun s => s.expects args kwargs)

/-- `bind`, `/repo/paradigm/_core/models.py:369-387,507-513`. -/
def bind : Sig → List Obj → Kwargs → Except PyErr Sig
  | plain s, args, kwargs =>
    match s.bind args kwargs with
    | .error e => .error e
    | .ok s => .ok (plain s)
  | overloaded ss, args, kwargs =>
    match mapExcept (fun s : PlainSig => s.bind args kwargs)
        (ss.filter (fun s => s.expects args kwargs)) with
    | .error e => .error e
    | .ok signatures =>
      if signatures.isEmpty then .error (.typeError "no corresponding signature")
      else fromSignatures (signatures.map plain)

end Sig

/-! ### Equality -/

/-- `RequiredParameter.__eq__` / `OptionalParameter.__eq__` against another parameter,
`/repo/paradigm/_core/models.py:113-119,199-208`. -/
def Param.eq : Param → Param → Bool
  | .required a k n, .required a' k' n' => n == n' && k == k' && a.areEqual a'
  | .optional a d k n, .optional a' d' k' n' =>
    n == n' && k == k' && d.isSome == d'.isSome
      && (match d, d' with
          | some x, some y => x.areEqual y
          | _, _ => true)
      && a.areEqual a'
  | _, _ => false

/-- Tuple equality of element tuples by `==`. Simplified: CPython's identity shortcut for
elements that are the very same object is not taken. -/
def listEq {α : Type} (eq : α → α → Bool) : List α → List α → Bool
  | [], [] => true
  | a :: as, b :: bs => eq a b && listEq eq as bs
  | _, _ => false

/-- `PlainSignature.__eq__`, `/repo/paradigm/_core/models.py:447-452`. -/
def PlainSig.eq (s t : PlainSig) : Bool :=
  listEq Param.eq s.parameters t.parameters && s.returns.areEqual t.returns

/-- `PlainSignature.__eq__` / `OverloadedSignature.__eq__` between signatures,
`/repo/paradigm/_core/models.py:447-452,540-544`. -/
def Sig.eq : Sig → Sig → Bool
  | .plain s, .plain t => s.eq t
  | .overloaded ss, .overloaded ts => listEq PlainSig.eq ss ts
  | _, _ => false

/-! ### Pickling -/

/-- Keyword arguments returned by `__getnewargs_ex__` of parameters,
`/repo/paradigm/_core/models.py:121-124,210-216`; `default` is `none` when the key is absent. -/
structure NewArgs where
  annotation : Obj
  default : Option Obj
  kind : Kind
  name : String

/-- `__getnewargs_ex__`, `/repo/paradigm/_core/models.py:121-124,210-216`. -/
def Param.newArgs : Param → NewArgs
  | .required a k n => { annotation := a, default := Option.none, kind := k, name := n }
  | .optional a d k n => { annotation := a, default := d, kind := k, name := n }

/-- `cls.__new__(cls, **kwargs)` as done by unpickling; `cls` is the pickled object's class. -/
def Param.unpickle (isOptional : Bool) (args : NewArgs) : Except PyErr Param :=
  if isOptional then
    match args.default with
    | some d => OptionalParameter.new args.annotation (.kind args.kind) args.name d
    | Option.none => OptionalParameter.new args.annotation (.kind args.kind) args.name
  else RequiredParameter.new args.annotation (.kind args.kind) args.name

/-- Unpickling a plain signature: its parameters are unpickled, then `PlainSignature.__new__` is
called with `__getnewargs_ex__`'s values, `/repo/paradigm/_core/models.py:454-457`. -/
def PlainSig.roundTrip (s : PlainSig) : Except PyErr PlainSig :=
  match mapExcept (fun p : Param => Param.unpickle p.isOptional p.newArgs) s.parameters with
  | .error e => .error e
  | .ok ps => PlainSig.new ps s.returns

/-- Unpickling any signature, `/repo/paradigm/_core/models.py:454-457,546-547`. -/
def Sig.roundTrip : Sig → Except PyErr Sig
  | .plain s =>
    match s.roundTrip with
    | .error e => .error e
    | .ok s => .ok (.plain s)
  | .overloaded ss =>
    match mapExcept PlainSig.roundTrip ss with
    | .error e => .error e
    | .ok ss => OverloadedSignature.new (ss.map .plain)

end Paradigm
