import Verif.Spec.Lookup

/-!
# Callables of modules without stubs (specification)
-/

namespace Paradigm.Spec

/-- The object says that it belongs to the module of this name. -/
inductive BelongsTo : Named → String → Prop where
  | function (m qualname) : BelongsTo (.function (.text m) qualname) m
  | cls (m qualname) : BelongsTo (.cls (.text m) qualname) m
  | descriptor (m qualname) : BelongsTo (.descriptor (.text m) qualname) m
  | classBuiltin (m qualname) : BelongsTo (.builtin (.type (.text m)) qualname) m
  | plainBuiltin (m qualname) : BelongsTo (.builtin (.module m none) qualname) m
  | builtin (name m qualname) : BelongsTo (.builtin (.module name (some m)) qualname) m

/-- The object does not say to which module it belongs. -/
inductive Homeless : Named → Prop where
  | function (qualname) : Homeless (.function .none qualname)
  | builtin (qualname) : Homeless (.builtin .none qualname)
  | bound : Homeless .other

/-- Neither the index of importable objects nor the stubs know the module of the callable. -/
def Foreign (R : Runtime) (f : Fn) : Prop :=
  (∃ m, BelongsTo f.named m ∧ R.index.lookup (pathFromString m) = none ∧
    R.stubs.definitions.lookup (pathFromString m) = none) ∨
  Homeless f.named ∧ R.index.lookup [] = none

/-- The callable is looked up as `f`, and `raw` is what `inspect` reports about it; `returns` is what
replaces the annotation of the result. -/
inductive ReportedAs : Callable → Fn → Except PyErr RawSig → Option Obj → Prop where
  | alone (c f raw) : LookedUpAs c f raw → ReportedAs c f raw none
  | cls (l raw) : ReportedAs (.cls l raw) (.ofClass l) raw (some (.form selfForm))
  | method (obj self f raw) : ReportedAs (.method obj (some (self, .ok f)) raw) f raw none
  | builtin (qualname obj self f raw) :
      ReportedAs (.builtin (.instance self (.ok f)) qualname obj raw) f raw none
  | methodWrapper (self f raw) : ReportedAs (.methodWrapper (some (self, .ok f)) raw) f raw none

/-- At most one `*args` and at most one `**kwargs`. -/
def OneOfEach (raw : RawSig) : Prop :=
  raw.parameters.countP (fun p => p.kind == .variadicPositional) ≤ 1 ∧
  raw.parameters.countP (fun p => p.kind == .variadicKeyword) ≤ 1

/-- The default is kept unless it is paradigm's own "no default" marker. -/
def KeepsDefault (raw : RawParam) (p : Param) : Prop :=
  (raw.default = some (.atom .noDefault) → p.default? = none) ∧
  (raw.default ≠ some (.atom .noDefault) → p.default? = raw.default)

end Paradigm.Spec
