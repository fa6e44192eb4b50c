import Verif.Spec.Call

/-!
# Which parameters and parameter lists are legal (specification)

Python's rules for formal parameter lists ("8.7 Function definitions" and
`inspect.Signature`), stated declaratively and without reference to paradigm's validation loop.
-/

namespace Paradigm.Spec

/-- Order in which kinds of parameters appear in a parameter list. -/
def rank : Kind → Nat
  | .positionalOnly => 0
  | .positionalOrKeyword => 1
  | .variadicPositional => 2
  | .keywordOnly => 3
  | .variadicKeyword => 4

/-- A legal parameter list. -/
structure WellFormed (ps : List Param) : Prop where
  /-- names are pairwise distinct -/
  distinct : (ps.map Param.name).Nodup
  /-- kinds never decrease -/
  ordered : ps.Pairwise (fun p q => rank p.kind ≤ rank q.kind)
  /-- at most one `*args` -/
  oneVarPositional : ps.countP (fun p => p.kind == .variadicPositional) ≤ 1
  /-- at most one `**kwargs` -/
  oneVarKeyword : ps.countP (fun p => p.kind == .variadicKeyword) ≤ 1
  /-- no required positional parameter after an optional positional one -/
  optionalsLast : (ps.filter PyCall.isPositional).Pairwise
    (fun p q => p.isOptional → q.isOptional)

/-- A legal parameter: required ones are not variadic; a variadic has no default; the default is
never the "no default" sentinel. -/
def ValidParam : Param → Prop
  | .required _ k _ => k ≠ .variadicPositional ∧ k ≠ .variadicKeyword
  | .optional _ d k _ =>
    (k = .variadicPositional ∨ k = .variadicKeyword → d = none) ∧
    ∀ v, d = some v → v.isNoDefault = false

/-- `p` can be obtained from a parameter constructor. -/
def ConstructibleParam (p : Param) : Prop :=
  (∃ a k n, RequiredParameter.new a k n = .ok p) ∨
  (∃ a k n d, OptionalParameter.new a k n d = .ok p)

/-- `s` can be obtained from the `PlainSignature` constructor applied to constructible
parameters. -/
def ConstructiblePlain (s : PlainSig) : Prop :=
  (∀ p ∈ s.parameters, ConstructibleParam p) ∧ PlainSig.new s.parameters s.returns = .ok s

/-- `s` can be obtained from the signature constructors. -/
def Constructible : Sig → Prop
  | .plain s => ConstructiblePlain s
  | .overloaded ss => (∀ s ∈ ss, ConstructiblePlain s) ∧
    ∃ t, OverloadedSignature.new (ss.map .plain) = .ok t

end Paradigm.Spec
