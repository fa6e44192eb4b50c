import Verif.Spec.Callables

/-!
# Definitions as they are read (specification)

What the reader of definitions understands of them, in terms of what is written.
-/

namespace Paradigm.Spec

/-- The formal parameters as they are read: those before `/` are overlooked, and all other positional
ones cannot be given by keyword. -/
def readFormals (a : Arguments) : List Formal :=
  ((formals a).filter (fun f => f.kind != .positionalOnly)).map fun f =>
    if f.kind = .positionalOrKeyword then { f with kind := .positionalOnly } else f

/-- What is left of them for a caller: the first parameter of a constructor is not given, that of a
method or class method is required and cannot be given by keyword. -/
def roleFormals : Role → List Formal → List Formal
  | .function, fs => fs
  | .constructor, fs => fs.tail
  | _, [] => []
  | _, f :: fs => { f with default := none, kind := .positionalOnly } :: fs

/-- A function with these parameters could be called like this. -/
def FormalsAccept (fs : List Formal) (args : List Obj) (kwargs : Kwargs) : Prop :=
  ∃ ps, Pointwise Declares fs ps ∧ PyCall.Accepts ps args kwargs

/-- A call with these and further arguments could be made. -/
def FormalsComplete (fs : List Formal) (args : List Obj) (kwargs : Kwargs) : Prop :=
  ∃ (more : List Obj) (moreKw : Kwargs), (keys (kwargs ++ moreKw)).Nodup ∧
    FormalsAccept fs (args ++ more) (kwargs ++ moreKw)

/-- There is `**kwargs`, and a keyword has the name of one of the parameters filled by the first `n`
positional arguments. -/
def FormalsCollide (fs : List Formal) (n : Nat) (names : List String) : Prop :=
  (∃ f ∈ fs, f.kind = .variadicKeyword) ∧
    ∃ f ∈ (fs.filter fun f => f.kind = .positionalOnly ∨ f.kind = .positionalOrKeyword).take n,
      f.arg.name ∈ names

/-- The call of the callable with `args` and `kwargs` is understood as the call of `f` with `A` and `K`.
This is what happens in Python, except that for callables bound to classes the class has to be given. -/
inductive ReadsOn : Callable → List Obj → Kwargs → Bool → Fn → List Obj → Kwargs → Prop where
  | alone (c f raw args kwargs) : LookedUpAs c f raw → ReadsOn c args kwargs false f args kwargs
  | bound (c self f args kwargs) : InstanceBound c self f →
      ReadsOn c args kwargs false f (self :: args) kwargs
  | cls (l raw args kwargs) : ReadsOn (.cls l raw) args kwargs true (.ofClass l) args kwargs
  | partial_ (func a k args kwargs asClass f A K) : (keys k).Nodup →
      ReadsOn func (a ++ args) (merge k kwargs) asClass f A K →
      ReadsOn (.partial_ func a k) args kwargs asClass f A K

/-- It can be said which role the definition has. -/
inductive Placed (R : Runtime) (d : FunctionDef) (c : Fn) (m parent : Path) : Prop where
  | constructor (h : c.isType = true)
  | classMethod (before after : List Expr) (x : Expr) (split : d.decorators = before ++ x :: after)
      (is : IsClassmethod R m parent x) (others : ∀ y ∈ before, Identified R m parent y)
  | other (decorators : ∀ x ∈ d.decorators, Identified R m parent x) (kinds : Dict Path NodeKind)
      (known : R.stubs.nodesKinds.lookup m = some kinds)

/-- What it takes to read a definition. -/
structure Readable (R : Runtime) (d : FunctionDef) (c : Fn) (m parent : Path) : Prop where
  /-- no parameter before `/` has a default -/
  defaults : d.args.defaults.length ≤ d.args.args.length
  /-- annotations and defaults of the other parameters can be evaluated -/
  parameters : ∀ f ∈ readFormals d.args, ∀ e, f.arg.annotation = some e ∨ f.default = some e →
    ∃ v, R.ev m parent e = .ok v
  /-- so can the annotation of the result, unless it is not needed -/
  result : ¬ (c.isType = true ∧ d.name = "__init__") → ∀ e, d.returns = some e →
    ∃ v, R.ev m parent e = .ok v
  placed : Placed R d c m parent
  /-- there is a first parameter if one is needed -/
  first : ∀ role, HasRole R d c m parent role → role ≠ .function → readFormals d.args ≠ []

end Paradigm.Spec
