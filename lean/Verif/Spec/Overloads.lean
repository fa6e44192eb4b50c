import Verif.Spec.Session
import Verif.Spec.Pipeline

/-!
# What the declarations of a callable say about its parameters (specification)
-/

namespace Paradigm.Spec

/-- The private exception class of `signatures.py` is not raised by what Python does with objects. -/
structure Ordinary {V : Type} (W : Interpreter V) : Prop where
  importModule : ∀ m, W.importModule m ≠ .error .signatureNotFound
  getattr : ∀ v name, W.getattr v name ≠ .error .signatureNotFound
  getitem : ∀ v i, W.getitem v i ≠ .error .signatureNotFound
  call : ∀ f vs kvs, W.call f vs kvs ≠ .error .signatureNotFound
  unary : ∀ op v, W.unary op v ≠ .error .signatureNotFound
  binary : ∀ op l r, W.binary op l r ≠ .error .signatureNotFound
  union : ∀ l r, W.union l r ≠ .error .signatureNotFound
  dict : ∀ kvs, W.dict kvs ≠ .error .signatureNotFound
  forwardRef : ∀ t, W.forwardRef t ≠ .error .signatureNotFound
  newClass : ∀ p bases ns, W.newClass p bases ns ≠ .error .signatureNotFound
  define : ∀ f ns, W.define f ns ≠ .error .signatureNotFound

/-- The names a `def` declares, in their order, without those before `/`. -/
def namesDeclared (a : Arguments) : List String :=
  (a.args ++ a.vararg.toList ++ a.kwonlyargs ++ a.kwarg.toList).map Arg.name

/-- The plain signature that a declaration stands for has the declared names, without the first one where
a class is called or the function is bound to an instance. -/
def NamedAfter (withoutFirst : Bool) (f : FunctionDef) (p : PlainSig) : Prop :=
  p.parameters.map Param.name = if withoutFirst then (namesDeclared f.args).tail else namesDeclared f.args

/-- The signature is made of one plain signature for each declaration, in the order of the
declarations. -/
def OnePerDeclaration (withoutFirst : Bool) (fs : List FunctionDef) (s : Sig) : Prop :=
  ∃ ss, MadeOf ss s ∧ Pointwise (NamedAfter withoutFirst) fs ss

end Paradigm.Spec
