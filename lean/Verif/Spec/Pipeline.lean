import Verif.Spec.Callables

/-!
# What runs when a callable is called (specification)

Python's own rules for the callables `signature_from_callable` supports, without those bound to
classes.
-/

namespace Paradigm.Spec

/-- Calling the callable with `args` and `kwargs` calls `f` with `A` and `K`: a method of an instance
gets the instance first, a partial its own arguments first and its keywords unless they are given
again. The flag says that `f` is called as a class. -/
inductive CallsOn : Callable → List Obj → Kwargs → Bool → Fn → List Obj → Kwargs → Prop where
  | function (l raw args kwargs) :
      CallsOn (.function l raw) args kwargs false (.ofFunction l) args kwargs
  | descriptor (l raw args kwargs) :
      CallsOn (.descriptor l raw) args kwargs false (.ofDescriptor l) args kwargs
  | builtin (qualname obj raw args kwargs) : CallsOn (.builtin .none qualname obj raw) args kwargs
      false (.ofBuiltin .none qualname obj) args kwargs
  | moduleBuiltin (name spec qualname obj raw args kwargs) :
      CallsOn (.builtin (.module name spec) qualname obj raw) args kwargs
        false (.ofBuiltin (.module name spec) qualname obj) args kwargs
  | cls (l raw args kwargs) : CallsOn (.cls l raw) args kwargs true (.ofClass l) args kwargs
  | method (obj self g raw args kwargs) :
      CallsOn (.method obj (some (self, .ok g)) raw) args kwargs false g (self :: args) kwargs
  | instanceBuiltin (qualname obj self g raw args kwargs) :
      CallsOn (.builtin (.instance self (.ok g)) qualname obj raw) args kwargs
        false g (self :: args) kwargs
  | methodWrapper (self g raw args kwargs) :
      CallsOn (.methodWrapper (some (self, .ok g)) raw) args kwargs false g (self :: args) kwargs
  | partial_ (func a k args kwargs asClass f A K) : (keys k).Nodup →
      CallsOn func (a ++ args) (merge k kwargs) asClass f A K →
      CallsOn (.partial_ func a k) args kwargs asClass f A K

/-- The place whose definitions are taken for `f`: the first one found for it or, for classes, the
constructor its places agree on. -/
def LooksAt (R : Runtime) (asClass : Bool) (f : Fn) (q : QPath) : Prop :=
  if asClass then ∃ paths builders, resolveQualifiedPaths R f = .ok paths ∧
    Pointwise (fun p b => classBuilder R p = .ok b) paths builders ∧ Agreed builders q
  else ∃ others, toQualifiedPaths R f = .ok (q :: others)

end Paradigm.Spec
