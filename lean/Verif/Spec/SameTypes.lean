import Verif.Spec.Definitions

/-!
# When two annotations describe the same types (specification)

Independent of `are_equal`: by the meaning of the constructs of `typing`.
-/

namespace Paradigm.Spec

/-- The same value of the same type. -/
inductive SameValue : Atom → Atom → Prop where
  | same (a) : SameValue a a
  /-- other objects that say they are equal -/
  | opaque (i c h j h') : SameValue (.opaque i c h) (.opaque j c h')

/-- The annotation is a class or a special form without arguments; `typing.List` stands for `list`. -/
inductive Bare : Obj → Origin → Prop where
  | cls (i) : Bare (.cls i) (.cls i)
  | special (i o) : Bare (.special i o) (.cls o)
  | form (i) : Bare (.form i) (.form i)

/-- The annotation is something with arguments, `typing.List[int]` or `list[int]`. -/
inductive Subscripted : Obj → Origin → List Obj → Prop where
  | alias (n o args) : Subscripted (.alias n o args) o args
  | pep585 (o args) : Subscripted (.pep585 o args) (.cls o) args

/-- `typing.Union` or the class of `int | str`. -/
def UnionOrigin (o : Origin) : Prop := o = .form unionForm ∨ o = .cls unionTypeCls

/-- The annotations describe the same types. -/
inductive SameType : Obj → Obj → Prop where
  | value {a b} : SameValue a b → SameType (.atom a) (.atom b)
  | bare {a b o} : Bare a o → Bare b o → SameType a b
  /-- same generic, same arguments -/
  | generic {a b o as bs} : Subscripted a o as → Subscripted b o bs → as.length = bs.length →
      (∀ p ∈ as.zip bs, SameType p.1 p.2) → SameType a b
  /-- unions do not depend on the order of their members -/
  | union {a b o o' as bs} (f g : Obj → Obj) : Subscripted a o as → Subscripted b o' bs →
      UnionOrigin o → UnionOrigin o' → (∀ x ∈ as, f x ∈ bs) → (∀ y ∈ bs, g y ∈ as) →
      (∀ x ∈ as, SameType x (f x)) → (∀ y ∈ bs, SameType (g y) y) → SameType a b
  /-- neither do literals depend on the order of their values -/
  | literal {a b as bs} (f g : Obj → Obj) : Subscripted a (.form literalForm) as →
      Subscripted b (.form literalForm) bs → (∀ x ∈ as, f x ∈ bs) → (∀ y ∈ bs, g y ∈ as) →
      (∀ x ∈ as, SameType x (f x)) → (∀ y ∈ bs, SameType (g y) y) → SameType a b
  /-- type variables with the same declaration -/
  | typeVar {i j n b b' c v cs cs'} : SameType b b' → cs.length = cs'.length →
      (∀ p ∈ cs.zip cs', SameType p.1 p.2) → SameType (.typeVar i n b c v cs) (.typeVar j n b' c v cs')
  | paramSpec {i j n b b' c v} : SameType b b' → SameType (.paramSpec i n b c v) (.paramSpec j n b' c v)
  | paramArgs {o o'} : SameType o o' → SameType (.paramArgs o) (.paramArgs o')
  | paramKwargs {o o'} : SameType o o' → SameType (.paramKwargs o) (.paramKwargs o')
  | newType {i j q s s'} : SameType s s' → SameType (.newType i q s) (.newType j q s')
  /-- lists of argument types, as in `Callable[[int], str]` -/
  | list {as bs} : as.length = bs.length → (∀ p ∈ as.zip bs, SameType p.1 p.2) →
      SameType (.list as) (.list bs)
  | tuple {as bs} : as.length = bs.length → (∀ p ∈ as.zip bs, SameType p.1 p.2) →
      SameType (.tuple as) (.tuple bs)
  /-- one and the same object -/
  | sameSpecial {i o o'} : SameType (.special i o) (.special i o')
  | sameTypeVar {i n n' b b' c c' v v' cs cs'} :
      SameType (.typeVar i n b c v cs) (.typeVar i n' b' c' v' cs')
  | sameParamSpec {i n n' b b' c c' v v'} :
      SameType (.paramSpec i n b c v) (.paramSpec i n' b' c' v')
  | sameNewType {i q q' s s'} : SameType (.newType i q s) (.newType i q' s')

/-- `x` occurs in the annotation. -/
inductive Inside : Obj → Obj → Prop where
  | self (a) : Inside a a
  | argument {x y a o as} : Inside x y → Subscripted a o as → y ∈ as → Inside x a
  | bound {x i n b c v cs} : Inside x b → Inside x (.typeVar i n b c v cs)
  | constraint {x y i n b c v cs} : Inside x y → y ∈ cs → Inside x (.typeVar i n b c v cs)
  | specBound {x i n b c v} : Inside x b → Inside x (.paramSpec i n b c v)
  | argsOrigin {x o} : Inside x o → Inside x (.paramArgs o)
  | kwargsOrigin {x o} : Inside x o → Inside x (.paramKwargs o)
  | supertype {x i q s} : Inside x s → Inside x (.newType i q s)
  | element {x y xs} : Inside x y → y ∈ xs → Inside x (.list xs)
  | item {x y xs} : Inside x y → y ∈ xs → Inside x (.tuple xs)

/-- The parameters are alike: name, kind, being optional, having a default and annotation. -/
structure SameParameter (p q : Param) : Prop where
  name : p.name = q.name
  kind : p.kind = q.kind
  optional : (∃ a d k n, p = .optional a d k n) ↔ ∃ a d k n, q = .optional a d k n
  default : p.default?.isSome = q.default?.isSome
  annotation : SameType p.annotation q.annotation

/-- The plain signatures have the same parameters and the same return type. -/
def SamePlain (s t : PlainSig) : Prop :=
  Pointwise SameParameter s.parameters t.parameters ∧ SameType s.returns t.returns

/-- The signatures describe the same. -/
def SameSignature : Sig → Sig → Prop
  | .plain s, .plain t => SamePlain s t
  | .overloaded ss, .overloaded ts => Pointwise SamePlain ss ts
  | _, _ => False

/-- The annotations of a plain signature. -/
def plainAnnotations (s : PlainSig) : List Obj := s.parameters.map Param.annotation ++ [s.returns]

/-- The annotations of a signature. -/
def annotationsOf : Sig → List Obj
  | .plain s => plainAnnotations s
  | .overloaded ss => ss.flatMap plainAnnotations

end Paradigm.Spec
