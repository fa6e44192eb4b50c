import Verif.Spec.Stubs

/-!
# What class statements declare: bases and type parameters

Independent of the parser; names are resolved by the parser, at some moment while it reads.
-/

namespace Paradigm.Spec

mutual

/-- The class statements of a statement, in source order, by path with their bases, where `o` says
which tests hold. -/
def classDefs (o : Expr → Bool) (parent : Path) : Stmt → List (Path × List Expr)
  | .classDef name bases _ body =>
    (parent ++ [name], bases) :: classDefsAll o (parent ++ [name]) body
  | .ifStmt test body orelse =>
    if o test then classDefsAll o parent body else classDefsAll o parent orelse
  | .other _ body => classDefsAll o parent body
  | _ => []

/-- The class statements of several statements. -/
def classDefsAll (o : Expr → Bool) (parent : Path) : List Stmt → List (Path × List Expr)
  | [] => []
  | node :: nodes => classDefs o parent node ++ classDefsAll o parent nodes

end

/-- The last value listed for a path. -/
def lastAt {α : Type} (l : List (Path × α)) (p : Path) : Option α :=
  ((l.filter (fun e => e.1 == p)).map Prod.snd).getLast?

/-- A moment during the reading that leads from `s` to `t`, at which `m` is being or was read. -/
structure Moment (s t : ParseState) (m : Path) (u : ParseState) : Prop where
  after : ∀ x ∈ s.visited, x ∈ u.visited
  before : ∀ x ∈ u.visited, x ∈ t.visited
  read : m ∈ u.visited

/-- A name of the module, read in the class `parent`, was found to mean `q` on the way from `s` to
`t`. -/
def FoundBetween (E : StubFiles) (s t : ParseState) (m parent path : Path) (q : QPath) : Prop :=
  ∃ k u v, Moment s t m u ∧ Moment s t m v ∧ resolveP E k m parent path u = (.ok q, v)

/-- What a name was taken for on the way from `s` to `t`: what was found, and a name of the module
itself if nothing was. -/
def TakenFor (E : StubFiles) (s t : ParseState) (m parent path : Path) (q : QPath) : Prop :=
  FoundBetween E s t m parent path q ∨
    (q = (m, path) ∧ ∃ k u v, Moment s t m u ∧ Moment s t m v ∧
      resolveP E k m parent path u = (.error .objectNotFound, v))

/-- The name a base is referred to by: `a.B` for `a.B` and `a.B[...]`. -/
def baseName : Expr → Option Path
  | .subscript value _ _ => dotted value
  | e => dotted e

/-- `Generic[...]`, `Protocol[...]`, `Protocol` and `NamedTuple` are no base classes. -/
def NoBase : Expr → QPath → Prop
  | .subscript .., q => q = (["typing"], ["Generic"]) ∨ q = (["typing"], ["Protocol"])
  | _, q => q = (["typing"], ["Protocol"]) ∨ q = (["typing"], ["NamedTuple"])

/-- `rs` are the bases `bs` without those that are no base classes, in the same order; `R` tells
what names are taken for. -/
inductive RealBases (R : Path → QPath → Prop) : List Expr → List Expr → Prop
  | nil : RealBases R [] []
  | kept {b bs rs} (h : ∀ path, baseName b = some path → ∃ q, R path q ∧ ¬ NoBase b q)
      (hs : RealBases R bs rs) : RealBases R (b :: bs) (b :: rs)
  | dropped {b bs rs path q} (h : baseName b = some path) (hq : R path q) (hn : NoBase b q)
      (hs : RealBases R bs rs) : RealBases R (b :: bs) rs

/-- The statement assigns the outcome of calling `func`. -/
inductive AssignsCall : Stmt → Expr → Prop
  | plain {targets func args keywords} : AssignsCall (.assign targets (.call func args keywords)) func
  | annotated {target annotation func args keywords} :
      AssignsCall (.annAssign target annotation (some (.call func args keywords))) func

/-- On the way from `s` to `t` the object was seen to be a type variable: its only definition is
`... = TypeVar(...)`. -/
def SeenTypeVariable (E : StubFiles) (s t : ParseState) (q : QPath) : Prop :=
  ∃ u node func callable, Moment s t q.1 u ∧ nodesAt u q.1 q.2 = [node] ∧ AssignsCall node func ∧
    dotted func = some callable ∧ FoundBetween E s t q.1 [] callable (["typing"], ["TypeVar"])

/-- On the way from `s` to `t` the object was seen not to be one. -/
def SeenOther (E : StubFiles) (s t : ParseState) (q : QPath) : Prop :=
  ∃ u, Moment s t q.1 u ∧ ∀ node func callable, nodesAt u q.1 q.2 = [node] → AssignsCall node func →
    dotted func = some callable →
    ∃ r, FoundBetween E s t q.1 [] callable r ∧ r ≠ (["typing"], ["TypeVar"])

/-- `ys` are the elements of `xs` with property `T`, in the same order; the others have `N`. -/
inductive Selected {α : Type} (T N : α → Prop) : List α → List α → Prop
  | nil : Selected T N [] []
  | take {x xs ys} (h : T x) (hs : Selected T N xs ys) : Selected T N (x :: xs) (x :: ys)
  | skip {x xs ys} (h : N x) (hs : Selected T N xs ys) : Selected T N (x :: xs) ys

/-- `ys` are the elements of `xs`, each once, in the order of first occurrence. -/
inductive FirstOccurrences {α : Type} : List α → List α → Prop
  | nil : FirstOccurrences [] []
  | cons {x xs ys} (hs : FirstOccurrences xs ys) (zs : List α) (h : Selected (· ≠ x) (· = x) ys zs) :
      FirstOccurrences (x :: xs) (x :: zs)

end Paradigm.Spec
