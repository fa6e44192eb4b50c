import Verif.Lemmas.Classes
import Verif.Props.Specialization

/-!
# C87, C88: bases and type parameters of the classes read
-/

namespace Paradigm.Props

open Spec

/-! ### C87 -/

/-- **C87.** When a stub module has been read to its end, each class is recorded with the bases of
its last definition, in order, but for `Generic[...]`, `Protocol`, `Protocol[...]` and `NamedTuple`;
names of bases are what they were taken for while the module was read. -/
theorem C87_bases (E : StubFiles) (o : Expr → Bool) (ho : Decides E o) (n : Nat) (m : Path)
    (s t : ParseState) (scope : Scope) (body : List Stmt) (hm : m ∉ s.visited)
    (hsrc : E.source m = some body) (h : parseScope E n m s = (.ok scope, t)) (p : Path)
    (bases : List Expr) (hp : lastAt (classDefsAll o [] body) p = some bases) :
    ∃ recorded, t.classesBases.lookup (m, p) = some recorded ∧
      RealBases (TakenFor E s t m p.dropLast) bases recorded :=
  parse_classes ho hm hsrc h hp

/-- `A` is defined twice; `B` has four bases one of which is `Generic[T]`; a class below a test and
one inside of another. -/
def classBody : List Stmt := typingHead ++
  [.classDef "A" [nm "int"] [] [],
   .ifStmt (nm "no") [.classDef "A" [nm "bytes"] [] []]
     [.classDef "A" [nm "str"] [] [.classDef "Inner" [nm "object"] [] []]],
   .classDef "B" [nm "A", sub (nm "Generic") (nm "T"), nm "object", sub (nm "A") (nm "int")] [] []]

/-- The only module. -/
def classFiles : StubFiles := filesOf
  [(["builtins"], sampleBuiltins ++ [.classDef "no" [] [] []]), (["typing"], []), (["m"], classBody)]

/-- Everything was read. -/
def classState : ParseState := (parseAll classFiles 20 [["m"]] {}).2

example : (parseAll classFiles 20 [["m"]] {}).1.isOk = true := by decide
example : ∃ scope s, ["m"] ∉ s.visited ∧ parseScope classFiles 20 ["m"] s = (.ok scope, classState) :=
  ⟨_, (parseScope classFiles 20 builtinsPath {}).2, by decide, rfl⟩
example : lastAt (classDefsAll sampleOutcome [] classBody) ["B"]
    = some [nm "A", sub (nm "Generic") (nm "T"), nm "object", sub (nm "A") (nm "int")] := rfl
example : classState.classesBases.lookup (["m"], ["B"])
    = some [nm "A", nm "object", sub (nm "A") (nm "int")] := rfl
example : lastAt (classDefsAll sampleOutcome [] classBody) ["A"] = some [nm "str"] := rfl
example : classState.classesBases.lookup (["m"], ["A"]) = some [nm "str"] := rfl
example : classState.classesBases.lookup (["m"], ["A", "Inner"]) = some [nm "object"] := rfl

/-! ### C88, what is recorded -/

/-- **C88**, the parameters recorded: those names among the collected arguments of the bases that
are seen to be type variables, each once in the order of first occurrence; if there are none, the
parameters stay what they were. -/
theorem C88_parameters (E : StubFiles) (n : Nat) (c : Place) (name : String)
    (bases decorators : List Expr) (body : List Stmt) (s t : ParseState)
    (hm : c.module ∈ s.visited)
    (h : visit E (n + 1) c (.classDef name bases decorators body) s = (.ok (), t)) :
    ∃ variables parameters,
      Selected (fun x => ∃ q, TakenFor E s t c.module c.parent x q ∧ SeenTypeVariable E s t q)
        (fun x => ∃ q, TakenFor E s t c.module c.parent x q ∧ SeenOther E s t q)
        ((bases.flatMap collectTypeArgs).filterMap dotted) variables ∧
      FirstOccurrences variables parameters ∧
      t.generics.lookup (c.module, c.parent ++ [name]) =
        if variables = [] then s.generics.lookup (c.module, c.parent ++ [name])
        else some parameters := by
  rw [visit] at h
  obtain ⟨_, u, h1, h2⟩ := bind_ok h
  obtain ⟨hsu, _, vars, hsift, hg⟩ := classHead_records hm h1
  have H := classes_rels E
  have hb : _ ∧ ClassesKept c.module (Below (c.parent ++ [name])) u t := Pres.of_eq
    (Pres.each (H.preV ⟨c.module, c.parent ++ [name]⟩) body fun x _ => (parsing_rels H n).1 _ x) h2
  refine ⟨vars, dedup vars, ?_, dedup_firstOccurrences vars, ?_⟩
  · have := hsift.widen (Onward.refl s) hb.2.onward
    have e : bases.flatMap argNames = (bases.flatMap collectTypeArgs).filterMap dotted := by
      rw [List.filterMap_flatMap]
      rfl
    rw [e] at this
    exact this
  · rw [hb.2.generics (hsu _ hm), hg]
    rintro ⟨x, xs, e⟩
    have := congrArg List.length e
    simp at this

example : classState.generics.lookup (["m"], ["B"]) = some [["T"]] ∧
    classState.generics.lookup (["m"], ["A"]) = none := ⟨rfl, rfl⟩

/-- A class defined again without parameters keeps those of its first definition. -/
example : (visit classFiles 9 ⟨["m"], []⟩ (.classDef "B" [] [] []) classState).2.generics.lookup
    (["m"], ["B"]) = some [["T"]] := rfl

/-! ### C88 -/

/-- By the finished tables, the name in the class `parent` of the module means a type variable. -/
def MeansTypeVariable (t : ParseState) (depth : Nat) (m parent path : Path) : Prop :=
  ∃ q node func callable, resolve t.tables depth m parent path [] = .ok q ∧
    nodesAt t q.1 q.2 = [node] ∧ AssignsCall node func ∧ dotted func = some callable ∧
    resolve t.tables depth q.1 [] callable [] = .ok (["typing"], ["TypeVar"])

/-- **C88**, full statement: a type variable among the arguments of the bases of a class becomes a
type parameter of the class. -/
def C88_statement : Prop :=
  ∀ (E : StubFiles) (o : Expr → Bool), Decides E o → ∀ (n : Nat) (modules : List Path)
    (t : ParseState), parseAll E n modules {} = (.ok (), t) →
    ∀ m ∈ modules, ∀ body, E.source m = some body →
    ∀ p bases, lastAt (classDefsAll o [] body) p = some bases →
    ∀ base ∈ bases, ∀ path ∈ (argLeaves base).filterMap dotted,
    MeansTypeVariable t n m p.dropLast path →
    ∃ parameters, t.generics.lookup (m, p) = some parameters ∧ path ∈ parameters

/-- `c` defines `T`, `b` imports it from `c` and `a` from `b`. -/
def exportedFiles : StubFiles := filesOf
  [(["builtins"], sampleBuiltins),
   (["typing"], [.classDef "TypeVar" [] [] [], .classDef "Generic" [] [] []]),
   (["c"], typingHead),
   (["b"], [.importFrom (some "c") [⟨"T", none⟩] 0]),
   (["a"], [.importFrom (some "typing") [⟨"Generic", none⟩] 0, .importFrom (some "b") [⟨"T", none⟩] 0,
     .classDef "A" [sub (nm "Generic") (nm "T")] [] []])]

/-- A type variable imported from a module that imported it is not recognised. -/
theorem C88_refuted : ¬ C88_statement := by
  intro h
  have hok : parseAll exportedFiles 20 [["typing"], ["c"], ["b"], ["a"]] {}
      = (.ok (), (parseAll exportedFiles 20 [["typing"], ["c"], ["b"], ["a"]] {}).2) := rfl
  obtain ⟨ps, h1, h2⟩ := h exportedFiles sampleOutcome (filesOf_decides _) 20 _ _ hok ["a"] (by decide)
    _ rfl ["A"] [sub (nm "Generic") (nm "T")] rfl _ List.mem_cons_self ["T"] (by decide)
    ⟨(["c"], ["T"]), _, _, ["TypeVar"], rfl, rfl, .plain, rfl, rfl⟩
  have : (parseAll exportedFiles 20 [["typing"], ["c"], ["b"], ["a"]] {}).2.generics.lookup
    (["a"], ["A"]) = none := rfl
  rw [this] at h1
  cases h1

/-- The name means a type variable, and finding that out needs no further reading. -/
structure KnownVariable (E : StubFiles) (n : Nat) (c : Place) (s : ParseState) (path : Path) : Prop
    where
  known : ∃ q scope node func callable, resolveP E n c.module c.parent path s = (.ok q, s) ∧
    parseScope E n q.1 s = (.ok scope, s) ∧ nodesAt s q.1 q.2 = [node] ∧ AssignsCall node func ∧
    dotted func = some callable ∧
    resolveP E n q.1 [] callable s = (.ok (["typing"], ["TypeVar"]), s)

/-- The name means something that is not the outcome of a call, and finding that out needs no
further reading. -/
structure KnownOther (E : StubFiles) (n : Nat) (c : Place) (s : ParseState) (path : Path) : Prop
    where
  known : ∃ q scope nodes, resolveP E n c.module c.parent path s = (.ok q, s) ∧
    parseScope E n q.1 s = (.ok scope, s) ∧ s.nodes.lookup q.1 = some nodes ∧
    ∀ node func, nodesAt s q.1 q.2 = [node] → ¬ AssignsCall node func

theorem isTypeVar_known {E : StubFiles} {n : Nat} {c : Place} {s : ParseState} {path : Path}
    (h : KnownVariable E n c s path) :
    isTypeVar (parseScope E n) (resolveP E n) c path s = (.ok true, s) := by
  obtain ⟨q, scope, node, func, callable, h1, h2, h3, h4, h5, h6⟩ := h.known
  have hq : toQualified (resolveP E n) c path s = (.ok q, s) := by
    unfold toQualified P.orNotFound
    rw [h1]
  unfold nodesAt at h3
  cases hl : s.nodes.lookup q.1 with
  | none => rw [hl] at h3; cases h3
  | some d =>
    rw [hl, Option.getD_some] at h3
    cases hd : d.lookup q.2 with
    | none => rw [hd] at h3; cases h3
    | some l =>
      rw [hd, Option.getD_some] at h3
      subst h3
      unfold isTypeVar
      rw [bind_of_ok hq, bind_of_ok h2, bind_of_ok (item_ok hl), hd]
      dsimp only
      rw [assignedCall_iff.2 h4, Option.bind_some, toMaybePath_eq, h5]
      dsimp only
      rw [bind_of_ok h6]
      rfl

theorem isTypeVar_known_other {E : StubFiles} {n : Nat} {c : Place} {s : ParseState} {path : Path}
    (h : KnownOther E n c s path) :
    isTypeVar (parseScope E n) (resolveP E n) c path s = (.ok false, s) := by
  obtain ⟨q, scope, d, h1, h2, hl, h4⟩ := h.known
  have hq : toQualified (resolveP E n) c path s = (.ok q, s) := by
    unfold toQualified P.orNotFound
    rw [h1]
  have hn : nodesAt s q.1 q.2 = (d.lookup q.2).getD [] := by
    unfold nodesAt
    rw [hl, Option.getD_some]
  unfold isTypeVar
  rw [bind_of_ok hq, bind_of_ok h2, bind_of_ok (item_ok hl)]
  match hd : d.lookup q.2 with
  | none => rfl
  | some [] => rfl
  | some (_ :: _ :: _) => rfl
  | some [node] =>
    dsimp only
    cases hc : assignedCall node with
    | none => rfl
    | some func =>
      rw [hd, Option.getD_some] at hn
      exact absurd (assignedCall_iff.1 hc) (h4 node func hn)

/-- **C88**, what holds (missing: variables imported from modules that only import them, and names
whose meaning has to be read first): the type parameters contributed by the base `B[...]` are
exactly the names among its arguments that mean type variables. -/
theorem C88_known_partial (E : StubFiles) (n : Nat) (c : Place) (name : String) (body : List Stmt)
    (value slice : Expr) (load : Bool) (s t : ParseState) (parameters names variables : List Path)
    (hnames : (collectTypeArgs (.subscript value slice load)).filterMap dotted = names)
    (hsel : Selected (KnownVariable E n c s) (KnownOther E n c s) names variables)
    (h : visitBase (parseScope E n) (resolveP E n) c name body (.subscript value slice load) s
      = (.ok parameters, t)) :
    parameters = variables := by
  have hf : P.filter (isTypeVar (parseScope E n) (resolveP E n) c) names s = (.ok variables, s) := by
    clear hnames h
    have step : ∀ {x : Path} {xs ys : List Path} {b : Bool},
        isTypeVar (parseScope E n) (resolveP E n) c x s = (.ok b, s) →
        P.filter (isTypeVar (parseScope E n) (resolveP E n) c) xs s = (.ok ys, s) →
        P.filter (isTypeVar (parseScope E n) (resolveP E n) c) (x :: xs) s
          = (.ok (if b then x :: ys else ys), s) := by
      intro x xs ys b h1 h2
      rw [P.filter, P.bind, h1]
      dsimp only
      rw [P.bind, h2]
      rfl
    induction hsel with
    | nil => rfl
    | take h _ ih => exact step (isTypeVar_known h) ih
    | skip h _ ih => exact step (isTypeVar_known_other h) ih
  have hargs : (collectTypeArgs (.subscript value slice load)).filterMap toMaybePath = names := by
    rw [← hnames]
    congr 1
    funext e
    exact toMaybePath_eq e
  dsimp only [visitBase] at h
  rw [hargs, bind_of_ok hf] at h
  cases ho : toMaybePath value with
  | none =>
    rw [ho] at h
    exact (Except.ok.inj (congrArg Prod.fst h)).symm
  | some origin =>
    rw [ho] at h
    obtain ⟨q, u, _, h2⟩ := bind_ok h
    split at h2
    · exact (Except.ok.inj (congrArg Prod.fst h2)).symm
    · exact (Except.ok.inj (congrArg Prod.fst h2)).symm

/-- In `class B(A, Generic[T], object, A[int])` of the sample `T` is a type variable and `int` is
not. -/
example : KnownVariable classFiles 9 ⟨["m"], []⟩ classState ["T"] ∧
    KnownOther classFiles 9 ⟨["m"], []⟩ classState ["int"] :=
  ⟨⟨(["m"], ["T"]), _, _, _, ["TypeVar"], rfl, rfl, rfl, .plain, rfl, rfl⟩,
   ⟨(["builtins"], ["int"]), _, _, rfl, rfl, rfl, fun _ _ h => by cases h⟩⟩

end Paradigm.Props
