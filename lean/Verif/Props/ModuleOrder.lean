import Verif.Lemmas.ModuleOrder
import Verif.Props.Superclasses
import Verif.Props.Orders
import Verif.Props.Inherited
import Verif.Props.Linear
import Verif.Props.Evaluation

/-!
# C118: the order in which modules are read

`_parse_stubs_state` reads the modules of a set of tuples of texts, whose order depends on the hashes of texts.
-/

namespace Paradigm.Props

open Spec

/-- **C118**, full statement: in whatever order the modules are read, the tables say the same of every module,
and the superclasses of every class are the same. -/
def C118_statement : Prop :=
  ∀ (E : StubFiles) (rep : Atom → String) (n : Nat) (modules modules' : List Path) (a b : Stubs),
    modules.Perm modules' → parseStubs E rep n modules = .ok a → parseStubs E rep n modules' = .ok b →
    ∀ m, TellAlike a b m ∧ ∀ path, supersAt (returned a) m path = supersAt (returned b) m path

/-- `a` imports a type variable from `b` for a generic class, `b` star-imports `a` and derives `C` from a class
of `a`. -/
def starCycleFiles : StubFiles := filesOf [
  (["builtins"], sampleBuiltins),
  (["typing"], [.classDef "Generic" [] [] [], .classDef "TypeVar" [] [] []]),
  (["a"], [.importFrom (some "b") [⟨"T", none⟩] 0, .importFrom (some "typing") [⟨"Generic", none⟩] 0,
    .classDef "A" [sampleSubscript "Generic" (nm "T")] [] [],
    .classDef "X" [] [] [meth "run" (nm "int")]]),
  (["b"], [.importFrom (some "a") [⟨"*", none⟩] 0, .importFrom (some "typing") [⟨"TypeVar", none⟩] 0,
    .classDef "C" [nm "X"] [] [],
    .assign [tgt "T"] (.call (nm "TypeVar") [.constant (.str "T")] [])])]

/-- What is asked of the tables of `starCycleFiles`: the superclasses of `C`, and where its method `run` is. -/
def cyclicAnswers (modules : List Path) : Option (List QPath × Option QPath) :=
  match parseStubs starCycleFiles sampleRep 30 modules with
  | .ok T => some (supersAt (returned T) ["b"] ["C"],
      (resolve T.toTables 20 ["b"] [] ["C", "run"] []).toOption)
  | .error _ => none

/-- With `a` first, `b` is read before `X` is defined, and `C` has no method `run`. -/
theorem cyclic_first : cyclicAnswers [["a"], ["b"]] = some ([(["b"], ["X"])], none) := by decide +kernel

/-- With `b` first, `C` inherits `run`. -/
theorem cyclic_last : cyclicAnswers [["b"], ["a"]] =
    some ([(["a"], ["X"])], some (["a"], ["X", "run"])) := by decide +kernel

theorem cyclic_supers {modules : List Path} {qs : List QPath} {q : Option QPath}
    (h : cyclicAnswers modules = some (qs, q)) : ∃ T, parseStubs starCycleFiles sampleRep 30 modules = .ok T ∧
      supersAt (returned T) ["b"] ["C"] = qs := by
  unfold cyclicAnswers at h
  split at h
  · next T hT => exact ⟨T, hT, congrArg Prod.fst (Option.some.inj h)⟩
  · cases h

/-- **C118** does not hold. -/
theorem C118_refuted : ¬ C118_statement := by
  intro h
  obtain ⟨a, ha, e1⟩ := cyclic_supers cyclic_first
  obtain ⟨b, hb, e2⟩ := cyclic_supers cyclic_last
  have h3 := (h starCycleFiles sampleRep 30 _ _ a b (List.Perm.swap _ _ _) ha hb ["b"]).2 ["C"]
  rw [e1, e2] at h3
  exact absurd h3 (by decide)

/-- `a` star-imports `b` and derives from its class, `b` imports a type variable from `a`. -/
def crossedFiles : StubFiles := filesOf [
  (["builtins"], sampleBuiltins),
  (["typing"], [.classDef "Generic" [] [] [], .classDef "TypeVar" [] [] []]),
  (["a"], [.importFrom (some "b") [⟨"*", none⟩] 0, .importFrom (some "typing") [⟨"TypeVar", none⟩] 0,
    .classDef "A" [nm "B"] [] [],
    .assign [tgt "T"] (.call (nm "TypeVar") [.constant (.str "T")] [])]),
  (["b"], [.importFrom (some "a") [⟨"T", none⟩] 0, .importFrom (some "typing") [⟨"Generic", none⟩] 0,
    .classDef "B" [sampleSubscript "Generic" (nm "T")] [] [meth "get" (nm "T")]]),
  (["c"], [.importFrom (some "b") [⟨"B", none⟩] 0, .classDef "C" [sampleSubscript "B" (nm "int")] [] []])]

/-- The exception raised when the modules are read in this order, if any. -/
def crossedOutcome (modules : List Path) : Option PyErr :=
  match parseStubs crossedFiles sampleRep 30 modules with
  | .ok _ => none
  | .error e => some e

/-- Whether reading succeeds at all may depend on the order, too. -/
theorem C118_refuted_fails : crossedOutcome [["a"], ["b"], ["c"]] = some .keyError ∧
    crossedOutcome [["b"], ["a"], ["c"]] = none := by decide +kernel

/-! ### What holds -/

theorem tellAlike_of {a b : Stubs} {s s' t t' : ParseState} {m : Path} (hm : m ≠ ["__specializations"])
    (h : SameAt s s' m) (ha : Aside MoreSupers s t) (hb : Aside MoreSupers s' t')
    (ea : a = { t.tables with rawAstNodes := t.nodes, nodesKinds := t.kinds })
    (eb : b = { t'.tables with rawAstNodes := t'.nodes, nodesKinds := t'.kinds }) : TellAlike a b m := by
  subst ea eb
  refine ⟨?_, ?_, ?_, ?_, ?_⟩
  · exact (ha.nodes m hm).trans (h.nodes.symm.trans (hb.nodes m hm).symm)
  · exact (ha.kinds m hm).trans (h.kinds.symm.trans (hb.kinds m hm).symm)
  · exact (ha.definitions m hm).trans (h.definitions.symm.trans (hb.definitions m hm).symm)
  · exact (ha.references m hm).trans (h.references.symm.trans (hb.references m hm).symm)
  · show t.submodules.lookup m = t'.submodules.lookup m
    rw [ha.submodules, hb.submodules, h.submodules]

/-- **C118**, while files are read: if there is an order in which no module needs a later one, every order of the
same modules leads to the same tables or to a `RecursionError`, whatever the recursion limits. Missing: modules
that need each other, see `C118_refuted`. -/
theorem C118_read_partial (E : StubFiles) (N n : Nat) (modules modules' : List Path) (h : ReadInTurn E N modules)
    (hall : ∀ m, m ∈ ["builtins"] :: modules' ↔ m ∈ ["builtins"] :: modules) :
    ∃ s, parseAll E N modules {} = (.ok (), s) ∧
      ((parseAll E n modules' {}).1 = .error .recursionError ∨
        ∃ s', parseAll E n modules' {} = (.ok (), s') ∧ ∀ m, SameAt s s' m) := by
  obtain ⟨s, h1, h2⟩ := h.inTurn modules.length (Nat.le_refl _)
  rw [List.take_length] at h1 h2
  exact ⟨s, h1, h2.any_order n modules' fun x => (hall x).trans List.mem_reverse.symm⟩

/-- **C118** for the tables that are returned. Missing: modules that need each other (see `C118_refuted`), the
classes made for generic bases (module `__specializations`), and superclasses, for which see
`C118_superclasses_partial`. -/
theorem C118_tables_partial (E : StubFiles) (rep : Atom → String) (N n n' : Nat) (order modules modules' : List Path)
    (h : ReadInTurn E N order) (h1 : ∀ m, m ∈ ["builtins"] :: modules ↔ m ∈ ["builtins"] :: order)
    (h2 : ∀ m, m ∈ ["builtins"] :: modules' ↔ m ∈ ["builtins"] :: order) (a b : Stubs)
    (ha : parseStubs E rep n modules = .ok a) (hb : parseStubs E rep n' modules' = .ok b) (m : Path)
    (hm : m ≠ ["__specializations"]) : TellAlike a b m := by
  obtain ⟨s, t, a1, a2, a3⟩ := parseStubs_ok ha
  obtain ⟨s', t', b1, b2, b3⟩ := parseStubs_ok hb
  have asides := processBases_aside (o := ⟨E.order, E.order_perm⟩) rep n s
  have asides' := processBases_aside (o := ⟨E.order, E.order_perm⟩) rep n' s'
  rw [a2] at asides
  rw [b2] at asides'
  obtain ⟨u, k1, k2⟩ := C118_read_partial E N n order modules h h1
  obtain ⟨u', k3, k4⟩ := C118_read_partial E N n' order modules' h h2
  rw [k1] at k3
  cases k3
  rw [a1] at k2
  rw [b1] at k4
  rcases k2 with k2 | ⟨_, k2, k5⟩
  · cases k2
  rcases k4 with k4 | ⟨_, k4, k6⟩
  · cases k4
  cases k2
  cases k4
  exact tellAlike_of hm ((k5 m).symm'.trans' (k6 m)) asides asides' a3 b3

/-- Resolution looks tables up. -/
theorem resolve_lookups {T T' : Tables} (h1 : ∀ m, T'.definitions.lookup m = T.definitions.lookup m)
    (h2 : ∀ m, T'.references.lookup m = T.references.lookup m)
    (h3 : ∀ m, T'.submodules.lookup m = T.submodules.lookup m)
    (h4 : ∀ m, T'.superclasses.lookup m = T.superclasses.lookup m) : ∀ n, resolve T' n = resolve T n
  | 0 => by funext m p o v; simp only [resolve]
  | n + 1 => by
    have ih := resolve_lookups h1 h2 h3 h4 n
    funext m p o v
    simp only [resolve, h1, h2, Tables.subs, Tables.supers, h3, h4, ih]

theorem baseMeans_same {n : Nat} {s s' : ParseState} (h : ∀ m, SameAt s s' m) {c : QPath} {e : Expr} {q : QPath}
    (hm : BaseMeans n s c e q) : BaseMeans n s' c e q := by
  obtain ⟨path, hp, hr⟩ := hm
  refine ⟨path, hp, fun T t1 t2 t3 => ?_⟩
  have := hr { T with submodules := s.submodules } (fun m hm => (t1 m hm).trans (h m).definitions)
    (fun m hm => (t2 m hm).trans (h m).references) rfl
  rw [← this]
  refine congrFun (congrFun (congrFun (congrFun (resolve_lookups
    (T := { T with submodules := s.submodules }) (T' := T) (fun _ => rfl) (fun _ => rfl) (fun x => ?_)
    (fun _ => rfl) n) c.1) c.2.dropLast) path) []
  show T.submodules.lookup x = s.submodules.lookup x
  rw [t3, (h x).submodules]

/-- What is recorded for a base that is subscribed or means the same whatever superclasses are recorded. -/
theorem recorded_same {n : Nat} {identifier : Expr → Option String} {s s' t t' : ParseState} {c : QPath}
    (hs : ∀ m, SameAt s s' m) : ∀ {bases : List Expr} {qs qs' : List QPath},
    (∀ base ∈ bases, (∃ v w l, base = .subscript v w l) ∨ ∃ q, BaseMeans n s c base q) →
    Pointwise (RecordedFor identifier (ResolvesTo n) s t c) bases qs →
    Pointwise (RecordedFor identifier (ResolvesTo n) s' t' c) bases qs' → qs = qs'
  | [], [], [], _, _, _ => rfl
  | [], _ :: _, _, _, h, _ => nomatch h
  | [], [], _ :: _, _, _, h => nomatch h
  | _ :: _, [], _, _, h, _ => nomatch h
  | _ :: _, _ :: _, [], _, _, h => nomatch h
  | base :: bases, q :: qs, q' :: qs', hb, h, h' => by
    have ih := recorded_same hs (fun b hb' => hb b (List.mem_cons_of_mem _ hb')) h.2 h'.2
    have hq : q = q' := by
      rcases hb base List.mem_cons_self with ⟨v, w, l, rfl⟩ | ⟨r, hr⟩
      · rcases h.1 with ⟨v1, w1, l1, name, -, e1, rfl, -⟩ | ⟨_, _, e, -⟩
        · rcases h'.1 with ⟨v2, w2, l2, name', -, e2, rfl, -⟩ | ⟨_, _, e, -⟩
          · rw [e1] at e2
            cases e2
            rfl
          · cases e
        · cases e
      · exact (C92_means_partial n identifier s t c base q r h.1 hr).trans
          (C92_means_partial n identifier s' t' c base q' r h'.1 (baseMeans_same hs hr)).symm
    rw [hq, ih]

/-- **C118** for the superclasses of classes without type parameters, whose bases are subscribed or mean the same
whatever superclasses are recorded. Missing: modules that need each other (see `C118_refuted`) and generic
classes (see `C92_refuted`). -/
theorem C118_superclasses_partial (E : StubFiles) (rep : Atom → String) (N n : Nat)
    (order modules modules' : List Path) (h : ReadInTurn E N order)
    (h1 : ∀ m, m ∈ ["builtins"] :: modules ↔ m ∈ ["builtins"] :: order)
    (h2 : ∀ m, m ∈ ["builtins"] :: modules' ↔ m ∈ ["builtins"] :: order) (a b : Stubs)
    (ha : parseStubs E rep n modules = .ok a) (hb : parseStubs E rep n modules' = .ok b) (s : ParseState)
    (hs : parseAll E N order {} = (.ok (), s)) (c : QPath) (bases : List Expr)
    (hc : s.classesBases.lookup c = some bases) (hg : s.generics.lookup c = none)
    (hm : ∀ base ∈ bases, (∃ v w l, base = .subscript v w l) ∨ ∃ q, BaseMeans n s c base q) :
    supersAt (returned a) c.1 c.2 = supersAt (returned b) c.1 c.2 := by
  obtain ⟨u, -, a1, -, -⟩ := parseStubs_ok ha
  obtain ⟨u', -, b1, -, -⟩ := parseStubs_ok hb
  obtain ⟨s1, k1, k2⟩ := C118_read_partial E N n order modules h h1
  obtain ⟨s2, k3, k4⟩ := C118_read_partial E N n order modules' h h2
  rw [hs] at k1 k3
  cases k1
  cases k3
  rw [a1] at k2
  rw [b1] at k4
  rcases k2 with k2 | ⟨_, k2, k5⟩
  · cases k2
  rcases k4 with k4 | ⟨_, k4, k6⟩
  · cases k4
  cases k2
  cases k4
  obtain ⟨qs, e1, e2⟩ := C92_superclasses_partial E rep n modules u a a1 ha c bases
    (((k5 c.1).classesBases c.2).trans hc) (((k5 c.1).generics c.2).trans hg)
  obtain ⟨qs', e3, e4⟩ := C92_superclasses_partial E rep n modules' u' b b1 hb c bases
    (((k6 c.1).classesBases c.2).trans hc) (((k6 c.1).generics c.2).trans hg)
  have hsame : ∀ m, SameAt u u' m := fun m => (k5 m).symm'.trans' (k6 m)
  have := recorded_same hsame (fun base hbase => (hm base hbase).imp id fun ⟨q, hq⟩ =>
    ⟨q, baseMeans_same k5 hq⟩) e2 e4
  rw [e1, e3, this]
  unfold supersAt
  rw [(hsame c.1).superclasses]

/-! ### Example -/

/-- `b` star-imports `a`, imports the type variable of `a` for a generic class, and derives `C` from a class of
`a`; `d` derives from `C` and from `B[int]`. -/
def layeredFiles : StubFiles := filesOf [
  (["builtins"], sampleBuiltins),
  (["typing"], [.classDef "Generic" [] [] [], .classDef "TypeVar" [] [] []]),
  (["a"], [.importFrom (some "typing") [⟨"TypeVar", none⟩] 0,
    .assign [tgt "T"] (.call (nm "TypeVar") [.constant (.str "T")] []),
    .classDef "X" [] [] [meth "run" (nm "int")]]),
  (["b"], [.importFrom (some "a") [⟨"*", none⟩] 0, .importFrom (some "typing") [⟨"Generic", none⟩] 0,
    .classDef "B" [sampleSubscript "Generic" (nm "T")] [] [meth "get" (nm "T")],
    .classDef "C" [nm "X"] [] []]),
  (["d"], [.importFrom (some "b") [⟨"B", none⟩, ⟨"C", none⟩] 0,
    .classDef "D" [nm "C", sampleSubscript "B" (nm "int")] [] []])]

/-- The files opened when the modules are read, if that succeeds. -/
def openedFiles (E : StubFiles) (n : Nat) (modules : List Path) : Option (List Path) :=
  match parseAll E n modules {} with
  | (.ok (), s) => some s.reads.reverse
  | _ => none

theorem readInTurn_of {E : StubFiles} {n : Nat} {modules : List Path}
    (h : ∀ k < modules.length + 1, openedFiles E n (modules.take k) = some (["builtins"] :: modules.take k)) :
    ReadInTurn E n modules := by
  intro k hk
  have := h k (Nat.lt_succ_of_le hk)
  unfold openedFiles at this
  split at this
  · next s hs => exact ⟨s, hs, Option.some.inj this⟩
  · cases this

/-- An order in which no module needs a later one. -/
theorem layered_in_turn : ReadInTurn layeredFiles 30 [["a"], ["b"], ["d"], ["typing"]] :=
  readInTurn_of (by decide +kernel)

/-- In the opposite order `a` is read on behalf of `b`. -/
example : openedFiles layeredFiles 30 [["d"], ["b"], ["a"], ["typing"]] =
    some [["builtins"], ["d"], ["b"], ["a"], ["typing"]] := by decide +kernel
example : openedFiles layeredFiles 30 [["b"]] = some [["builtins"], ["b"], ["a"]] := by decide +kernel

/-- There is no such order of the modules of `starCycleFiles`. -/
example : ¬ ReadInTurn starCycleFiles 30 [["a"], ["b"]] := by
  intro h
  obtain ⟨s, h1, h2⟩ := h 1 (by decide)
  have h3 : openedFiles starCycleFiles 30 ([["a"], ["b"]].take 1) = some s.reads.reverse := by
    unfold openedFiles
    rw [h1]
  rw [h2] at h3
  exact absurd h3 (by decide +kernel)

/-- Is it read without an exception? -/
def stubsRead (E : StubFiles) (rep : Atom → String) (n : Nat) (modules : List Path) : Bool :=
  match parseStubs E rep n modules with
  | .ok _ => true
  | .error _ => false

theorem stubsRead_ok {E : StubFiles} {rep : Atom → String} {n : Nat} {modules : List Path}
    (h : stubsRead E rep n modules = true) : ∃ T, parseStubs E rep n modules = .ok T := by
  unfold stubsRead at h
  split at h
  · next T hT => exact ⟨T, hT⟩
  · cases h

/-- The hypotheses of `C118_tables_partial` can be met. -/
example : ∃ a b, parseStubs layeredFiles sampleRep 30 [["d"], ["b"], ["a"], ["typing"]] = .ok a ∧
    parseStubs layeredFiles sampleRep 25 [["typing"], ["b"], ["builtins"], ["d"], ["a"]] = .ok b ∧
    TellAlike a b ["b"] := by
  obtain ⟨a, ha⟩ := stubsRead_ok (E := layeredFiles) (rep := sampleRep) (n := 30)
    (modules := [["d"], ["b"], ["a"], ["typing"]]) (by decide +kernel)
  obtain ⟨b, hb⟩ := stubsRead_ok (E := layeredFiles) (rep := sampleRep) (n := 25)
    (modules := [["typing"], ["b"], ["builtins"], ["d"], ["a"]]) (by decide +kernel)
  refine ⟨a, b, ha, hb, C118_tables_partial layeredFiles sampleRep 30 30 25 _ _ _ layered_in_turn (fun m => ?_)
    (fun m => ?_) a b ha hb _ (by decide)⟩
  all_goals simp only [List.mem_cons, List.not_mem_nil, or_false]; grind

/-- The tables once the modules of `layeredFiles` were read in turn. -/
def layeredRead : ParseState := (parseAll layeredFiles 30 [["a"], ["b"], ["d"], ["typing"]] {}).2

theorem layered_bases : layeredRead.classesBases.lookup (["d"], ["D"])
    = some [nm "C", sampleSubscript "B" (nm "int")] := rfl

theorem layered_means : BaseMeans 30 layeredRead (["d"], ["D"]) (nm "C") (["b"], ["C"]) := by
  refine ⟨["C"], rfl, fun T hd hr hs => ?_⟩
  have h1 : T.definitions.lookup ["d"] = some (.mk [("D", .mk [])]) := (hd _ (by decide)).trans rfl
  have h2 : T.definitions.lookup ["b"] = some (.mk [("B", .mk [("get", .mk [])]), ("C", .mk [])]) :=
    (hd _ (by decide)).trans rfl
  have h3 : T.references.lookup ["d"] = some [(["B"], (["b"], ["B"])), (["C"], (["b"], ["C"]))] :=
    (hr _ (by decide)).trans rfl
  have h4 : T.subs ["d"] = [] := by
    unfold Tables.subs
    rw [hs]
    rfl
  have h5 : ∀ visited, resolve T 29 ["b"] [] ["C"] visited = .ok (["b"], ["C"]) := fun visited => by
    rw [resolve, h2]
    rfl
  rw [resolve]
  simp only [h1, h3, h4, List.filter_nil, tryEach]
  show (match resolve T 29 ["b"] [] ["C"] [["d"]] with
    | .ok (rm, ro) => resolve T 29 rm [] (ro ++ []) [["d"]]
    | .error .objectNotFound => _
    | .error e => .error e) = _
  rw [h5]
  exact h5 _

/-- The hypotheses of `C118_superclasses_partial` can be met. -/
example : ∃ a b, parseStubs layeredFiles sampleRep 30 [["d"], ["b"], ["a"], ["typing"]] = .ok a ∧
    parseStubs layeredFiles sampleRep 30 [["typing"], ["b"], ["builtins"], ["d"], ["a"]] = .ok b ∧
    supersAt (returned a) ["d"] ["D"] = supersAt (returned b) ["d"] ["D"] := by
  obtain ⟨a, ha⟩ := stubsRead_ok (E := layeredFiles) (rep := sampleRep) (n := 30)
    (modules := [["d"], ["b"], ["a"], ["typing"]]) (by decide +kernel)
  obtain ⟨b, hb⟩ := stubsRead_ok (E := layeredFiles) (rep := sampleRep) (n := 30)
    (modules := [["typing"], ["b"], ["builtins"], ["d"], ["a"]]) (by decide +kernel)
  refine ⟨a, b, ha, hb, C118_superclasses_partial layeredFiles sampleRep 30 30 _ _ _ layered_in_turn (fun m => ?_)
    (fun m => ?_) a b ha hb layeredRead rfl (["d"], ["D"]) _ layered_bases rfl fun base hbase => ?_⟩
  · simp only [List.mem_cons, List.not_mem_nil, or_false]; grind
  · simp only [List.mem_cons, List.not_mem_nil, or_false]; grind
  · simp only [List.mem_cons, List.not_mem_nil, or_false] at hbase
    rcases hbase with rfl | rfl
    · exact .inr ⟨_, layered_means⟩
    · exact .inl ⟨_, _, _, rfl⟩

end Paradigm.Props
