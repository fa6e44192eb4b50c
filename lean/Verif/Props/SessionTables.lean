import Verif.Lemmas.SessionTables
import Verif.Props.ModuleOrder
import Verif.Props.BoundWritten

/-!
# C119: answers and the order in which modules are read
-/

namespace Paradigm.Props

open Spec

/-- **C119**, full statement: in whatever order the modules are read, the answers to all questions are the same. -/
def C119_statement : Prop :=
  ∀ (E : StubFiles) (rep : Atom → String) (n : Nat) (modules modules' : List Path) (a b : Stubs),
    modules.Perm modules' → parseStubs E rep n modules = .ok a → parseStubs E rep n modules' = .ok b →
    ∀ (R : Runtime) (W : Interpreter Obj) (other : Atom → String) (k : Nat) (cs : List Callable) (self : Obj),
      session (R.on a) ((R.on a).evaluator W other k) cs (initialEval self)
        = session (R.on b) ((R.on b).evaluator W other k) cs (initialEval self)

/-- The function `C.run` of module `b`, of which `inspect` knows nothing. -/
def cyclicRun : Callable :=
  .function { module_ := .text "b", qualname := "C.run" } (.error (.valueError "no signature"))

/-- The answer for `cyclicRun`, once the modules have been read in this order. -/
def cyclicAnswer (modules : List Path) : Option (List (Except PyErr Sig)) :=
  match parseStubs starCycleFiles sampleRep 30 modules with
  | .ok T => some (session (homeRuntime.on T) ((homeRuntime.on T).evaluator sessionPython (fun _ => "") 20)
      [cyclicRun] (initialEval (.form 99)))
  | .error _ => none

/-- Is there an answer, and is it a signature? -/
def gives : Option (List (Except PyErr Sig)) → Option (List Bool)
  | some rs => some (rs.map fun r => match r with | .ok _ => true | .error _ => false)
  | none => none

/-- With `a` first, the question raises an exception. -/
theorem cyclic_first_answer : gives (cyclicAnswer [["a"], ["b"]]) = some [false] := by decide +kernel

/-- With `b` first, it is answered. -/
theorem cyclic_last_answer : gives (cyclicAnswer [["b"], ["a"]]) = some [true] := by decide +kernel

theorem cyclic_answer {modules : List Path} {bs : List Bool} (h : gives (cyclicAnswer modules) = some bs) :
    ∃ T, parseStubs starCycleFiles sampleRep 30 modules = .ok T ∧
      gives (some (session (homeRuntime.on T) ((homeRuntime.on T).evaluator sessionPython (fun _ => "") 20)
        [cyclicRun] (initialEval (.form 99)))) = some bs := by
  unfold cyclicAnswer at h
  split at h
  · next T hT => exact ⟨T, hT, h⟩
  · cases h

/-- **C119** does not hold. -/
theorem C119_refuted : ¬ C119_statement := by
  intro h
  obtain ⟨a, ha, e1⟩ := cyclic_answer cyclic_first_answer
  obtain ⟨b, hb, e2⟩ := cyclic_answer cyclic_last_answer
  rw [h starCycleFiles sampleRep 30 _ _ a b (List.Perm.swap _ _ _) ha hb, e2] at e1
  exact absurd e1 (by decide)

/-! ### What holds -/

/-- **C119** from the tables: sessions give the same answers from tables that say the same of everything, whatever
they collect in between. Missing: that the tables do so, see `C119_plain_partial`. -/
theorem C119_tables_partial (a b : Stubs) (h : SayAlike a b) (R : Runtime) (W : Interpreter Obj)
    (other : Atom → String) (k : Nat) (collect : EvalState Obj → EvalState Obj) (cs : List Callable)
    (s : EvalState Obj) :
    session (R.on a) (((R.on a).evaluator W other k).after collect) cs s
      = session (R.on b) (((R.on b).evaluator W other k).after collect) cs s := by
  rw [evaluator_alike h R W other k]
  exact session_alike h R _ cs s

theorem opens {s u : ParseState} (h : openSpecializations s = (.ok (), u)) :
    Opened s u ∧ u.superclasses = s.superclasses := by
  unfold openSpecializations at h
  obtain ⟨s0, s1, h0, g0⟩ := bind_ok h
  cases h0
  split at g0
  · cases g0
  · split at g0
    · cases g0
    · split at g0
      · cases g0
      · split at g0
        · cases g0
        · cases g0
          exact ⟨⟨rfl, rfl, rfl, rfl, rfl, rfl⟩, rfl⟩

/-- What is left when all bases mean something. -/
theorem processBases_plain {o : SetOrder} {rep : Atom → String} {n : Nat} {s t : ParseState}
    {mean : QPath → Expr → QPath} (hs : Tidy s) (h : processBases o rep n s = (.ok (), t))
    (hm : ∀ c bases, s.classesBases.lookup c = some bases → ∀ e ∈ bases, BaseMeans n s c e (mean c e)) :
    Opened s t ∧ ∀ c : QPath, supersAt t c.1 c.2
      = supersAt s c.1 c.2 ++ ((s.classesBases.lookup c).getD []).map (mean c) := by
  unfold processBases at h
  obtain ⟨_, u, h1, h2⟩ := bind_ok h
  obtain ⟨h3, h4⟩ := opens h1
  obtain ⟨v, h5, h6, h7, h8⟩ := processClasses_means (o := o) rep hm (s.classesBases.map Prod.fst) u hs.nodup
    (fun c hc => isSome_of_key hc) h3
  have h9 : P.each (processClass o rep n) (u.classesBases.map Prod.fst) u = (.ok (), t) := h2
  rw [h3.bases, h5] at h9
  cases h9
  refine ⟨h6, fun c => ?_⟩
  have hu : supersAt u c.1 c.2 = supersAt s c.1 c.2 := by rw [supersAt, supersAt, h4]
  by_cases hc : c ∈ s.classesBases.map Prod.fst
  · rw [h7 c hc, hu]
  · rw [h8 c hc, hu]
    have : s.classesBases.lookup c = none := by
      cases e : s.classesBases.lookup c with
      | none => rfl
      | some bases => exact absurd (List.mem_map.2 ⟨(c, bases), mem_of_lookup_some e, rfl⟩) hc
    rw [this]
    simp

theorem lookup_dictSet_alike {β : Type} {d d' : Dict Path β} {v : β} {k m : Path}
    (h : d'.lookup m = d.lookup m) : (dictSet d k v).lookup m = (dictSet d' k v).lookup m := by
  by_cases e : m = k
  · subst e
    rw [lookup_dictSet_self, lookup_dictSet_self]
  · rw [lookup_dictSet_ne _ _ e, lookup_dictSet_ne _ _ e, h]

/-- If there is an order in which no module needs a later one, and every base is a name that means something
whatever superclasses are recorded, the tables say the same of everything, in whatever order the modules are
read. -/
theorem plain_sayAlike {E : StubFiles} {rep : Atom → String} {N n : Nat} {order modules modules' : List Path}
    (h : ReadInTurn E N order) (h1 : ∀ m, m ∈ ["builtins"] :: modules ↔ m ∈ ["builtins"] :: order)
    (h2 : ∀ m, m ∈ ["builtins"] :: modules' ↔ m ∈ ["builtins"] :: order) {a b : Stubs}
    (ha : parseStubs E rep n modules = .ok a) (hb : parseStubs E rep n modules' = .ok b) {s : ParseState}
    (hs : parseAll E N order {} = (.ok (), s))
    (hm : ∀ c bases, s.classesBases.lookup c = some bases → ∀ e ∈ bases, ∃ q, BaseMeans n s c e q) :
    SayAlike a b := by
  obtain ⟨u, t, a1, a2, a3⟩ := parseStubs_ok ha
  obtain ⟨u', t', b1, b2, b3⟩ := parseStubs_ok hb
  obtain ⟨s1, k1, k2⟩ := C118_read_partial E N n order modules h h1
  obtain ⟨s2, k3, k4⟩ := C118_read_partial E N n order modules' h h2
  rw [hs] at k1 k3
  cases k1
  cases k3
  rw [a1] at k2
  rw [b1] at k4
  rcases k2 with k2 | ⟨_, k2, k5⟩
  · cases k2
  rcases k4 with k4 | ⟨_, k4, k6⟩
  · cases k4
  cases k2
  cases k4
  classical
  let mean : QPath → Expr → QPath := fun c e => if h : ∃ q, BaseMeans n s c e q then h.choose else c
  have hmean : ∀ c bases, s.classesBases.lookup c = some bases → ∀ e ∈ bases, BaseMeans n s c e (mean c e) := by
    intro c bases hc e he
    have := hm c bases hc e he
    show BaseMeans n s c e (if h : ∃ q, BaseMeans n s c e q then h.choose else c)
    rw [dif_pos this]
    exact this.choose_spec
  obtain ⟨o1, p1⟩ := processBases_plain (mean := mean) (parseAll_tidy a1) a2 fun c bases hc e he =>
    baseMeans_same k5 (hmean c bases (((k5 c.1).classesBases c.2).symm.trans hc) e he)
  obtain ⟨o2, p2⟩ := processBases_plain (mean := mean) (parseAll_tidy b1) b2 fun c bases hc e he =>
    baseMeans_same k6 (hmean c bases (((k6 c.1).classesBases c.2).symm.trans hc) e he)
  have hsame : ∀ m, SameAt u u' m := fun m => (k5 m).symm'.trans' (k6 m)
  subst a3 b3
  refine ⟨fun m => ⟨?_, ?_, ?_, ?_, ?_⟩, fun m p => ?_⟩
  · show t.nodes.lookup m = t'.nodes.lookup m
    rw [o1.nodes, o2.nodes]
    exact lookup_dictSet_alike (hsame m).nodes
  · show t.kinds.lookup m = t'.kinds.lookup m
    rw [o1.kinds, o2.kinds]
    exact lookup_dictSet_alike (hsame m).kinds
  · show t.definitions.lookup m = t'.definitions.lookup m
    rw [o1.definitions, o2.definitions]
    exact lookup_dictSet_alike (hsame m).definitions
  · show t.references.lookup m = t'.references.lookup m
    rw [o1.references, o2.references]
    exact lookup_dictSet_alike (hsame m).references
  · show t.submodules.lookup m = t'.submodules.lookup m
    rw [o1.submodules, o2.submodules, (hsame m).submodules]
  · have e1 := p1 (m, p)
    have e2 := p2 (m, p)
    rw [(hsame m).classesBases p, show supersAt u' m p = supersAt u m p by
      rw [supersAt, supersAt, (hsame m).superclasses], ← e1] at e2
    exact e2.symm

/-- **C119** for stub files that can be read in an order in which no module needs a later one, and whose bases
are names that mean something whatever superclasses are recorded. Missing: modules that need each other (see
`C119_refuted`), bases with arguments, and bases that are inherited. -/
theorem C119_plain_partial (E : StubFiles) (rep : Atom → String) (N n : Nat) (order modules modules' : List Path)
    (h : ReadInTurn E N order) (h1 : ∀ m, m ∈ ["builtins"] :: modules ↔ m ∈ ["builtins"] :: order)
    (h2 : ∀ m, m ∈ ["builtins"] :: modules' ↔ m ∈ ["builtins"] :: order) (a b : Stubs)
    (ha : parseStubs E rep n modules = .ok a) (hb : parseStubs E rep n modules' = .ok b) (s : ParseState)
    (hs : parseAll E N order {} = (.ok (), s))
    (hm : ∀ c bases, s.classesBases.lookup c = some bases → ∀ e ∈ bases, ∃ q, BaseMeans n s c e q)
    (R : Runtime) (W : Interpreter Obj) (other : Atom → String) (k : Nat)
    (collect : EvalState Obj → EvalState Obj) (cs : List Callable) (t : EvalState Obj) :
    session (R.on a) (((R.on a).evaluator W other k).after collect) cs t
      = session (R.on b) (((R.on b).evaluator W other k).after collect) cs t :=
  C119_tables_partial a b (plain_sayAlike h h1 h2 ha hb hs hm) R W other k collect cs t

/-! ### Example -/

/-- `b` star-imports `a`, has a generic class with the type variable of `a`, and derives `C` from a class of
`a`; `d` derives from `C`. -/
def plainLayers : StubFiles := filesOf [
  (["builtins"], sampleBuiltins),
  (["typing"], [.classDef "Generic" [] [] [], .classDef "TypeVar" [] [] []]),
  (["a"], [.importFrom (some "typing") [⟨"TypeVar", none⟩] 0,
    .assign [tgt "T"] (.call (nm "TypeVar") [.constant (.str "T")] []),
    .classDef "X" [] [] [meth "run" (nm "int")]]),
  (["b"], [.importFrom (some "a") [⟨"*", none⟩] 0, .importFrom (some "typing") [⟨"Generic", none⟩] 0,
    .classDef "B" [sampleSubscript "Generic" (nm "T")] [] [meth "get" (nm "T")],
    .classDef "C" [nm "X"] [] []]),
  (["d"], [.importFrom (some "b") [⟨"C", none⟩] 0, .classDef "D" [nm "C"] [] []])]

def plainLayersRead : ParseState := (parseAll plainLayers 30 [["a"], ["b"], ["d"], ["typing"]] {}).2

theorem plainLayers_in_turn : ReadInTurn plainLayers 30 [["a"], ["b"], ["d"], ["typing"]] :=
  readInTurn_of (by decide +kernel)

theorem plainLayers_star : BaseMeans 30 plainLayersRead (["b"], ["C"]) (nm "X") (["a"], ["X"]) := by
  refine ⟨["X"], rfl, fun T hd hr hs => ?_⟩
  have h1 : T.definitions.lookup ["b"] = some (.mk [("B", .mk [("get", .mk [])]), ("C", .mk [])]) :=
    (hd _ (by decide)).trans rfl
  have h2 : T.definitions.lookup ["a"] = some (.mk [("T", .mk []), ("X", .mk [("run", .mk [])])]) :=
    (hd _ (by decide)).trans rfl
  have h3 : T.references.lookup ["b"] = some [(["Generic"], (["typing"], ["Generic"]))] :=
    (hr _ (by decide)).trans rfl
  have h4 : T.subs ["b"] = [["a"]] := by
    unfold Tables.subs
    rw [hs]
    rfl
  have h5 : ∀ visited, resolve T 29 ["a"] [] ["X"] visited = .ok (["a"], ["X"]) := fun visited => by
    rw [resolve, h2]
    rfl
  rw [resolve]
  have h6 : tryEach (fun m => resolve T 29 m [] ["X"] ([] ++ [["b"]])) (List.filter (fun m => !([] : List Path).contains m)
      [["a"]]) = some (.ok (["a"], ["X"])) := by
    show tryEach (fun m => resolve T 29 m [] ["X"] ([] ++ [["b"]])) [["a"]] = _
    simp only [tryEach, h5]
  simp only [h1, h3, h4, h6]
  rfl

theorem plainLayers_import : BaseMeans 30 plainLayersRead (["d"], ["D"]) (nm "C") (["b"], ["C"]) := by
  refine ⟨["C"], rfl, fun T hd hr hs => ?_⟩
  have h1 : T.definitions.lookup ["d"] = some (.mk [("D", .mk [])]) := (hd _ (by decide)).trans rfl
  have h2 : T.definitions.lookup ["b"] = some (.mk [("B", .mk [("get", .mk [])]), ("C", .mk [])]) :=
    (hd _ (by decide)).trans rfl
  have h3 : T.references.lookup ["d"] = some [(["C"], (["b"], ["C"]))] := (hr _ (by decide)).trans rfl
  have h4 : T.subs ["d"] = [] := by
    unfold Tables.subs
    rw [hs]
    rfl
  have h5 : ∀ visited, resolve T 29 ["b"] [] ["C"] visited = .ok (["b"], ["C"]) := fun visited => by
    rw [resolve, h2]
    rfl
  rw [resolve]
  simp only [h1, h3, h4, List.filter_nil, tryEach]
  show (match resolve T 29 ["b"] [] ["C"] [["d"]] with
    | .ok (rm, ro) => resolve T 29 rm [] (ro ++ []) [["d"]]
    | .error .objectNotFound => _
    | .error e => .error e) = _
  rw [h5]
  exact h5 _

theorem plainLayers_bases : plainLayersRead.classesBases = [((["builtins"], ["object"]), []),
    ((["builtins"], ["int"]), []), ((["builtins"], ["str"]), []), ((["a"], ["X"]), []), ((["b"], ["B"]), []),
    ((["b"], ["C"]), [nm "X"]), ((["d"], ["D"]), [nm "C"]), ((["typing"], ["Generic"]), []),
    ((["typing"], ["TypeVar"]), [])] := rfl

theorem plainLayers_mean (c : QPath) (bases : List Expr) (h : plainLayersRead.classesBases.lookup c = some bases)
    (e : Expr) (he : e ∈ bases) : ∃ q, BaseMeans 30 plainLayersRead c e q := by
  rw [plainLayers_bases] at h
  have := mem_of_lookup_some h
  simp only [List.mem_cons, List.not_mem_nil, or_false, Prod.mk.injEq] at this
  rcases this with ⟨rfl, rfl⟩ | ⟨rfl, rfl⟩ | ⟨rfl, rfl⟩ | ⟨rfl, rfl⟩ | ⟨rfl, rfl⟩ | ⟨rfl, rfl⟩ | ⟨rfl, rfl⟩ |
    ⟨rfl, rfl⟩ | ⟨rfl, rfl⟩
  case inr.inr.inr.inr.inr.inl => cases List.mem_singleton.1 he; exact ⟨_, plainLayers_star⟩
  case inr.inr.inr.inr.inr.inr.inl => cases List.mem_singleton.1 he; exact ⟨_, plainLayers_import⟩
  all_goals cases he

/-- The hypotheses of `C119_plain_partial` can be met. -/
example : ∃ a b, parseStubs plainLayers sampleRep 30 [["d"], ["b"], ["a"], ["typing"]] = .ok a ∧
    parseStubs plainLayers sampleRep 30 [["typing"], ["b"], ["builtins"], ["d"], ["a"]] = .ok b ∧
    ∀ cs, session (homeRuntime.on a) (((homeRuntime.on a).evaluator sessionPython (fun _ => "") 20).after id) cs
        (initialEval (.form 99))
      = session (homeRuntime.on b) (((homeRuntime.on b).evaluator sessionPython (fun _ => "") 20).after id) cs
        (initialEval (.form 99)) := by
  obtain ⟨a, ha⟩ := stubsRead_ok (E := plainLayers) (rep := sampleRep) (n := 30)
    (modules := [["d"], ["b"], ["a"], ["typing"]]) (by decide +kernel)
  obtain ⟨b, hb⟩ := stubsRead_ok (E := plainLayers) (rep := sampleRep) (n := 30)
    (modules := [["typing"], ["b"], ["builtins"], ["d"], ["a"]]) (by decide +kernel)
  refine ⟨a, b, ha, hb, fun cs => C119_plain_partial plainLayers sampleRep 30 30 _ _ _ plainLayers_in_turn
    (fun m => ?_) (fun m => ?_) a b ha hb plainLayersRead rfl plainLayers_mean homeRuntime sessionPython _ 20 id cs _⟩
  all_goals simp only [List.mem_cons, List.not_mem_nil, or_false]; grind

/-- The inherited method of `D` gets its signature. -/
def plainLayersAnswer (modules : List Path) : Option (List (Except PyErr Sig)) :=
  match parseStubs plainLayers sampleRep 30 modules with
  | .ok T => some (session (homeRuntime.on T) ((homeRuntime.on T).evaluator sessionPython (fun _ => "") 20)
      [.function { module_ := .text "d", qualname := "D.run" } (.error .keyError)] (initialEval (.form 99)))
  | .error _ => none

example : gives (plainLayersAnswer [["d"], ["b"], ["a"], ["typing"]]) = some [true] := by decide +kernel

end Paradigm.Props
