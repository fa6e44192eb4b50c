import Verif.Props.Written

/-!
# C104: signatures of methods say what is written in the stubs
-/

namespace Paradigm.Props

open Spec

/-- A definition inside of a class, used for something other than the class, is one of a method. -/
theorem role_inClass {R : Runtime} {d : FunctionDef} {f : Fn} {m parent : Path} {role : Role}
    (hf : f.isType = false) (hin : InClass R m parent) (h : HasRole R d f m parent role) :
    role = .method ∨ role = .classMethod := by
  cases role with
  | function => exact absurd hin h.2.2
  | method => exact .inl rfl
  | classMethod => exact .inr rfl
  | constructor => rw [show f.isType = true from h] at hf; cases hf

/-- The first parameter of a method can be given by position only. -/
theorem written_first {means : Expr → Except PyErr Obj} {role : Role} {d : FunctionDef} {p : PlainSig}
    (h : Written means role d p) (hr : role = .method ∨ role = .classMethod) :
    ∃ first rest, p.parameters = first :: rest ∧ first.kind = .positionalOnly := by
  obtain ⟨full, -, ha⟩ := h.parameters
  rcases hr with rfl | rfl
  · obtain ⟨first, rest, -, h⟩ := ha
    exact ⟨_, rest, h, rfl⟩
  · obtain ⟨first, rest, -, h⟩ := ha
    exact ⟨_, rest, h, rfl⟩

section

variable (R : Runtime) (W : Interpreter Obj) (other : Atom → String) (n N : Nat)
  (collect : EvalState Obj → EvalState Obj) (hcollect : Collecting collect) (self : Obj)
  (hN : n ≤ N) (hpos : 0 < N) (hdepth : 2 ≤ R.depth)
  (E : StubFiles) (rep : Atom → String) (k : Nat) (stubModules : List Path)
  (hT : parseStubs E rep k stubModules = .ok R.stubs) (hE : PlainFiles E)
  (href : ∀ t, ∃ v, W.forwardRef t = .ok v)
  (cs : List Callable)
  (hr : .error .recursionError ∉ session R ((R.evaluator W other N).after collect) cs (initialEval self))
  (i : Nat) (c : Callable) (hi : cs[i]? = some c)

include hcollect hN hpos hdepth hT hE href hr hi in
/-- The answer about a function of a class that is looked up at one place only and bound to an instance. -/
theorem bound_at (f : Fn) (owner : Obj) (hc : InstanceBound c owner f) (hft : f.isType = false) (m : Path)
    (classes : List String) (name : String) (hpaths : toQualifiedPaths R f = .ok [(m, classes ++ [name])])
    (fs : List FunctionDef) (hby : DefinedBy R.stubs (m, classes ++ [name]) fs) (hne : fs ≠ [])
    (kinds : Dict Path NodeKind) (h1 : R.stubs.nodesKinds.lookup m = some kinds)
    (h2 : kinds.lookup classes = some .class_)
    (hplain : ∀ d ∈ fs, d.args.posonlyargs = [] ∧ Parsed d.args)
    (hmeans : ∀ d ∈ fs, ∀ e ∈ partsOf d, BitOps e ∧
      ∃ v, meaningOf (lenient W) R.stubs R.depth (selfKnown self) n m classes e = .ok v)
    (hdec : ∀ d ∈ fs, ∀ x ∈ d.decorators, Identified R m classes x)
    (hfirst : ∀ d ∈ fs, formals d.args ≠ []) :
    ∃ s, (session R ((R.evaluator W other N).after collect) cs (initialEval self))[i]? = some (.ok s) ∧
      BoundWrittenBy (meaningOf (lenient W) R.stubs R.depth (selfKnown self) n m classes)
        (fun d => HasRole R d f m classes) fs s := by
  have hd : R.depth ≠ 0 := by omega
  have hin : InClass R m classes := ⟨kinds, h1, h2⟩
  have e : (m, classes ++ [name]).2.dropLast = classes := List.dropLast_concat
  have ha := answer_written R W other n N collect hcollect self hN hpos hdepth E rep k stubModules hT hE href cs hr i c hi
    false f (m, classes ++ [name]) fs (by cases hc <;> rfl) (fun q' hq' => by
      obtain ⟨paths, h1, h2⟩ := hq'
      rw [hpaths] at h1
      cases h1
      exact List.mem_singleton.1 h2)
    hby hplain
  rw [e] at ha
  obtain ⟨ev, ss, h3, hno, h4⟩ := ha hmeans hdec ⟨kinds, h1⟩ fun d hd _ _ _ => hfirst d hd
  have hss : ss ≠ [] := by
    rintro rfl
    exact hne h4.nil_right
  obtain ⟨s0, hs0⟩ := madeOf_some hss
  have hl : LooksAt { R with ev := ev } false f (m, classes ++ [name]) :=
    ⟨[], (toQualifiedPaths_ev R ev f).trans hpaths⟩
  have hfn : fromFn { R with ev := ev } f = .ok s0 :=
    ((fromFn_given (R := { R with ev := ev }) hd hl hby hne (by rw [e]; exact hno)).2 s0).2
      ⟨ss, by rw [e]; exact h4.imp fun _ _ _ _ h => h.1, hs0⟩
  obtain ⟨ss', s, h5, h6, h7⟩ := bind_firsts (fun d p hp => by
    obtain ⟨g1, r, g2, g3⟩ := hp
    exact ⟨fromFunctionDef_constructible g1, written_first g3 (role_inClass hft hin g2)⟩) h4 hs0 owner
  refine ⟨s, ?_, ss', h5.imp fun d _ p _ hp => ?_, h6⟩
  · have hfi : fromInstance { R with ev := ev } owner (.ok f) = .ok s := by
      unfold fromInstance
      show (fromFn { R with ev := ev } f >>= fun signature => signature.bind [owner] []) = _
      rw [hfn]
      exact h7
    rw [h3]
    cases hc <;> simp only [fromCallable, hfi, orElse]
  · obtain ⟨first, -, r, g1, g2⟩ := hp
    exact ⟨r, first, g1, g2⟩

end

section

variable (R : Runtime) (W : Interpreter Obj) (other : Atom → String) (n N : Nat)
  (collect : EvalState Obj → EvalState Obj) (hcollect : Collecting collect) (self : Obj)
  (hN : n ≤ N) (hpos : 0 < N) (hdepth : 2 ≤ R.depth)
  -- the stubs are read from source files
  (E : StubFiles) (rep : Atom → String) (k : Nat) (stubModules : List Path)
  (hT : parseStubs E rep k stubModules = .ok R.stubs) (hE : PlainFiles E)
  (href : ∀ t, ∃ v, W.forwardRef t = .ok v)
  -- callables are asked about one after the other
  (cs : List Callable)
  (hr : .error .recursionError ∉ session R ((R.evaluator W other N).after collect) cs (initialEval self))
  (i : Nat) (c : Callable) (hi : cs[i]? = some c)
  (L : World) (libraryDepth indexDepth : Nat) (modules : List Path) (index : Index)
  (h : indexModules L libraryDepth modules = .ok index)
  (hs : supportedPaths R.stubs.toTables indexDepth index = .ok R.index) (hk : indexDepth ≠ 0)
  (o : Expr → Bool) (ho : Decides E o)
  -- the function is found where it has been defined
  (m : Path) (classes : List String) (name : String) (v : Value)
  (home : AtHome L modules m classes name v)
  (f : Fn) (hf : f.named = L.named v) (hhas : R.has f (m, classes ++ [name]) = true)
  -- other places at which it is found lead there
  (hothers : ∀ place ∈ listed index (m, classes ++ [name]), R.has f place = true →
    R.resolve place.1 [] place.2 = .ok (m, classes ++ [name]) ∨
      R.resolve place.1 [] place.2 = .error .objectNotFound)
  -- the source of its module
  (hend : ReadToEnd E (parseAll E k stubModules {}).2 m) (hspec : m ≠ ["__specializations"])
  (body : List Stmt) (hsrc : E.source m = some body)
  -- the callable is the function bound to an instance
  (owner : Obj) (hc : InstanceBound c owner f) (hft : f.isType = false)

include hcollect hN hpos hdepth hT hE href hr hi h hs hk ho home hf hhas hothers hend hspec hsrc hc hft in
/-- **C104**: whatever was asked before, the signature of a method of a library class, bound to an
instance, is what the definitions in the source of the stub of the class say, without the first
parameter. -/
theorem C104_method (fs : List FunctionDef) (hne : fs ≠ [])
    (hnc : classes ++ [name] ∉ classPathsAll o [] body)
    (hfs : declaredAt (declaredAll o [] body) (classes ++ [name]) = fs.map .functionDef)
    (hclass : lastKind (kindsDeclaredAll o [] body) classes = some .class_)
    (hplain : ∀ d ∈ fs, d.args.posonlyargs = [] ∧ Parsed d.args)
    (hmeans : ∀ d ∈ fs, ∀ e ∈ partsOf d, BitOps e ∧
      ∃ v, meaningOf (lenient W) R.stubs R.depth (selfKnown self) n m classes e = .ok v)
    (hdec : ∀ d ∈ fs, ∀ x ∈ d.decorators, Identified R m classes x)
    (hfirst : ∀ d ∈ fs, formals d.args ≠ []) :
    ∃ s, (session R ((R.evaluator W other N).after collect) cs (initialEval self))[i]? = some (.ok s) ∧
      BoundWrittenBy (meaningOf (lenient W) R.stubs R.depth (selfKnown self) n m classes)
        (fun d => HasRole R d f m classes) fs s := by
  have hd : R.depth ≠ 0 := by omega
  have hpaths := own_paths L libraryDepth indexDepth modules index h R hs hd hk E o ho rep k stubModules hT m
    classes name v home f hf hhas hothers hend hspec body hsrc fs hne hnc hfs
  obtain ⟨hnodes, hkinds⟩ := stubs_of_source ho hT hend hspec hsrc
  obtain ⟨-, kinds, h1, h2⟩ := hkinds _ _ hclass
  exact bound_at R W other n N collect hcollect self hN hpos hdepth E rep k stubModules hT hE href cs hr i c hi f owner hc
    hft m classes name hpaths fs (hnodes _ _ hnc hne hfs) hne kinds h1 h2 hplain hmeans hdec hfirst

end

/-! ### Sample -/

/-- `def run(self, x: Row) -> int` and `def run(self, y: int, *, z=1) -> Row`. -/
def writtenRuns : List FunctionDef := [
  { name := "run", args := { args := [⟨"self", none⟩, ⟨"x", some (nm "Row")⟩] }, returns := some (nm "int") },
  { name := "run"
    args := {
      args := [⟨"self", none⟩, ⟨"y", some (nm "int")⟩]
      kwonlyargs := [⟨"z", none⟩], kwDefaults := [some (.constant (.int 1))] }
    returns := some (nm "Row") }]

/-- The stub of `m` with `Row = list[int]` and a class with these methods. -/
def runsFiles : StubFiles := filesOf [
  (["builtins"], [.classDef "object" [] [] [], .classDef "int" [] [] [], .classDef "list" [] [] []]),
  (["m"], [.assign [tgt "Row"] (sampleSubscript "list" (nm "int")),
    .classDef "C" [nm "object"] [] (writtenRuns.map .functionDef)])]

def runsStubs : Stubs :=
  match parseStubs runsFiles (fun _ => "") 20 [["m"]] with
  | .ok T => T
  | .error _ => stubsSample

theorem runsStubs_read : parseStubs runsFiles (fun _ => "") 20 [["m"]] = .ok runsStubs := rfl

theorem runsStubs_end : ReadToEnd runsFiles (parseAll runsFiles 20 [["m"]] {}).2 ["m"] :=
  C100_in_turn runsFiles 20 [] [] ["m"] _ rfl (by decide)

/-- The module `m` with the class and its method. -/
def runsWorld : World where
  vars
    | 0 => [("C", .cls 2)]
    | 2 => [("run", .other 3)]
    | _ => []
  classes _ := (.text "m", "C")
  others
    | 3 => .function (.text "m") "C.run"
    | _ => .other
  importModule m := if m = ["m"] then some 0 else none

theorem runsIndex : indexModules runsWorld 3 [["m"]] =
    .ok [(["m"], [(["C"], [(["m"], ["C"])]), (["C", "run"], [(["m"], ["C", "run"])])])] := rfl

def runsRuntime : Runtime :=
  { homeRuntime with
    stubs := runsStubs
    index := [(["m"], [(["C"], [(["m"], ["C"])]), (["C", "run"], [(["m"], ["C", "run"])])])] }

theorem runsWorld_run : AtHome runsWorld [["m"]] ["m"] ["C"] "run" (.other 3) :=
  ⟨by simp, ⟨0, [2], rfl, .inside (.head _) (.other (.head _)), by simp⟩, ⟨by simp, by decide⟩,
    fun x hx => by
      simp only [List.map_cons, List.map_nil, List.mem_cons, List.not_mem_nil, or_false] at hx
      rcases hx with rfl | rfl <;> decide, .function⟩

theorem runs_files : PlainFiles runsFiles := by
  refine files_plain fun mb hmb => ?_
  simp only [List.mem_cons, List.not_mem_nil, or_false] at hmb
  rcases hmb with rfl | rfl <;>
    simp [AllPlainlyAssigning, PlainlyAssigning, PlainAssignment, BitOps, BitOpsAll, BitOpsKw, writtenRuns, sampleSubscript, nm, tgt]

/-- The function `C.run`. -/
def fnRun : Fn := .ofFunction { module_ := .text "m", qualname := "C.run" }

/-- `C().run`, after a question that fails. -/
def runsQuestions : List Callable := [.other, .method two (some (one, .ok fnRun)) (.error .keyError)]

/-- The hypotheses of `C104_method` hold for it. -/
example : ∃ s, (session runsRuntime (runsRuntime.evaluator sessionPython (fun _ => "") 9)
      runsQuestions (initialEval (.form 99)))[1]? = some (.ok s) ∧
    BoundWrittenBy (meaningOf (lenient sessionPython) runsRuntime.stubs runsRuntime.depth
        (selfKnown (.form 99)) 3 ["m"] ["C"])
      (fun d => HasRole runsRuntime d fnRun ["m"] ["C"]) writtenRuns s := by
  refine C104_method runsRuntime sessionPython (fun _ => "") 3 9 _ keepingAll (.form 99) (by decide) (by decide)
    (by decide) runsFiles (fun _ => "") 20 [["m"]] runsStubs_read runs_files
    (fun _ => ⟨_, rfl⟩) runsQuestions ?_ 1 _ rfl runsWorld 3 5
    [["m"]] _ runsIndex rfl (by decide) sampleOutcome (filesOf_decides _) ["m"] ["C"] "run" (.other 3)
    runsWorld_run fnRun rfl rfl (fun place hp _ => ?_) runsStubs_end (by decide) _ rfl one
    (.method two one fnRun (.error .keyError)) rfl writtenRuns (by simp [writtenRuns]) (by decide) rfl rfl
    ?_ ?_ ?_ ?_
  · intro h
    simp only [runsQuestions, session, List.mem_cons, List.not_mem_nil, or_false] at h
    rcases h with h | h <;> cases h
  · have hp : place = (["m"], ["C", "run"]) := by simpa [listed, List.lookup] using hp
    subst hp
    exact .inl rfl
  · intro d hd
    simp only [writtenRuns, List.mem_cons, List.not_mem_nil, or_false] at hd
    rcases hd with rfl | rfl <;> exact ⟨rfl, by decide, by decide, by decide⟩
  · intro d hd e he
    simp only [writtenRuns, List.mem_cons, List.not_mem_nil, or_false] at hd
    rcases hd with rfl | rfl <;>
    · simp only [partsOf, argumentsParts, List.filterMap, Option.toList, List.append_nil,
        List.cons_append, List.nil_append, List.mem_cons, List.not_mem_nil, or_false, id] at he
      rcases he with rfl | rfl | rfl <;> exact ⟨trivial, _, rfl⟩
  · intro d hd x hx
    simp only [writtenRuns, List.mem_cons, List.not_mem_nil, or_false] at hd
    rcases hd with rfl | rfl <;> cases hx
  · intro d hd
    simp only [writtenRuns, List.mem_cons, List.not_mem_nil, or_false] at hd
    rcases hd with rfl | rfl <;> decide

/-- The signature is `(x: list[int]) -> int` or `(y: int, *, z=1) -> list[int]`. -/
example : session runsRuntime (runsRuntime.evaluator sessionPython (fun _ => "") 9) runsQuestions
    (initialEval (.form 99)) = [.error (.typeError "not supported"),
      .ok (.overloaded [⟨[.required (.pep585 92 [.cls 91]) .positionalOnly "x"], .cls 91⟩,
        ⟨[.required (.cls 91) .positionalOnly "y",
          .optional (.form anyForm) (some (.atom (.int 1))) .keywordOnly "z"], .pep585 92 [.cls 91]⟩])] := rfl

end Paradigm.Props
