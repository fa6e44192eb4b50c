import Verif.Props.BoundWritten
import Verif.Props.InheritedSignature
import Verif.Props.WrittenBases

/-!
# C117 from the sources: methods that the stub of their class does not declare

The hierarchy and the definitions are those written in stub files.
-/

namespace Paradigm.Props

open Spec

section

variable (R : Runtime) (W : Interpreter Obj) (other : Atom → String) (n N : Nat)
  (collect : EvalState Obj → EvalState Obj) (hcollect : Collecting collect) (self : Obj)
  (hN : n ≤ N) (hpos : 0 < N) (hdepth : 2 ≤ R.depth)
  -- the stubs are read from source files
  (E : StubFiles) (rep : Atom → String) (stubDepth : Nat) (stubModules : List Path)
  (hT : parseStubs E rep stubDepth stubModules = .ok R.stubs) (hE : PlainFiles E)
  (href : ∀ t, ∃ v, W.forwardRef t = .ok v)
  -- callables are asked about one after the other
  (cs : List Callable)
  (hr : .error .recursionError ∉ session R ((R.evaluator W other N).after collect) cs (initialEval self))
  (i : Nat) (c : Callable) (hi : cs[i]? = some c)
  -- the function is found where it has been defined
  (L : World) (libraryDepth k : Nat) (modules : List Path) (index : Index)
  (h : indexModules L libraryDepth modules = .ok index)
  (hs : supportedPaths R.stubs.toTables k index = .ok R.index)
  (m : Path) (classes : List String) (x : String) (value : Value) (home : AtHome L modules m classes x value)
  (f : Fn) (hf : f.named = L.named value) (hhas : R.has f (m, classes ++ [x]) = true)
  -- the ancestors of its class are written in stub files, and `q` is the one that declares it
  (o : Expr → Bool) (ho : Decides E o) (bases : QPath → List QPath) (order : List QPath) (q : QPath)
  (hq : WrittenHierarchy E o R.stubs.toTables (parseAll E stubDepth stubModules {}).2 bases (m, classes))
  (hmro : Mro bases (m, classes) order) (hdecided : Decided bases R.stubs.toTables x (m, classes) order q)
  (hdeep : R.resolve m [] (classes ++ [x]) ≠ .error .recursionError)
  (hothers : ∀ place ∈ listed index (m, classes ++ [x]), R.has f place = true →
    R.resolve place.1 [] place.2 = .ok (q.1, q.2 ++ [x]) ∨ R.resolve place.1 [] place.2 = .error .objectNotFound)
  -- with the definitions `fs`
  (body : List Stmt) (hqne : q.1 ≠ []) (hsrc : E.source q.1 = some body) (fs : List FunctionDef) (hne : fs ≠ [])
  (hnc : q.2 ++ [x] ∉ classPathsAll o [] body)
  (hfs : declaredAt (declaredAll o [] body) (q.2 ++ [x]) = fs.map .functionDef)

include hT ho hq hmro hdecided in
theorem decided_answers : Above bases (m, classes) q ∧
    Answers R.stubs.toTables m [] (classes ++ [x]) [] (.ok (q.1, q.2 ++ [x])) := by
  cases hdecided with
  | through above has way =>
    exact ⟨above, (C116_through_written_partial E o ho rep stubDepth stubModules R.stubs hT bases (m, classes) x order q
      hq hmro above has way).1⟩
  | branching hb has simple pre post split first =>
    refine ⟨?_, C116_branching_written_partial E o ho rep stubDepth stubModules R.stubs hT bases (m, classes) x order pre
      post q hq hmro hb simple split has first⟩
    exact hmro.above q (by rw [split]; exact List.mem_append_right _ List.mem_cons_self)

include hT h hs home hf hhas ho hq hmro hdecided hdeep hothers hqne hsrc hne hnc hfs in
theorem written_paths : toQualifiedPaths R f = .ok [(q.1, q.2 ++ [x])] ∧ DefinedBy R.stubs (q.1, q.2 ++ [x]) fs ∧
    ∃ kinds, R.stubs.nodesKinds.lookup q.1 = some kinds ∧ kinds.lookup q.2 = some .class_ := by
  obtain ⟨habove, hans⟩ := decided_answers R E rep stubDepth stubModules hT m classes x o ho bases order q hq hmro
    hdecided
  obtain ⟨qs, hw, -⟩ := hq.written q habove
  obtain ⟨name, body', B, exprs, h1, h2, -, -, h3, -⟩ := hw.written
  rw [hsrc] at h2
  cases h2
  obtain ⟨hnodes, hkinds⟩ := stubs_of_source ho hT hw.read hw.module.1 hsrc
  obtain ⟨kind, hlast, hnk⟩ := kind_of_functions hnc hne hfs
  obtain ⟨-, kinds, hk1, hk2⟩ := hkinds _ _ hlast
  obtain ⟨-, kinds', hk3, hk4⟩ := hkinds _ _ h3
  refine ⟨paths_at (place := (q.1, q.2 ++ [x])) h hs home hf hhas ⟨hqne, by simp⟩ hans hdeep hothers hk1 hk2 hnk,
    hnodes _ _ hnc hne hfs, kinds', hk3, ?_⟩
  rw [h1]
  exact hk4

include hcollect hN hpos hdepth hT hE href hr hi h hs home hf hhas ho hq hmro hdecided hdeep hothers hqne hsrc hne
  hnc hfs in
/-- **C117** from the sources, whatever was asked before: the answer about a method that the stub of its class does
not declare is what is written in the class `q` of the method resolution order. Missing: see `C117_refuted`;
hierarchies with other bases, as generic ones, are covered by `C117_written_partial`. -/
theorem C117_sources_partial (raw : Except PyErr RawSig) (hc : LookedUpAs c f raw)
    (hplain : ∀ d ∈ fs, d.args.posonlyargs = [] ∧ Parsed d.args)
    (hmeans : ∀ d ∈ fs, ∀ e ∈ partsOf d, BitOps e ∧
      ∃ v, meaningOf (lenient W) R.stubs R.depth (selfKnown self) n q.1 q.2 e = .ok v)
    (hdec : ∀ d ∈ fs, ∀ x ∈ d.decorators, Identified R q.1 q.2 x)
    (hfirst : ∀ d ∈ fs, ∀ role, HasRole R d f q.1 q.2 role → role ≠ .function → formals d.args ≠ []) :
    ∃ s, (session R ((R.evaluator W other N).after collect) cs (initialEval self))[i]? = some (.ok s) ∧
      WrittenBy (meaningOf (lenient W) R.stubs R.depth (selfKnown self) n q.1 q.2)
        (fun d => HasRole R d f q.1 q.2) fs s := by
  obtain ⟨hpaths, hby, kinds, hkinds, -⟩ := written_paths R E rep stubDepth stubModules hT L libraryDepth k modules index
    h hs m classes x value home f hf hhas o ho bases order q hq hmro hdecided hdeep hothers body hqne hsrc fs hne hnc
    hfs
  have e : ((q.1, q.2 ++ [x]) : QPath).2.dropLast = q.2 := List.dropLast_concat
  have := answer_at R W other n N collect hcollect self hN hpos hdepth E rep stubDepth stubModules hT hE href cs
    hr i c hi f (q.1, q.2 ++ [x]) hpaths fs hby hne ⟨kinds, hkinds⟩ raw hc hplain
  rw [e] at this
  exact this hmeans hdec hfirst

include hcollect hN hpos hdepth hT hE href hr hi h hs home hf hhas ho hq hmro hdecided hdeep hothers hqne hsrc hne
  hnc hfs in
/-- **C117** for methods that are bound to an instance: the answer is what is written in the class `q`, without the
first parameter. Missing: as above. -/
theorem C117_bound_partial (owner : Obj) (hc : InstanceBound c owner f) (hft : f.isType = false)
    (hplain : ∀ d ∈ fs, d.args.posonlyargs = [] ∧ Parsed d.args)
    (hmeans : ∀ d ∈ fs, ∀ e ∈ partsOf d, BitOps e ∧
      ∃ v, meaningOf (lenient W) R.stubs R.depth (selfKnown self) n q.1 q.2 e = .ok v)
    (hdec : ∀ d ∈ fs, ∀ x ∈ d.decorators, Identified R q.1 q.2 x) (hfirst : ∀ d ∈ fs, formals d.args ≠ []) :
    ∃ s, (session R ((R.evaluator W other N).after collect) cs (initialEval self))[i]? = some (.ok s) ∧
      BoundWrittenBy (meaningOf (lenient W) R.stubs R.depth (selfKnown self) n q.1 q.2)
        (fun d => HasRole R d f q.1 q.2) fs s := by
  obtain ⟨hpaths, hby, kinds, h1, h2⟩ := written_paths R E rep stubDepth stubModules hT L libraryDepth k modules index
    h hs m classes x value home f hf hhas o ho bases order q hq hmro hdecided hdeep hothers body hqne hsrc fs hne hnc
    hfs
  exact bound_at R W other n N collect hcollect self hN hpos hdepth E rep stubDepth stubModules hT hE href cs hr i c hi
    f owner hc hft q.1 q.2 x hpaths fs hby hne kinds h1 h2 hplain hmeans hdec hfirst

end

/-! ### Sample -/

/-- The hierarchy written in `diamondFiles`. -/
def diamondBases (c : QPath) : List QPath :=
  if c = ofM "D" then [ofM "B", ofM "C"] else if c = ofM "B" ∨ c = ofM "C" then [ofM "A"]
  else if c = objectClass then [] else [objectClass]

/-- The stub of `m` in `diamondFiles`. -/
def diamondBody : List Stmt :=
  [.classDef "A" [] [] [meth "f" (nm "int"), meth "g" (nm "int")], .classDef "B" [nm "A"] [] [],
    .classDef "C" [nm "A"] [] [meth "f" (.constant .none)], .classDef "D" [nm "B", nm "C"] [] []]

/-- What reading `diamondFiles` leaves. -/
def diamondState : ParseState := (parseAll diamondFiles 20 [["m"]] {}).2

theorem diamond_parsed : parseAll diamondFiles 20 [["m"]] {} = (.ok (), diamondState) := rfl

theorem diamond_read : ReadToEnd diamondFiles diamondState ["m"] :=
  C100_in_turn diamondFiles 20 [] [] ["m"] _ diamond_parsed (by decide)

theorem diamond_plain (p : Path) :
    PlainlyDerived diamondFiles.isPackage sampleOutcome ["m"] diamondBody p [(["A"], none), (["B"], none), (["C"], none)] where
  bases e he _ := by
    have he : e ∈ [(["A"], []), (["B"], [nm "A"]), (["C"], [nm "A"]), (["D"], [nm "B", nm "C"])] := he
    simp only [List.mem_cons, List.not_mem_nil, or_false] at he
    have key : ∀ b ∈ ["A", "B", "C"], ∃ path, dotted (nm b) = some path ∧
        ToldBy [(["A"], none), (["B"], none), (["C"], none)] path := fun b hb =>
      ⟨[b], rfl, told_own (by simpa using hb)⟩
    rcases he with rfl | rfl | rfl | rfl <;> intro x hx <;>
      simp only [List.mem_cons, List.not_mem_nil, or_false] at hx
    · subst hx; exact key _ (by decide)
    · subst hx; exact key _ (by decide)
    · rcases hx with rfl | rfl
      · exact key _ (by decide)
      · exact key _ (by decide)
  own _ _ _ h := nomatch h
  stars := rfl

theorem diamond_root : WrittenClass diamondFiles sampleOutcome diamondStubs.toTables diamondState objectClass [] where
  read := builtins_readToEnd diamond_parsed
  module := ⟨by decide, by decide⟩
  written := ⟨"object", [.classDef "object" [] [] [meth "__init__" (nm "None")], .classDef "int" [] [] []], [], [], rfl, rfl,
    ⟨(fun e he _ => by
      have he : e ∈ [(["object"], ([] : List Expr)), (["int"], [])] := he
      simp only [List.mem_cons, List.not_mem_nil, or_false] at he
      rcases he with rfl | rfl <;> exact (fun _ h => nomatch h : NamesOnly [] [])), (fun _ h => nomatch h), rfl⟩, rfl, rfl, trivial⟩

theorem diamond_class {name : String} {exprs : List Expr} {qs : List QPath}
    (hlast : lastAt (classDefsAll sampleOutcome [] diamondBody) [name] = some exprs)
    (hkind : lastKind (kindsDeclaredAll sampleOutcome [] diamondBody) [name] = some .class_)
    (hqs : Pointwise (BaseIs diamondFiles diamondStubs.toTables sampleOutcome ["m"] diamondBody
      [(["A"], none), (["B"], none), (["C"], none)]) exprs qs) :
    WrittenClass diamondFiles sampleOutcome diamondStubs.toTables diamondState (ofM name) qs :=
  ⟨diamond_read, ⟨by simp, by simp⟩, name, diamondBody, _, exprs, rfl, rfl, diamond_plain _, hlast, hkind, hqs⟩

theorem diamondBases_above {d : QPath} (hd : Above diamondBases (ofM "D") d) :
    d ∈ [ofM "D", ofM "B", ofM "C", ofM "A", objectClass] :=
  above_closed (S := [ofM "D", ofM "B", ofM "C", ofM "A", objectClass]) (by decide +kernel) hd (by decide)

theorem diamond_written : WrittenHierarchy diamondFiles sampleOutcome diamondStubs.toTables diamondState diamondBases
    (ofM "D") where
  written d hd := by
    have hd := diamondBases_above hd
    simp only [List.mem_cons, List.not_mem_nil, or_false] at hd
    rcases hd with rfl | rfl | rfl | rfl | rfl
    · exact ⟨[ofM "B", ofM "C"], diamond_class (exprs := [nm "B", nm "C"]) rfl rfl ⟨.own rfl rfl, .own rfl rfl, trivial⟩,
        by decide⟩
    · exact ⟨[ofM "A"], diamond_class (exprs := [nm "A"]) rfl rfl ⟨.own rfl rfl, trivial⟩, by decide⟩
    · exact ⟨[ofM "A"], diamond_class (exprs := [nm "A"]) rfl rfl ⟨.own rfl rfl, trivial⟩, by decide⟩
    · exact ⟨[], diamond_class (exprs := []) rfl rfl trivial, by decide⟩
    · exact ⟨[], diamond_root, by decide⟩
  named d hd hn := by
    have : ∀ d ∈ [ofM "D", ofM "B", ofM "C", ofM "A", objectClass], d.2 = ["object"] → d = objectClass := by decide
    exact this d (diamondBases_above hd) hn
  root := diamond_root

theorem diamond_decided (order : List QPath) : Decided diamondBases diamondStubs.toTables "g" (ofM "D") order (ofM "A") :=
  .through (.step (b := ofM "B") (by decide +kernel) (.step (b := ofM "A") (by decide +kernel) (.refl _)))
    (by decide +kernel) fun e he => by
      have : ∀ e ∈ [ofM "D", ofM "B", ofM "C", ofM "A", objectClass], e ≠ ofM "A" →
          ¬ HasMember diamondStubs.toTables "g" e := by decide +kernel
      exact this e (diamondBases_above he.above) he.ne

/-- Questions about `D.f`, `D.g` and `D().g`. -/
def ridersQuestions : List Callable :=
  riderQuestions ++ [.method two (some (one, .ok (.ofFunction { module_ := .text "m", qualname := "D.g" }))) (.error .keyError)]

theorem riders_limit : .error .recursionError ∉ session riderRuntime
    (riderRuntime.evaluator sessionPython (fun _ => "") 9) ridersQuestions (initialEval (.form 99)) := by
  intro h
  simp only [ridersQuestions, riderQuestions, List.cons_append, List.nil_append, session, List.mem_cons,
    List.not_mem_nil, or_false] at h
  rcases h with h | h | h <;> cases h

/-- The hypotheses of `C117_sources_partial` hold for `D.g`. -/
example : ∃ s, (session riderRuntime (riderRuntime.evaluator sessionPython (fun _ => "") 9)
      ridersQuestions (initialEval (.form 99)))[1]? = some (.ok s) ∧
    WrittenBy (meaningOf (lenient sessionPython) riderRuntime.stubs riderRuntime.depth (selfKnown (.form 99)) 3
        ["m"] ["A"])
      (fun d => HasRole riderRuntime d (.ofFunction { module_ := .text "m", qualname := "D.g" }) ["m"] ["A"])
      [riderG] s := by
  refine C117_sources_partial riderRuntime sessionPython (fun _ => "") 3 9 _ keepingAll (.form 99) (by decide)
    (by decide) (by decide) diamondFiles sampleRep 20 [["m"]] rfl diamond_files
    (fun _ => ⟨_, rfl⟩) ridersQuestions riders_limit 1 _ rfl riderWorld 4 9 [["m"]] riderIndex riderIndex_of rfl
    ["m"] ["D"] "g" (.other 3)
    (rider_home "g" 3 (by simp [riderWorld]) rfl (fun x hx => by simp at hx; rcases hx with rfl | rfl <;> decide) .function)
    (.ofFunction { module_ := .text "m", qualname := "D.g" }) rfl rfl sampleOutcome (filesOf_decides _) diamondBases _
    (ofM "A") diamond_written (diamond_mro_of rfl rfl rfl rfl rfl) (diamond_decided _)
    (by rw [show riderRuntime.resolve ["m"] [] (["D"] ++ ["g"]) = .ok (["m"], ["A", "g"]) from rfl]; simp)
    (fun place hp _ => ?_) diamondBody (by simp) rfl [riderG] (by simp) (by decide) rfl _ (.function _ _) ?_ ?_ ?_ ?_
  · have hp : place = (["m"], ["D", "g"]) := by simpa [listed, List.lookup, riderIndex] using hp
    subst hp
    exact .inl rfl
  · intro d hd
    cases List.mem_singleton.1 hd
    exact ⟨rfl, by decide, by decide, by decide⟩
  · intro d hd e he
    cases List.mem_singleton.1 hd
    have : e = nm "int" := by simpa [partsOf, argumentsParts, riderG, Option.toList] using he
    subst this
    exact ⟨trivial, _, rfl⟩
  · intro d hd x hx
    cases List.mem_singleton.1 hd
    cases hx
  · intro d hd _ _ _
    cases List.mem_singleton.1 hd
    decide

/-- The hypotheses of `C117_bound_partial` hold for `D().g`. -/
example : ∃ s, (session riderRuntime (riderRuntime.evaluator sessionPython (fun _ => "") 9)
      ridersQuestions (initialEval (.form 99)))[2]? = some (.ok s) ∧
    BoundWrittenBy (meaningOf (lenient sessionPython) riderRuntime.stubs riderRuntime.depth (selfKnown (.form 99)) 3
        ["m"] ["A"])
      (fun d => HasRole riderRuntime d (.ofFunction { module_ := .text "m", qualname := "D.g" }) ["m"] ["A"])
      [riderG] s := by
  refine C117_bound_partial riderRuntime sessionPython (fun _ => "") 3 9 _ keepingAll (.form 99) (by decide)
    (by decide) (by decide) diamondFiles sampleRep 20 [["m"]] rfl diamond_files
    (fun _ => ⟨_, rfl⟩) ridersQuestions riders_limit 2 _ rfl riderWorld 4 9 [["m"]] riderIndex riderIndex_of rfl
    ["m"] ["D"] "g" (.other 3)
    (rider_home "g" 3 (by simp [riderWorld]) rfl (fun x hx => by simp at hx; rcases hx with rfl | rfl <;> decide) .function)
    (.ofFunction { module_ := .text "m", qualname := "D.g" }) rfl rfl sampleOutcome (filesOf_decides _) diamondBases _
    (ofM "A") diamond_written (diamond_mro_of rfl rfl rfl rfl rfl) (diamond_decided _)
    (by rw [show riderRuntime.resolve ["m"] [] (["D"] ++ ["g"]) = .ok (["m"], ["A", "g"]) from rfl]; simp)
    (fun place hp _ => ?_) diamondBody (by simp) rfl [riderG] (by simp) (by decide) rfl _ (.method _ _ _ _) rfl
    ?_ ?_ ?_ ?_
  · have hp : place = (["m"], ["D", "g"]) := by simpa [listed, List.lookup, riderIndex] using hp
    subst hp
    exact .inl rfl
  · intro d hd
    cases List.mem_singleton.1 hd
    exact ⟨rfl, by decide, by decide, by decide⟩
  · intro d hd e he
    cases List.mem_singleton.1 hd
    have : e = nm "int" := by simpa [partsOf, argumentsParts, riderG, Option.toList] using he
    subst this
    exact ⟨trivial, _, rfl⟩
  · intro d hd x hx
    cases List.mem_singleton.1 hd
    cases hx
  · intro d hd
    cases List.mem_singleton.1 hd
    decide

end Paradigm.Props
