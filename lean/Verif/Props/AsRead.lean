import Verif.Props.Reading
import Verif.Props.Shapes

/-!
# C109: signatures accept exactly what the definitions, as they are read, accept
-/

namespace Paradigm.Props

open Spec PyCall

/-- **C109.** If the stubs define what is taken for the function that runs when a callable is called (which
it is unless the callable is bound to a class), then the signature of the callable accepts exactly the calls that one of the definitions, as it is read, accepts: parameters before `/` are
overlooked, other positional ones cannot be given by keyword, the first one of a constructor is not given
and that of a (class) method is required. Nothing is assumed about the definitions. -/
theorem C109_exact (R : Runtime) (c : Callable) (args A : List Obj) (kwargs K : Kwargs)
    (asClass : Bool) (f : Fn) (q : QPath) (fs : List FunctionDef) (s : Sig) (hd : R.depth ≠ 0)
    (hev : ∀ m p x, R.ev m p x ≠ .error .signatureNotFound) (hr : ReadsOn c args kwargs asClass f A K)
    (hq : LooksAt R asClass f q) (hdef : DefinedBy R.stubs q fs) (hne : fs ≠ [])
    (hnd : (keys kwargs).Nodup) (hs : fromCallable R c = .ok s) :
    s.allSet args kwargs = true ↔ ∃ d ∈ fs, ∃ role, HasRole R d f q.1 q.2.dropLast role ∧
      FormalsAccept (roleFormals role (readFormals d.args)) A K := by
  obtain ⟨hK, hm, base, hg, hiff⟩ := runs_accepts hd hev hr hq hdef hne hnd hs
  rw [hm.allSet (fromCallable_constructible R c s hs) args kwargs hnd, hiff]
  obtain ⟨ss, hpt, hmade⟩ := hg
  rw [acceptsSig_members, hmade.flatten]
  constructor
  · rintro ⟨p, hp, hacc⟩
    obtain ⟨d, hd', hdp⟩ := hpt.exists_left hp
    obtain ⟨_, role, _, _, hrole, _⟩ := fromFunctionDef_asRead hdp
    exact ⟨d, hd', role, hrole, (fromFunctionDef_accepts hdp hrole hK).1 hacc⟩
  · rintro ⟨d, hd', role, hrole, hacc⟩
    obtain ⟨p, hp, hdp⟩ := hpt.exists_right hd'
    exact ⟨p, hp, (fromFunctionDef_accepts hdp hrole hK).2 hacc⟩

/-- **C109**, in sessions: whatever was asked before, and whatever annotations and defaults evaluate
to. -/
theorem C109_session (R : Runtime) (hd : R.depth ≠ 0)
    (W : Interpreter Obj) (hW : Ordinary W) (other : Atom → String) (N : Nat)
    (collect : EvalState Obj → EvalState Obj)
    (cs : List Callable) (t : EvalState Obj) (i : Nat) (c : Callable) (hc : cs[i]? = some c)
    (args A : List Obj) (kwargs K : Kwargs) (asClass : Bool) (f : Fn)
    (hr : ReadsOn c args kwargs asClass f A K)
    (q : QPath) (fs : List FunctionDef) (hq : LooksAt R asClass f q) (hdef : DefinedBy R.stubs q fs)
    (hne : fs ≠ []) (hnd : (keys kwargs).Nodup)
    (s : Sig) (hs : (session R ((R.evaluator W other N).after collect) cs t)[i]? = some (.ok s)) :
    s.allSet args kwargs = true ↔ ∃ d ∈ fs, ∃ role, HasRole R d f q.1 q.2.dropLast role ∧
      FormalsAccept (roleFormals role (readFormals d.args)) A K := by
  obtain ⟨c', u, hc', h⟩ := session_state hs
  rw [hc] at hc'
  cases hc'
  obtain ⟨s', hs', hal⟩ := (fromCallableS_ensues (fun m p e => evaluator_quiet hW N collect m p e) c u).1 s h
  rw [hal.allSet]
  exact (C109_exact (constantly R) c args A kwargs K asClass f q fs s' hd (fun _ _ _ g => by cases g) hr
    (looksAt_constantly hq) hdef hne hnd hs').trans
    ⟨fun ⟨d, h1, role, h2, h3⟩ => ⟨d, h1, role, hasRole_constantly.1 h2, h3⟩,
      fun ⟨d, h1, role, h2, h3⟩ => ⟨d, h1, role, hasRole_constantly.2 h2, h3⟩⟩

section

variable (W : World) (n k : Nat) (modules : List Path) (index : Index)
  (h : indexModules W n modules = .ok index) (R : Runtime)
  (hs : supportedPaths R.stubs.toTables k index = .ok R.index) (hd : R.depth ≠ 0) (hk : k ≠ 0)
  -- the stubs are read from source files
  (E : StubFiles) (o : Expr → Bool) (ho : Decides E o) (rep : Atom → String) (depth : Nat)
  (stubModules : List Path) (hread : parseStubs E rep depth stubModules = .ok R.stubs)
  -- the object is found where it has been defined
  (m : Path) (classes : List String) (name : String) (v : Value)
  (home : AtHome W modules m classes name v)
  -- it is what the callable asked about calls in the end
  (f : Fn) (hf : f.named = W.named v) (hhas : R.has f (m, classes ++ [name]) = true)
  (c : Callable) (args A : List Obj) (kwargs K : Kwargs) (hnd : (keys kwargs).Nodup)
  -- other places at which it is found lead there
  (hothers : ∀ place ∈ listed index (m, classes ++ [name]), R.has f place = true →
    R.resolve place.1 [] place.2 = .ok (m, classes ++ [name]) ∨
      R.resolve place.1 [] place.2 = .error .objectNotFound)
  -- the source of its module
  (hend : ReadToEnd E (parseAll E depth stubModules {}).2 m) (hspec : m ≠ ["__specializations"])
  (body : List Stmt) (hsrc : E.source m = some body)
  -- a signature is given, whatever was asked before
  (I : Interpreter Obj) (hI : Ordinary I) (other : Atom → String) (N : Nat)
  (collect : EvalState Obj → EvalState Obj)
  (cs : List Callable) (t : EvalState Obj) (i : Nat) (hc : cs[i]? = some c)
  (s : Sig) (hsig : (session R ((R.evaluator I other N).after collect) cs t)[i]? = some (.ok s))

include h hs hd hk hread ho home hf hhas hothers hend hspec hsrc hnd hI hc hsig

/-- **C109** from the source on, functions: if a function, method or builtin of a library module is called
in the end, the calls accepted are exactly those that one of its definitions in the source of the module's
stub, as it is read, accepts. -/
theorem C109_source (hr : ReadsOn c args kwargs false f A K) (fs : List FunctionDef) (hne : fs ≠ [])
    (hnc : classes ++ [name] ∉ classPathsAll o [] body)
    (hfs : declaredAt (declaredAll o [] body) (classes ++ [name]) = fs.map .functionDef) :
    s.allSet args kwargs = true ↔ ∃ d ∈ fs, ∃ role, HasRole R d f m classes role ∧
      FormalsAccept (roleFormals role (readFormals d.args)) A K := by
  obtain ⟨hq, hby⟩ := C101_function W n k modules index h R hs hd hk E o ho rep depth stubModules hread
    m classes name v home f hf hhas hothers hend hspec body hsrc fs hne hnc hfs
  have e : (m, classes ++ [name]).2.dropLast = classes := List.dropLast_concat
  have := C109_session R hd I hI other N collect cs t i c hc args A kwargs K false f hr _ fs hq hby hne hnd s hsig
  rwa [e] at this

/-- **C109** from the source on, classes: if a class of a library module is called in the end, the calls
accepted are exactly those that one of the definitions of `__init__` in the source of the module's stub,
as it is read and without its first parameter, accepts. -/
theorem C109_source_class (l : Labels) (hl : f = .ofClass l) (hr : ReadsOn c args kwargs true f A K)
    (fs : List FunctionDef) (hne : fs ≠ [])
    (hnc : classes ++ [name] ++ ["__init__"] ∉ classPathsAll o [] body)
    (hfs : declaredAt (declaredAll o [] body) (classes ++ [name] ++ ["__init__"])
      = fs.map .functionDef)
    (kind : NodeKind) (hlast : lastKind (kindsDeclaredAll o [] body) (classes ++ [name]) = some kind) :
    s.allSet args kwargs = true ↔ ∃ d ∈ fs, FormalsAccept (readFormals d.args).tail A K := by
  obtain ⟨hq, hby⟩ := C101_class W n k modules index h R hs hd hk E o ho rep depth stubModules hread
    m classes name v home f hf hhas hothers hend hspec body hsrc fs hne hnc hfs kind hlast
  have ht : f.isType = true := by rw [hl]; rfl
  rw [C109_session R hd I hI other N collect cs t i c hc args A kwargs K true f hr _ fs hq hby hne hnd s hsig]
  constructor
  · rintro ⟨d, h1, role, h2, h3⟩
    have : role = .constructor := hasRole_unique h2 (show HasRole R d f _ _ .constructor from ht)
    subst this
    exact ⟨d, h1, h3⟩
  · rintro ⟨d, h1, h3⟩
    exact ⟨d, h1, .constructor, ht, h3⟩

end

/-! ### Samples -/

/-- The function before `/` is overlooked: the signature of `f(a, /)` accepts `f()` and not `f(1)`. -/
example : fromCallable slashedRuntime (.function labF (.ok rawG)) = .ok (.plain ⟨[], .form anyForm⟩) ∧
    readFormals { posonlyargs := [intArg "a"] } = [] ∧
    (FormalsAccept (roleFormals .function (readFormals { posonlyargs := [intArg "a"] })) [] [] ∧
      ¬ FormalsAccept (roleFormals .function (readFormals { posonlyargs := [intArg "a"] })) [one] []) := by
  have exact : ∀ args, PlainSig.allSet ⟨[], .form anyForm⟩ args [] = true ↔
      ∃ d ∈ [({ name := "f", args := { posonlyargs := [intArg "a"] } } : FunctionDef)],
        ∃ role, HasRole slashedRuntime d fnF ["m"] [] role ∧
          FormalsAccept (roleFormals role (readFormals d.args)) args [] := fun args =>
    C109_exact slashedRuntime (.function labF (.ok rawG)) args args [] [] false fnF (["m"], ["f"])
      [{ name := "f", args := { posonlyargs := [intArg "a"] } }] (.plain ⟨[], .form anyForm⟩)
      (by decide) (fun _ _ => evalSample_found) (.alone _ _ _ _ _ (.function _ _)) ⟨[], rfl⟩ ⟨_, rfl, rfl⟩ (by simp)
      (by decide) rfl
  have hrole : HasRole slashedRuntime { name := "f", args := { posonlyargs := [intArg "a"] } } fnF ["m"] []
      .function := ⟨rfl, by simp, defF_function.2.2⟩
  refine ⟨rfl, rfl, ?_, fun g => ?_⟩
  · obtain ⟨d, hd, role, h1, h2⟩ := (exact []).1 rfl
    cases List.mem_singleton.1 hd
    cases hasRole_unique hrole h1
    exact h2
  · have := (exact [one]).2 ⟨_, List.mem_singleton.2 rfl, _, hrole, g⟩
    revert this
    decide

/-- `C().run(2, z=1)` is accepted after another question, and `C().run(y=2)` is not, so the definitions
as read accept the one and not the other. -/
example : ∃ s, (session runsRuntime (runsRuntime.evaluator sessionPython (fun _ => "") 9)
      [.other, .method two (some (one, .ok fnRun)) (.error .keyError)] (initialEval (.form 99)))[1]? =
        some (.ok s) ∧
    (∃ d ∈ writtenRuns, ∃ role, HasRole runsRuntime d fnRun ["m"] ["C"] role ∧
      FormalsAccept (roleFormals role (readFormals d.args)) [one, two] [("z", one)]) ∧
    ¬ ∃ d ∈ writtenRuns, ∃ role, HasRole runsRuntime d fnRun ["m"] ["C"] role ∧
      FormalsAccept (roleFormals role (readFormals d.args)) [one] [("y", two)] := by
  refine ⟨_, rfl, ?_, fun g => ?_⟩
  · exact (C109_session runsRuntime (by decide) sessionPython sessionPython_ordinary (fun _ => "") 9 (fun s => s)
      [.other, .method two (some (one, .ok fnRun)) (.error .keyError)] (initialEval (.form 99)) 1 _ rfl
      [two] [one, two] [("z", one)] [("z", one)] false fnRun (.bound _ _ _ _ _ (.method _ _ _ _)) (["m"], ["C", "run"])
      writtenRuns ⟨[], rfl⟩ runs_defined (by simp [writtenRuns]) (by decide) _ rfl).1 rfl
  · have := (C109_session runsRuntime (by decide) sessionPython sessionPython_ordinary (fun _ => "") 9 (fun s => s)
      [.other, .method two (some (one, .ok fnRun)) (.error .keyError)] (initialEval (.form 99)) 1 _ rfl
      [] [one] [("y", two)] [("y", two)] false fnRun (.bound _ _ _ _ _ (.method _ _ _ _)) (["m"], ["C", "run"])
      writtenRuns ⟨[], rfl⟩ runs_defined (by simp [writtenRuns]) (by decide) _ rfl).2 g
    revert this
    decide

/-- The files of `homeFiles` with the class `int`. -/
def readFiles : StubFiles := filesOf [
  (["builtins"], [.classDef "object" [] [] [.functionDef (defn "__new__")],
    .classDef "int" [nm "object"] [] []]),
  (["m"], [.functionDef defF, .classDef "C" [nm "object"] [] [.functionDef defInit],
    .assign [tgt "g"] (nm "f")])]

/-- The tables read from these files. -/
def readStubs : Stubs :=
  match parseStubs readFiles (fun _ => "") 20 [["m"]] with
  | .ok T => T
  | .error _ => stubsSample

theorem readStubs_read : parseStubs readFiles (fun _ => "") 20 [["m"]] = .ok readStubs := rfl

/-- The runtime with these tables and the index of `ownWorld`. -/
def readRuntime : Runtime := { homeRuntime with stubs := readStubs }

theorem readStubs_end : ReadToEnd readFiles (parseAll readFiles 20 [["m"]] {}).2 ["m"] :=
  C100_in_turn readFiles 20 [] [] ["m"] _ rfl (by decide)

/-- Evaluates an answer and whether it accepts a call. -/
theorem answer_accepts {o : Option (Except PyErr Sig)} {args : List Obj} {kwargs : Kwargs}
    (h : (match o with
      | some (.ok s) => s.allSet args kwargs
      | _ => false) = true) : ∃ s, o = some (.ok s) ∧ s.allSet args kwargs = true := by
  split at h
  · exact ⟨_, rfl, h⟩
  · cases h

/-- The hypotheses of `C109_source` hold for `f` of `readRuntime`: `f(1, c=2)` is accepted. -/
example : ∃ s, (session readRuntime (readRuntime.evaluator sessionPython (fun _ => "") 9)
      [.function labF (.error .keyError)] (initialEval (.form 99)))[0]? = some (.ok s) ∧
    ∃ d ∈ [defF], ∃ role, HasRole readRuntime d fnF ["m"] [] role ∧
      FormalsAccept (roleFormals role (readFormals d.args)) [one] [("c", two)] := by
  obtain ⟨s, hs, hset⟩ := answer_accepts (o := (session readRuntime
    (readRuntime.evaluator sessionPython (fun _ => "") 9) [.function labF (.error .keyError)]
    (initialEval (.form 99)))[0]?) (args := [one]) (kwargs := [("c", two)]) (by decide +kernel)
  refine ⟨s, hs, ?_⟩
  exact (C109_source ownWorld 3 5 [["m"]] _ ownIndex readRuntime rfl (by decide) (by decide) readFiles
    sampleOutcome (filesOf_decides _) (fun _ => "") 20 [["m"]] readStubs_read ["m"] [] "f" (.other 1)
    ownWorld_f fnF rfl rfl (.function labF (.error .keyError)) [one] [one] [("c", two)] [("c", two)] (by decide)
    (fun place hp _ => by
      have hp : place = (["m"], ["f"]) ∨ place = (["m"], ["g"]) := by simpa [listed] using hp
      rcases hp with rfl | rfl
      · exact .inl rfl
      · exact .inl rfl)
    readStubs_end (by decide) _ rfl sessionPython sessionPython_ordinary (fun _ => "") 9 (fun s => s)
    [.function labF (.error .keyError)] (initialEval (.form 99)) 0 rfl _ hs
    (.alone _ _ _ _ _ (.function _ _)) [defF] (by simp) (by decide) rfl).1 hset

/-- The hypotheses of `C109_source_class` hold for `C`: `C(1)` is accepted. -/
example : ∃ s, (session readRuntime (readRuntime.evaluator sessionPython (fun _ => "") 9)
      [.cls labC (.error .keyError)] (initialEval (.form 99)))[0]? = some (.ok s) ∧
    ∃ d ∈ [defInit], FormalsAccept (readFormals d.args).tail [one] [] := by
  obtain ⟨s, hs, hset⟩ := answer_accepts (o := (session readRuntime
    (readRuntime.evaluator sessionPython (fun _ => "") 9) [.cls labC (.error .keyError)]
    (initialEval (.form 99)))[0]?) (args := [one]) (kwargs := []) (by decide +kernel)
  refine ⟨s, hs, ?_⟩
  exact (C109_source_class ownWorld 3 5 [["m"]] _ ownIndex readRuntime rfl (by decide) (by decide) readFiles
    sampleOutcome (filesOf_decides _) (fun _ => "") 20 [["m"]] readStubs_read ["m"] [] "C" (.cls 2)
    ownWorld_C clsC rfl rfl (.cls labC (.error .keyError)) [one] [one] [] [] (by decide)
    (fun place hp _ => by
      have hp : place = (["m"], ["C"]) ∨ place = (["m"], ["D"]) := by
        simpa [listed, List.lookup] using hp
      rcases hp with rfl | rfl
      · exact .inl rfl
      · exact .inr rfl)
    readStubs_end (by decide) _ rfl sessionPython sessionPython_ordinary (fun _ => "") 9 (fun s => s)
    [.cls labC (.error .keyError)] (initialEval (.form 99)) 0 rfl _ hs
    labC rfl (.cls _ _ _ _) [defInit] (by simp) (by decide) rfl .class_ rfl).1 hset

end Paradigm.Props
