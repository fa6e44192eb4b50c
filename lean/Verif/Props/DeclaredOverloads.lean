import Verif.Lemmas.Overloads
import Verif.Props.BoundWritten

/-!
# C29: one plain signature for each declaration
-/

namespace Paradigm.Props

open Spec

theorem session_state {R : Runtime} {E : Evaluator} : ∀ {cs : List Callable} {s : EvalState Obj} {i : Nat}
    {r : Except PyErr Sig}, (session R E cs s)[i]? = some r →
    ∃ c t, cs[i]? = some c ∧ (fromCallableS R E c t).1 = r
  | [], s, i, r, h => by simp [session] at h
  | c :: cs, s, 0, r, h => by
    simp only [session, List.getElem?_cons_zero, Option.some.injEq] at h
    exact ⟨c, s, rfl, h⟩
  | c :: cs, s, i + 1, r, h => by
    simp only [session, List.getElem?_cons_succ] at h ⊢
    exact session_state h

section

variable (R : Runtime) (hd : R.depth ≠ 0)
  -- annotations and defaults are evaluated by the code of the library
  (W : Interpreter Obj) (hW : Ordinary W) (other : Atom → String) (N : Nat)
  (collect : EvalState Obj → EvalState Obj)
  -- the stubs define the callable by these functions
  (q : QPath) (fs : List FunctionDef) (hdef : DefinedBy R.stubs q fs) (hne : fs ≠ [])
  (hfs : ∀ f ∈ fs, Parsed f.args)
  -- any callables are asked about, one after the other
  (cs : List Callable) (s : EvalState Obj) (i : Nat) (sig : Sig)
  (hi : (session R ((R.evaluator W other N).after collect) cs s)[i]? = some (.ok sig))

include hd hW hdef hne hfs hi

/-- **C29**, callables looked up by their names: the signature has one plain signature per declaration,
in the order of the declarations; one declaration gives a plain signature. Whatever was asked before,
`inspect` is not consulted. -/
theorem C29_function (callable : Callable) (f : Fn) (raw : Except PyErr RawSig)
    (hc : cs[i]? = some callable) (hl : LookedUpAs callable f raw) (hq : LooksAt R false f q) :
    OnePerDeclaration false fs sig := by
  obtain ⟨c, t, hc', hr⟩ := session_state hi
  rw [hc] at hc'
  cases hc'
  have key := fromFnS_declared (E := (R.evaluator W other N).after collect) (fun m p e => evaluator_quiet hW N collect m p e) hd
    hdef hne (fun f hf => (hfs f hf).kwDefaults) hq
  have ht : f.isType = false := by cases hl <;> rfl
  have he : fromCallableS R ((R.evaluator W other N).after collect) callable =
      catchNotFound (fromFnS R ((R.evaluator W other N).after collect) f) (Ev.lift (fromInspect raw)) := by
    cases hl <;> rfl
  rw [he, catchNotFound_quiet key] at hr
  rw [ht] at key
  exact ((key t).2 sig hr).declared

/-- **C29**, classes: the same for a class and the declarations of its constructor. -/
theorem C29_class (l : Labels) (raw : Except PyErr RawSig) (hc : cs[i]? = some (.cls l raw))
    (hq : LooksAt R true (.ofClass l) q) : OnePerDeclaration true fs sig := by
  obtain ⟨c, t, hc', hr⟩ := session_state hi
  rw [hc] at hc'
  cases hc'
  have key := fromClassS_declared (E := (R.evaluator W other N).after collect) (fun m p e => evaluator_quiet hW N collect m p e) hd
    hdef hne (fun f hf => (hfs f hf).kwDefaults) hq
  rw [fromCallableS, catchNotFound_quiet key] at hr
  exact ((key t).2 sig hr).declared

/-- **C29**, callables bound to instances: the same, for the functions of a class and for those with a
positional parameter. -/
theorem C29_bound (callable : Callable) (owner : Obj) (g : Fn) (hc : cs[i]? = some callable)
    (hb : InstanceBound callable owner g) (hg : g.isType = false) (hq : LooksAt R false g q)
    (hargs : (∃ kinds, R.stubs.nodesKinds.lookup q.1 = some kinds ∧
        kinds.lookup q.2.dropLast = some .class_) ∨ ∀ f ∈ fs, f.args.args ≠ []) : OnePerDeclaration true fs sig := by
  obtain ⟨c, t, hc', hr⟩ := session_state hi
  rw [hc] at hc'
  cases hc'
  have key := fromFnS_declared (E := (R.evaluator W other N).after collect) (fun m p e => evaluator_quiet hW N collect m p e) hd
    hdef hne (fun f hf => (hfs f hf).kwDefaults) hq
  rw [hg] at key
  have hinst : Yields (OnePerDeclaration true fs)
      (fromInstanceS R ((R.evaluator W other N).after collect) owner (.ok g)) := by
    refine Yields.bind (P := fun x => x = g) (Yields.lift (by simp) fun x hx => by cases hx; rfl) ?_
    rintro _ rfl
    refine key.bind fun u hu => ?_
    obtain ⟨h1, h2⟩ := bind_declared (fun f hf => hargs.symm.imp_left fun h => h f hf) (self := owner) hu
    exact Yields.lift h1 h2
  obtain ⟨raw, he⟩ : ∃ raw, fromCallableS R ((R.evaluator W other N).after collect) callable =
      catchNotFound (fromInstanceS R ((R.evaluator W other N).after collect) owner (.ok g)) (Ev.lift (fromInspect raw)) := by
    cases hb <;> exact ⟨_, rfl⟩
  rw [he, catchNotFound_quiet hinst] at hr
  exact (hinst t).2 sig hr

end

section

variable (R : Runtime) (hd : R.depth ≠ 0) (W : Interpreter Obj) (hW : Ordinary W) (other : Atom → String)
  (N : Nat) (collect : EvalState Obj → EvalState Obj)
  -- the stubs are read from source files
  (E : StubFiles) (o : Expr → Bool) (ho : Decides E o) (rep : Atom → String) (depth : Nat)
  (stubModules : List Path) (hread : parseStubs E rep depth stubModules = .ok R.stubs)
  -- the source of a module has these declarations at a path, in this order
  (m p : Path) (hend : ReadToEnd E (parseAll E depth stubModules {}).2 m) (hspec : m ≠ ["__specializations"])
  (body : List Stmt) (hsrc : E.source m = some body) (fs : List FunctionDef) (hne : fs ≠ [])
  (hnc : p ∉ classPathsAll o [] body) (hfs : declaredAt (declaredAll o [] body) p = fs.map .functionDef)
  (hparsed : ∀ f ∈ fs, Parsed f.args)
  (cs : List Callable) (s : EvalState Obj) (i : Nat) (sig : Sig)
  (hi : (session R ((R.evaluator W other N).after collect) cs s)[i]? = some (.ok sig))

include hd hW ho hread hend hspec hsrc hne hnc hfs hparsed hi

/-- **C29**, from the source on: the signature of a callable for which this module and path are looked at
has one plain signature for each declaration in the source, in source order. -/
theorem C29_source (callable : Callable) (f : Fn) (hc : cs[i]? = some callable) :
    (∀ raw, LookedUpAs callable f raw → LooksAt R false f (m, p) → OnePerDeclaration false fs sig) ∧
    (∀ l raw, callable = .cls l raw → LooksAt R true (.ofClass l) (m, p) →
      OnePerDeclaration true fs sig) ∧
    ∀ owner, InstanceBound callable owner f → f.isType = false → LooksAt R false f (m, p) →
      lastKind (kindsDeclaredAll o [] body) p.dropLast = some .class_ ∨ (∀ f ∈ fs, f.args.args ≠ []) →
      OnePerDeclaration true fs sig := by
  have hread := stubs_of_source ho hread hend hspec hsrc
  have hdef := hread.1 p fs hnc hne hfs
  refine ⟨fun raw hl hq => ?_, fun l raw he hq => ?_, fun owner hb hg hq hargs => ?_⟩
  · exact C29_function R hd W hW other N collect (m, p) fs hdef hne hparsed cs s i sig hi callable f raw hc hl hq
  · subst he
    exact C29_class R hd W hW other N collect (m, p) fs hdef hne hparsed cs s i sig hi l raw hc hq
  · exact C29_bound R hd W hW other N collect (m, p) fs hdef hne hparsed cs s i sig hi callable owner f hc hb hg hq
      (hargs.imp_left fun h => (hread.2 _ _ h).2)

end

/-! ### Samples -/

theorem sessionPython_ordinary : Ordinary sessionPython where
  importModule m := by simp only [sessionPython]; split <;> simp
  getattr v name := by simp only [sessionPython]; split <;> (repeat' split) <;> simp
  getitem v i := by simp only [sessionPython]; split <;> simp
  call _ _ _ := by simp [sessionPython]
  unary _ _ := by simp [sessionPython]
  binary _ _ _ := by simp [sessionPython]
  union _ _ := by simp [sessionPython]
  dict _ := by simp [sessionPython]
  forwardRef _ := by simp [sessionPython]
  newClass _ _ _ := by simp [sessionPython]
  define _ _ := by simp [sessionPython]

/-- `C.run` after `C().run`. -/
def declaredQuestions : List Callable :=
  [.method two (some (one, .ok fnRun)) (.error .keyError),
    .function { module_ := .text "m", qualname := "C.run" } (.error .keyError)]

theorem writtenRuns_parsed : ∀ f ∈ writtenRuns, Parsed f.args := by
  intro d hd
  simp only [writtenRuns, List.mem_cons, List.not_mem_nil, or_false] at hd
  rcases hd with rfl | rfl <;> exact ⟨by decide, by decide, by decide⟩

/-- The function `C.run` keeps both declarations. -/
example : ∃ s, (session runsRuntime (runsRuntime.evaluator sessionPython (fun _ => "") 9) declaredQuestions
      (initialEval (.form 99)))[1]? = some (.ok s) ∧ OnePerDeclaration false writtenRuns s :=
  ⟨_, rfl, (C29_source runsRuntime (by decide) sessionPython sessionPython_ordinary (fun _ => "") 9 (fun s => s)
    runsFiles sampleOutcome (filesOf_decides _) (fun _ => "") 20 [["m"]] runsStubs_read ["m"] ["C", "run"]
    runsStubs_end (by decide) _ rfl writtenRuns (by simp [writtenRuns]) (by decide) rfl writtenRuns_parsed
    declaredQuestions (initialEval (.form 99)) 1 _ rfl _ fnRun rfl).1 _ (.function _ _) ⟨_, rfl⟩⟩

/-- So does the method of an instance, without `self`. -/
example : ∃ s, (session runsRuntime (runsRuntime.evaluator sessionPython (fun _ => "") 9) declaredQuestions
      (initialEval (.form 99)))[0]? = some (.ok s) ∧ OnePerDeclaration true writtenRuns s :=
  ⟨_, rfl, (C29_source runsRuntime (by decide) sessionPython sessionPython_ordinary (fun _ => "") 9 (fun s => s)
    runsFiles sampleOutcome (filesOf_decides _) (fun _ => "") 20 [["m"]] runsStubs_read ["m"] ["C", "run"]
    runsStubs_end (by decide) _ rfl writtenRuns (by simp [writtenRuns]) (by decide) rfl writtenRuns_parsed
    declaredQuestions (initialEval (.form 99)) 0 _ rfl _ fnRun rfl).2.2 one (.method two one fnRun _) rfl
    ⟨_, rfl⟩ (.inl rfl)⟩

/-- The class `C` has the parameters of `__init__`. -/
example : ∃ s, (session writtenRuntime (writtenRuntime.evaluator sessionPython (fun _ => "") 9)
      writtenQuestions (initialEval (.form 99)))[2]? = some (.ok s) ∧
    OnePerDeclaration true [writtenInit] s :=
  ⟨_, rfl, (C29_source writtenRuntime (by decide) sessionPython sessionPython_ordinary (fun _ => "") 9 (fun s => s)
    writtenFiles sampleOutcome (filesOf_decides _) (fun _ => "") 20 [["m"]] writtenStubs_read ["m"]
    ["C", "__init__"] writtenStubs_end (by decide) _ rfl [writtenInit] (by simp) (by decide) rfl
    (by intro d hd; cases List.mem_singleton.1 hd; exact ⟨by decide, by decide, by decide⟩)
    writtenQuestions (initialEval (.form 99)) 2 _ rfl _ clsC rfl).2.1 labC _ rfl
    ⟨[(["m"], ["C"])], [(["m"], ["C", "__init__"])], rfl, ⟨rfl, trivial⟩, ⟨by simp, by simp⟩⟩⟩

end Paradigm.Props
