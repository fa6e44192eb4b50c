import Verif.Lemmas.ShapesSession
import Verif.Props.SessionAnswers

/-!
# C108, and C95 and C96 in sessions: calls and what was asked before
-/

namespace Paradigm.Props

open Spec PyCall

/-! ### C108 -/

section

variable (R : Runtime)
  -- two processes with the same stubs, in each of which the evaluation is that of the library
  (W W' : Interpreter Obj) (hW : Ordinary W) (hW' : Ordinary W') (other other' : Atom → String)
  (N N' : Nat) (collect collect' : EvalState Obj → EvalState Obj)
  -- whatever they were asked before, at some time they are asked about the same callable
  (cs cs' : List Callable) (s s' : EvalState Obj) (i j : Nat) (c : Callable)
  (hc : cs[i]? = some c) (hc' : cs'[j]? = some c)
  -- and both give a signature
  (a b : Sig) (ha : (session R ((R.evaluator W other N).after collect) cs s)[i]? = some (.ok a))
  (hb : (session R ((R.evaluator W' other' N').after collect') cs' s')[j]? = some (.ok b))

include hW hW' hc hc' ha hb

/-- **C108.** Two signatures given for a callable, whatever was asked before and whatever its annotations
and defaults evaluate to, have as many overloads, and these have the same parameters but for annotations
and defaults. -/
theorem C108_alike : Alike a b := by
  obtain ⟨d, t, hd, h⟩ := session_state ha
  obtain ⟨d', t', hd', h'⟩ := session_state hb
  rw [hc] at hd
  rw [hc'] at hd'
  cases hd
  cases hd'
  obtain ⟨x, hx, hax⟩ := (fromCallableS_ensues (fun m p e => evaluator_quiet hW N collect m p e) c t).1 a h
  obtain ⟨y, hy, hby⟩ := (fromCallableS_ensues (fun m p e => evaluator_quiet hW' N' collect' m p e) c t').1 b h'
  rw [hx] at hy
  cases hy
  exact hax.trans hby.symm

/-- **C108**, calls: they accept the same calls (complete or not), and the same arguments can be bound. -/
theorem C108_calls (args : List Obj) (kwargs : Kwargs) :
    a.allSet args kwargs = b.allSet args kwargs ∧ a.expects args kwargs = b.expects args kwargs ∧
    (∀ e, a.bind args kwargs = .error e ↔ b.bind args kwargs = .error e) ∧
    ∀ u v, a.bind args kwargs = .ok u → b.bind args kwargs = .ok v → Alike u v := by
  have h := C108_alike R W W' hW hW' other other' N N' collect collect' cs cs' s s' i j c hc hc' a b ha hb
  have hbind := h.bind args kwargs
  refine ⟨h.allSet args kwargs, h.expects args kwargs, fun e => ?_, fun u v hu hv => ?_⟩
  · cases hx : a.bind args kwargs <;> cases hy : b.bind args kwargs <;> rw [hx, hy] at hbind
    · cases (show _ = _ from hbind); exact Iff.rfl
    · exact hbind.elim
    · exact hbind.elim
    · exact ⟨fun g => (nomatch g), fun g => (nomatch g)⟩
  · rw [hu, hv] at hbind
    exact hbind

end

/-! ### C95 and C96 in sessions -/

theorem looksAt_constantly {R : Runtime} {asClass : Bool} {f : Fn} {q : QPath} (h : LooksAt R asClass f q) :
    LooksAt (constantly R) asClass f q := by
  unfold LooksAt at h ⊢
  cases asClass with
  | true =>
    simp only [if_true] at h ⊢
    obtain ⟨paths, builders, h1, h2, h3⟩ := h
    exact ⟨paths, builders, h1, h2.imp fun p _ b _ hb => by
      rw [show classBuilder (constantly R) p = classBuilder R p from classBuilder_ev R _ p]; exact hb, h3⟩
  | false =>
    simp only [Bool.false_eq_true, if_false] at h ⊢
    obtain ⟨others, h⟩ := h
    exact ⟨others, (toQualifiedPaths_ev R _ f).trans h⟩

theorem hasRole_constantly {R : Runtime} {d : FunctionDef} {f : Fn} {m parent : Path} {role : Role} :
    HasRole (constantly R) d f m parent role ↔ HasRole R d f m parent role := by
  cases role <;> exact Iff.rfl

section

variable (R : Runtime) (hd : R.depth ≠ 0)
  -- annotations and defaults are evaluated by the code of the library
  (W : Interpreter Obj) (hW : Ordinary W) (other : Atom → String) (N : Nat)
  (collect : EvalState Obj → EvalState Obj)
  -- any callables are asked about, one after the other; the one in question calls `f` in the end
  (cs : List Callable) (t : EvalState Obj) (i : Nat) (c : Callable) (hc : cs[i]? = some c)
  (args A : List Obj) (kwargs K : Kwargs) (asClass : Bool) (f : Fn)
  (hr : CallsOn c args kwargs asClass f A K)
  -- the stubs define it by these functions
  (q : QPath) (fs : List FunctionDef) (hq : LooksAt R asClass f q) (hdef : DefinedBy R.stubs q fs)
  (hne : fs ≠ []) (hfs : ∀ d ∈ fs, d.args.posonlyargs = [] ∧ Parsed d.args) (hnd : (keys kwargs).Nodup)
  -- a signature is given
  (s : Sig) (hs : (session R ((R.evaluator W other N).after collect) cs t)[i]? = some (.ok s))

include hd hW hc hr hq hdef hne hfs hnd hs

/-- **C95**, in sessions (missing as in `C95_declared_partial`): whatever was asked before, a call that
the signature accepts is accepted by one of the definitions. -/
theorem C95_session_partial
    (hfirst : ∀ d ∈ fs, ∀ role, HasRole R d f q.1 q.2.dropLast role → role ≠ .function → d.args.args ≠ [])
    (hcol : ∀ d ∈ fs, ∀ role ps new, HasRole R d f q.1 q.2.dropLast role →
      Pointwise Declares (formals d.args) ps → ¬ KwCollides ps (callArgs new A role).length (keys K))
    (hset : s.allSet args kwargs = true) :
    ∃ d ∈ fs, ∃ role, HasRole R d f q.1 q.2.dropLast role ∧
      ∀ ps new, Pointwise Declares (formals d.args) ps → Accepts ps (callArgs new A role) K := by
  obtain ⟨c', u, hc', h⟩ := session_state hs
  rw [hc] at hc'
  cases hc'
  obtain ⟨s', hs', hal⟩ := (fromCallableS_ensues (fun m p e => evaluator_quiet hW N collect m p e) c u).1 s h
  obtain ⟨d, hdm, role, hrole, hacc⟩ := C95_declared_partial (constantly R) c args A kwargs K asClass f q fs s' hd
    (fun _ _ _ g => by cases g) hr (looksAt_constantly hq) hdef hne hfs
    (fun d hd role hrole => hfirst d hd role (hasRole_constantly.1 hrole)) hnd
    (fun d hd role ps new hrole => hcol d hd role ps new (hasRole_constantly.1 hrole)) hs'
    (by rw [← hal.allSet]; exact hset)
  exact ⟨d, hdm, role, hasRole_constantly.1 hrole, hacc⟩

/-- **C96**, in sessions (missing as in `C96_accepted_partial`): whatever was asked before, a call that
one of the definitions accepts, and that gives no positional parameter by keyword, is accepted by the
signature. -/
theorem C96_session_partial (d : FunctionDef) (hdm : d ∈ fs) (role : Role) (ps : List Param) (new : Obj)
    (hrole : HasRole R d f q.1 q.2.dropLast role) (hfirst : role ≠ .function → d.args.args ≠ [])
    (hA : role = .method ∨ role = .classMethod → A ≠ [])
    (hps : Pointwise Declares (formals d.args) ps)
    (hno : ∀ p ∈ ps, isPositional p = true → p.name ∉ keys K)
    (hacc : Accepts ps (callArgs new A role) K) : s.allSet args kwargs = true := by
  obtain ⟨c', u, hc', h⟩ := session_state hs
  rw [hc] at hc'
  cases hc'
  obtain ⟨s', hs', hal⟩ := (fromCallableS_ensues (fun m p e => evaluator_quiet hW N collect m p e) c u).1 s h
  rw [hal.allSet]
  exact C96_accepted_partial (constantly R) c args A kwargs K asClass f q fs s' hd (fun _ _ _ g => by cases g) hr
    (looksAt_constantly hq) hdef hne hfs hnd hs' d hdm role ps new (hasRole_constantly.2 hrole) hfirst hA hps
    hno hacc

end

/-! ### Samples -/

/-- The two answers for `g(x: B)` where `A = list[B]` and `B = list[A]`, without and with `f(x: A)` asked
about before: the annotations differ, but the calls are the same. -/
example : ∃ a b,
    (session (sessionRuntime "B" "A") ((sessionRuntime "B" "A").evaluator sessionPython (fun _ => "") 9)
      [sessionG] (initialEval (.form 99)))[0]? = some (.ok a) ∧
    (session (sessionRuntime "B" "A") ((sessionRuntime "B" "A").evaluator sessionPython (fun _ => "") 9)
      [sessionF, sessionG] (initialEval (.form 99)))[1]? = some (.ok b) ∧
    parameterType (.ok a) ≠ parameterType (.ok b) ∧ Alike a b ∧
    ∀ args kwargs, a.allSet args kwargs = b.allSet args kwargs :=
  ⟨_, _, rfl, rfl, (by intro h; cases h),
    C108_alike (sessionRuntime "B" "A") sessionPython sessionPython sessionPython_ordinary
      sessionPython_ordinary (fun _ => "") (fun _ => "") 9 9 (fun s => s) (fun s => s) [sessionG] [sessionF, sessionG]
      (initialEval (.form 99)) (initialEval (.form 99)) 0 1 sessionG rfl rfl _ _ rfl rfl,
    fun args kwargs => (C108_calls (sessionRuntime "B" "A") sessionPython sessionPython sessionPython_ordinary
      sessionPython_ordinary (fun _ => "") (fun _ => "") 9 9 (fun s => s) (fun s => s) [sessionG] [sessionF, sessionG]
      (initialEval (.form 99)) (initialEval (.form 99)) 0 1 sessionG rfl rfl _ _ rfl rfl args kwargs).1⟩

theorem runs_defined : DefinedBy runsRuntime.stubs (["m"], ["C", "run"]) writtenRuns := ⟨_, rfl, rfl⟩

theorem writtenRuns_plain : ∀ f ∈ writtenRuns, f.args.posonlyargs = [] ∧ Parsed f.args := fun d hd =>
  ⟨by
    simp only [writtenRuns, List.mem_cons, List.not_mem_nil, or_false] at hd
    rcases hd with rfl | rfl <;> rfl, writtenRuns_parsed d hd⟩

/-- `C().run(2, z=1)` is accepted after another question, so one of the definitions accepts it. -/
example : ∃ d ∈ writtenRuns, ∃ role, HasRole runsRuntime d fnRun ["m"] ["C"] role ∧
    ∀ ps new, Pointwise Declares (formals d.args) ps → Accepts ps (callArgs new [one, two] role) [("z", one)] := by
  refine C95_session_partial runsRuntime (by decide) sessionPython sessionPython_ordinary (fun _ => "") 9 (fun s => s)
    [.other, .method two (some (one, .ok fnRun)) (.error .keyError)] (initialEval (.form 99)) 1 _ rfl
    [two] [one, two] [("z", one)] [("z", one)] false fnRun (.method _ _ _ _ _ _) (["m"], ["C", "run"]) writtenRuns
    ⟨[], rfl⟩ runs_defined (by simp [writtenRuns]) writtenRuns_plain (by decide) _ rfl ?_ ?_ rfl
  · intro d hd _ _ _
    simp only [writtenRuns, List.mem_cons, List.not_mem_nil, or_false] at hd
    rcases hd with rfl | rfl <;> simp
  · rintro d hd role ps new - hps ⟨⟨p, hp, hk⟩, -⟩
    obtain ⟨x, hx, h⟩ := hps.exists_left hp
    rw [h.kind] at hk
    simp only [writtenRuns, List.mem_cons, List.not_mem_nil, or_false] at hd
    rcases hd with rfl | rfl <;> simp [formals] at hx <;>
      (repeat' (rcases hx with rfl | hx)) <;> simp_all


/-- `def run(self, y: int, *, z=1)` accepts it, so the signature does. -/
example : ∃ s, (session runsRuntime (runsRuntime.evaluator sessionPython (fun _ => "") 9)
      [.other, .method two (some (one, .ok fnRun)) (.error .keyError)] (initialEval (.form 99)))[1]? =
        some (.ok s) ∧ s.allSet [two] [("z", one)] = true := by
  refine ⟨_, rfl, ?_⟩
  refine C96_session_partial runsRuntime (by decide) sessionPython sessionPython_ordinary (fun _ => "") 9 (fun s => s)
    [.other, .method two (some (one, .ok fnRun)) (.error .keyError)] (initialEval (.form 99)) 1 _ rfl
    [two] [one, two] [("z", one)] [("z", one)] false fnRun (.method _ _ _ _ _ _) (["m"], ["C", "run"]) writtenRuns
    ⟨[], rfl⟩ runs_defined (by simp [writtenRuns]) writtenRuns_plain (by decide) _ rfl
    { name := "run"
      args := {
        args := [⟨"self", none⟩, ⟨"y", some (nm "int")⟩]
        kwonlyargs := [⟨"z", none⟩], kwDefaults := [some (.constant (.int 1))] }
      returns := some (nm "Row") } (by simp [writtenRuns]) .method
    [.required anyObj .positionalOrKeyword "self", .required anyObj .positionalOrKeyword "y",
      .optional anyObj (some one) .keywordOnly "z"] one ?_ (fun _ => by simp) (fun _ => by simp) ?_ ?_ ⟨_, rfl⟩
  · exact ⟨rfl, by simp, ⟨_, rfl, rfl⟩⟩
  · exact ⟨⟨rfl, rfl, by simp [Param.isOptional, Variadic, positionalDefault]⟩,
      ⟨rfl, rfl, by simp [Param.isOptional, Variadic, positionalDefault]⟩,
      ⟨rfl, rfl, by simp [Param.isOptional]⟩, trivial⟩
  · intro p hp
    simp only [List.mem_cons, List.not_mem_nil, or_false] at hp
    rcases hp with rfl | rfl | rfl <;> simp [isPositional, Param.name, Param.kind, keys]

end Paradigm.Props
