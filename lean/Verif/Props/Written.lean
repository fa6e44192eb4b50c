import Verif.Lemmas.Written
import Verif.Props.Session
import Verif.Lemmas.Filled

/-!
# C103: signatures say what is written in the stubs
-/

namespace Paradigm.Props

open Spec

section

variable (R : Runtime) (W : Interpreter Obj) (other : Atom → String) (n N : Nat)
  (collect : EvalState Obj → EvalState Obj) (hcollect : Collecting collect) (self : Obj)
  (hN : n ≤ N) (hpos : 0 < N) (hdepth : 2 ≤ R.depth)
  -- the stubs are read from source files
  (E : StubFiles) (rep : Atom → String) (k : Nat) (stubModules : List Path)
  (hT : parseStubs E rep k stubModules = .ok R.stubs) (hE : PlainFiles E)
  (href : ∀ t, ∃ v, W.forwardRef t = .ok v)
  -- callables are asked about one after the other
  (cs : List Callable)
  (hr : .error .recursionError ∉ session R ((R.evaluator W other N).after collect) cs (initialEval self))
  (i : Nat) (c : Callable) (hi : cs[i]? = some c)

include hcollect in
/-- The evaluation of an expression with a meaning, at first. -/
theorem first_answer {m parent : Path} {e : Expr} (hdepth : 2 ≤ R.depth) (hN : n ≤ N)
    (hdef : ∀ q e, aliasValue R.stubs q = some e → DefinedIn R.stubs.toTables q.1 q.2)
    (hops : ∀ q e, aliasValue R.stubs q = some e → BitOps e)
    (href : ∀ t, ∃ v, W.forwardRef t = .ok v) (hb : BitOps e) {v : Obj}
    (hm : meaningOf (lenient W) R.stubs R.depth (selfKnown self) n m parent e = .ok v) :
    ((R.evaluator W other N).after collect m parent e (initialEval self)).1 = .ok v := by
  obtain ⟨t, ht, -⟩ := evaluateNode_steady (other := other) hN hdepth hdef hops href hb hm
    (collected_good (hcollect _) (initialEval_good (lenient W) R.stubs R.depth self))
  exact congrArg Prod.fst ht

include hcollect hN hpos hdepth hT hE href hr hi in
/-- Whatever was asked before, the answer about a callable that is looked up at one place is made from
what is written there. -/
theorem answer_written (asClass : Bool) (f : Fn) (q : QPath) (fs : List FunctionDef)
    (hfor : lookedFor c = [(asClass, f)]) (hat : ∀ q', LookedUp R asClass f q' → q' = q)
    (hby : DefinedBy R.stubs q fs)
    (hplain : ∀ d ∈ fs, d.args.posonlyargs = [] ∧ Parsed d.args)
    (hmeans : ∀ d ∈ fs, ∀ e ∈ partsOf d, BitOps e ∧
      ∃ v, meaningOf (lenient W) R.stubs R.depth (selfKnown self) n q.1 q.2.dropLast e = .ok v)
    (hdec : ∀ d ∈ fs, ∀ x ∈ d.decorators, Identified R q.1 q.2.dropLast x)
    (hmod : ∃ kinds, R.stubs.nodesKinds.lookup q.1 = some kinds)
    (hfirst : ∀ d ∈ fs, ∀ role, HasRole R d f q.1 q.2.dropLast role → role ≠ .function →
      formals d.args ≠ []) :
    ∃ ev ss, (session R ((R.evaluator W other N).after collect) cs (initialEval self))[i]? =
        some (fromCallable { R with ev := ev } c) ∧
      (∀ d ∈ fs, fromFunctionDef { R with ev := ev } d f q.1 q.2.dropLast ≠ .error .signatureNotFound) ∧
      Pointwise (fun d p => fromFunctionDef { R with ev := ev } d f q.1 q.2.dropLast = .ok (.plain p) ∧
        ∃ r, HasRole R d f q.1 q.2.dropLast r ∧
          Written (meaningOf (lenient W) R.stubs R.depth (selfKnown self) n q.1 q.2.dropLast) r d p) fs ss := by
  have hread : ∀ m parent e, MayRead R c m parent e → Settled R W self n m parent e := by
    rintro m parent e ⟨x, hx, q', node, hq', hstored, hreads⟩
    rw [hfor, List.mem_singleton] at hx
    subst hx
    cases hat q' hq'
    obtain ⟨nodes, stmts, h1, h2, h3⟩ := hstored
    obtain ⟨nodes', g1, g2⟩ := hby
    rw [h1] at g1
    cases g1
    rw [h2] at g2
    cases g2
    obtain ⟨d, hd, rfl⟩ := List.mem_map.1 h3
    have settled : ∀ e ∈ partsOf d, Settled R W self n q.1 q.2.dropLast e := fun e he =>
      .inl (hmeans d hd e he)
    cases hreads with
    | parameter h => exact settled e (List.mem_append_left _ h)
    | returns h => exact settled e (List.mem_append_right _ (by simp [h]))
    | item h => cases h
    | named h => cases h
  have hans := (C102_settled_partial R W other n N collect hcollect self hN hpos hdepth (alias_defined hT) (ops_of_files hE hT) href
    (own_targets hT (targets_of_files hE hT) hdepth) cs hr i c hi hread).2
  obtain ⟨hno, ss, h1, h2⟩ := givenBy_written
    (R := { R with ev := fun m parent e => ((R.evaluator W other N).after collect m parent e (initialEval self)).1 })
    (means := meaningOf (lenient W) R.stubs R.depth (selfKnown self) n q.1 q.2.dropLast) (c := f) (q := q)
    hmod hplain (fun d hd e he => by
      obtain ⟨hb, v, hv⟩ := hmeans d hd e he
      exact ⟨v, hv, first_answer R W other n N collect hcollect self hdepth hN (alias_defined hT) (ops_of_files hE hT) href hb hv⟩)
    hdec hfirst
  exact ⟨_, ss, hans, hno, h1.and h2⟩

include hcollect hN hpos hdepth hT hE href hr hi in
/-- **C103** for a definition: whatever was asked before, a callable that is looked up at one place,
which has definitions whose annotations and defaults have a meaning, has the signature written there. -/
theorem C103_looked_up (asClass : Bool) (f : Fn) (q : QPath) (fs : List FunctionDef)
    (hfor : lookedFor c = [(asClass, f)]) (hat : ∀ q', LookedUp R asClass f q' → q' = q)
    (hgiven : ∀ ev s, (∀ d ∈ fs, fromFunctionDef { R with ev := ev } d f q.1 q.2.dropLast
        ≠ .error .signatureNotFound) → GivenBy { R with ev := ev } f q fs s →
      fromCallable { R with ev := ev } c = .ok s)
    (hby : DefinedBy R.stubs q fs) (hne : fs ≠ [])
    (hplain : ∀ d ∈ fs, d.args.posonlyargs = [] ∧ Parsed d.args)
    (hmeans : ∀ d ∈ fs, ∀ e ∈ partsOf d, BitOps e ∧
      ∃ v, meaningOf (lenient W) R.stubs R.depth (selfKnown self) n q.1 q.2.dropLast e = .ok v)
    (hdec : ∀ d ∈ fs, ∀ x ∈ d.decorators, Identified R q.1 q.2.dropLast x)
    (hmod : ∃ kinds, R.stubs.nodesKinds.lookup q.1 = some kinds)
    (hfirst : ∀ d ∈ fs, ∀ role, HasRole R d f q.1 q.2.dropLast role → role ≠ .function →
      formals d.args ≠ []) :
    ∃ s, (session R ((R.evaluator W other N).after collect) cs (initialEval self))[i]? = some (.ok s) ∧
      WrittenBy (meaningOf (lenient W) R.stubs R.depth (selfKnown self) n q.1 q.2.dropLast)
        (fun d => HasRole R d f q.1 q.2.dropLast) fs s := by
  obtain ⟨ev, ss, h1, hno, h2⟩ := answer_written R W other n N collect hcollect self hN hpos hdepth E rep k stubModules hT hE href cs hr i c hi asClass f q fs hfor hat hby hplain hmeans hdec hmod hfirst
  have hss : ss ≠ [] := by
    rintro rfl
    exact hne h2.nil_right
  obtain ⟨s, hs⟩ := madeOf_some hss
  refine ⟨s, ?_, ss, h2.imp fun _ _ _ _ h => h.2, hs⟩
  rw [h1, hgiven _ s hno ⟨ss, h2.imp fun _ _ _ _ h => h.1, hs⟩]

include hcollect hN hpos hdepth hT hE href hr hi in
/-- The answer about a class of which the constructor is known. -/
theorem class_written (l : Labels) (raw : Except PyErr RawSig) (hc : c = .cls l raw) (m path : Path) (builder : String)
    (hlooks : LooksAt R true (.ofClass l) (m, path ++ [builder]))
    (fs : List FunctionDef) (hne : fs ≠ []) (hby : DefinedBy R.stubs (m, path ++ [builder]) fs)
    (hmod : ∃ kinds, R.stubs.nodesKinds.lookup m = some kinds)
    (hplain : ∀ d ∈ fs, d.args.posonlyargs = [] ∧ Parsed d.args)
    (hmeans : ∀ d ∈ fs, ∀ e ∈ partsOf d, BitOps e ∧
      ∃ v, meaningOf (lenient W) R.stubs R.depth (selfKnown self) n m path e = .ok v)
    (hdec : ∀ d ∈ fs, ∀ x ∈ d.decorators, Identified R m path x)
    (hfirst : ∀ d ∈ fs, formals d.args ≠ []) :
    ∃ s, (session R ((R.evaluator W other N).after collect) cs (initialEval self))[i]? = some (.ok s) ∧
      WrittenBy (meaningOf (lenient W) R.stubs R.depth (selfKnown self) n m path)
        (fun _ role => role = .constructor) fs s := by
  have hd : R.depth ≠ 0 := by omega
  have e : (m, path ++ [builder]).2.dropLast = path := List.dropLast_concat
  subst hc
  have hlooks' : ∀ ev, LooksAt { R with ev := ev } true (.ofClass l) (m, path ++ [builder]) := by
    intro ev
    obtain ⟨paths, builders, g1, g2, g3⟩ := hlooks
    exact ⟨paths, builders, g1, g2.imp fun q _ b _ hb => (classBuilder_ev R ev q).trans hb, g3⟩
  have := C103_looked_up R W other n N collect hcollect self hN hpos hdepth E rep k stubModules hT hE href cs hr i
    (.cls l raw) hi true (.ofClass l) (m, path ++ [builder]) fs rfl (fun q' hq' => by
      obtain ⟨paths, g1, g2⟩ := hq'
      obtain ⟨paths', builders, g3, g4, g5⟩ := hlooks
      rw [g1] at g3
      cases g3
      rw [resolveBuilder_agreed g4 g5] at g2
      cases g2
      rfl)
    (fun ev s hno hg => (fromClass_given (R := { R with ev := ev }) hd (hlooks' ev) hby hne hno).2 hg)
    hby hne hplain
  rw [e] at this
  obtain ⟨s, g1, ss, g2, g3⟩ := this hmeans hdec hmod fun d hd _ _ _ => hfirst d hd
  refine ⟨s, g1, ss, g2.imp ?_, g3⟩
  rintro d _ p _ ⟨r, hr, hw⟩
  exact ⟨r, (hasRole_constructor hr).2 rfl, hw⟩

section

variable (L : World) (libraryDepth indexDepth : Nat) (modules : List Path) (index : Index)
  (h : indexModules L libraryDepth modules = .ok index)
  (hs : supportedPaths R.stubs.toTables indexDepth index = .ok R.index) (hk : indexDepth ≠ 0)
  (o : Expr → Bool) (ho : Decides E o)
  -- the object is found where it has been defined
  (m : Path) (classes : List String) (name : String) (v : Value)
  (home : AtHome L modules m classes name v)
  -- it is the callable asked about
  (f : Fn) (hf : f.named = L.named v) (hhas : R.has f (m, classes ++ [name]) = true)
  -- other places at which it is found lead there
  (hothers : ∀ place ∈ listed index (m, classes ++ [name]), R.has f place = true →
    R.resolve place.1 [] place.2 = .ok (m, classes ++ [name]) ∨
      R.resolve place.1 [] place.2 = .error .objectNotFound)
  -- the source of its module
  (hend : ReadToEnd E (parseAll E k stubModules {}).2 m) (hspec : m ≠ ["__specializations"])
  (body : List Stmt) (hsrc : E.source m = some body)

include hcollect hN hpos hdepth hT hE href hr hi h hs hk ho home hf hhas hothers hend hspec hsrc in
/-- **C103**, functions: whatever was asked before, the signature of a function, descriptor or builtin
of a library module is what the definitions in the source of the module's stub say, names meaning there
what they mean in the stubs. -/
theorem C103_function (fs : List FunctionDef) (hne : fs ≠ [])
    (hnc : classes ++ [name] ∉ classPathsAll o [] body)
    (hfs : declaredAt (declaredAll o [] body) (classes ++ [name]) = fs.map .functionDef)
    (raw : Except PyErr RawSig) (hc : LookedUpAs c f raw)
    (hplain : ∀ d ∈ fs, d.args.posonlyargs = [] ∧ Parsed d.args)
    (hmeans : ∀ d ∈ fs, ∀ e ∈ partsOf d, BitOps e ∧
      ∃ v, meaningOf (lenient W) R.stubs R.depth (selfKnown self) n m classes e = .ok v)
    (hdec : ∀ d ∈ fs, ∀ x ∈ d.decorators, Identified R m classes x)
    (hfirst : ∀ d ∈ fs, ∀ role, HasRole R d f m classes role → role ≠ .function → formals d.args ≠ []) :
    ∃ s, (session R ((R.evaluator W other N).after collect) cs (initialEval self))[i]? = some (.ok s) ∧
      WrittenBy (meaningOf (lenient W) R.stubs R.depth (selfKnown self) n m classes)
        (fun d => HasRole R d f m classes) fs s := by
  have hd : R.depth ≠ 0 := by omega
  have hpaths := own_paths L libraryDepth indexDepth modules index h R hs hd hk E o ho rep k stubModules hT m
    classes name v home f hf hhas hothers hend hspec body hsrc fs hne hnc hfs
  obtain ⟨hnodes, hkinds⟩ := stubs_of_source ho hT hend hspec hsrc
  obtain ⟨kind, hlast, -⟩ := kind_of_functions hnc hne hfs
  obtain ⟨-, kinds, h1, -⟩ := hkinds _ _ hlast
  have hby := hnodes _ _ hnc hne hfs
  have e : (m, classes ++ [name]).2.dropLast = classes := List.dropLast_concat
  have := C103_looked_up R W other n N collect hcollect self hN hpos hdepth E rep k stubModules hT hE href cs hr i c hi
    false f (m, classes ++ [name]) fs (by cases hc <;> rfl) (fun q' hq' => by
      obtain ⟨paths, h1, h2⟩ := hq'
      rw [hpaths] at h1
      cases h1
      exact List.mem_singleton.1 h2)
    (fun ev s hno hg => by
      have hl : LooksAt { R with ev := ev } false f (m, classes ++ [name]) :=
        ⟨[], (toQualifiedPaths_ev R ev f).trans hpaths⟩
      obtain ⟨h1, h2⟩ := fromFn_given (R := { R with ev := ev }) hd hl hby hne hno
      rw [hc.fromCallable, orElse_found h1]
      exact (h2 s).2 hg)
    hby hne hplain
  rw [e] at this
  exact this hmeans hdec ⟨kinds, h1⟩ hfirst

include hcollect hN hpos hdepth hT hE href hr hi h hs hk ho home hf hhas hothers hend hspec hsrc in
/-- **C103**, classes: the same for the class and its `__init__`. -/
theorem C103_class (fs : List FunctionDef) (hne : fs ≠ [])
    (hnc : classes ++ [name] ++ ["__init__"] ∉ classPathsAll o [] body)
    (hfs : declaredAt (declaredAll o [] body) (classes ++ [name] ++ ["__init__"])
      = fs.map .functionDef)
    (kind : NodeKind) (hlast : lastKind (kindsDeclaredAll o [] body) (classes ++ [name]) = some kind)
    (l : Labels) (raw : Except PyErr RawSig) (hl : f = .ofClass l) (hc : c = .cls l raw)
    (hplain : ∀ d ∈ fs, d.args.posonlyargs = [] ∧ Parsed d.args)
    (hmeans : ∀ d ∈ fs, ∀ e ∈ partsOf d, BitOps e ∧
      ∃ v, meaningOf (lenient W) R.stubs R.depth (selfKnown self) n m (classes ++ [name]) e = .ok v)
    (hdec : ∀ d ∈ fs, ∀ x ∈ d.decorators, Identified R m (classes ++ [name]) x)
    (hfirst : ∀ d ∈ fs, formals d.args ≠ []) :
    ∃ s, (session R ((R.evaluator W other N).after collect) cs (initialEval self))[i]? = some (.ok s) ∧
      WrittenBy (meaningOf (lenient W) R.stubs R.depth (selfKnown self) n m (classes ++ [name]))
        (fun _ role => role = .constructor) fs s := by
  have hd : R.depth ≠ 0 := by omega
  obtain ⟨hlooks, hby⟩ := C101_class L libraryDepth indexDepth modules index h R hs hd hk E o ho rep k
    stubModules hT m classes name v home f hf hhas hothers hend hspec body hsrc fs hne hnc hfs kind hlast
  obtain ⟨-, hkinds⟩ := stubs_of_source ho hT hend hspec hsrc
  obtain ⟨-, kinds, h1, -⟩ := hkinds _ _ hlast
  subst hl
  exact class_written R W other n N collect hcollect self hN hpos hdepth E rep k stubModules hT hE href cs hr i c hi
    l raw hc m (classes ++ [name]) "__init__" hlooks fs hne hby ⟨kinds, h1⟩ hplain hmeans hdec hfirst

include hdepth hT h hs hk ho home hf hhas hothers hend hspec hsrc in
/-- The stubs consulted for a class that has no `__init__` but `__new__`. -/
theorem new_looked (fs : List FunctionDef) (hne : fs ≠ [])
    (hno : classes ++ [name] ++ ["__init__"] ∉ classPathsAll o [] body)
    (hnone : declaredAt (declaredAll o [] body) (classes ++ [name] ++ ["__init__"]) = [])
    (hnc : classes ++ [name] ++ ["__new__"] ∉ classPathsAll o [] body)
    (hfs : declaredAt (declaredAll o [] body) (classes ++ [name] ++ ["__new__"]) = fs.map .functionDef)
    (kind : NodeKind) (hlast : lastKind (kindsDeclaredAll o [] body) (classes ++ [name]) = some kind) :
    LooksAt R true f (m, classes ++ [name] ++ ["__new__"]) ∧
      DefinedBy R.stubs (m, classes ++ [name] ++ ["__new__"]) fs := by
  obtain ⟨hnodes, hkinds⟩ := stubs_of_source ho hT hend hspec hsrc
  obtain ⟨hdef, _⟩ := hkinds _ _ hlast
  have hby := hnodes _ _ hnc hne hfs
  refine ⟨?_, hby⟩
  obtain ⟨ns, via, hns, hl, hvia⟩ := home.found
  have hplace := C98_own_place L libraryDepth modules index h m home.module ns hns classes name v via hl hvia
    home.parts home.names home.defined
  have hq : qualifiedPathFrom f.named = .ok (m, classes ++ [name]) := by
    rw [hf, C97_named m _ name _ home.parts home.names home.defined, steps_classes]
  have hr := resolveQualifiedPaths_own h hs (by omega) hk home.parts.1 hq hplace hhas hdef hothers
  refine ⟨_, [(m, classes ++ [name] ++ ["__new__"])], hr, ⟨?_, trivial⟩, List.mem_singleton.2 rfl,
    fun b hb => .inl (List.mem_singleton.1 hb)⟩
  obtain ⟨nodes, h1, h2⟩ := hby
  have h3 := stubs_undeclared ho hT hend hspec hsrc hno hnone h1
  obtain ⟨j, hj⟩ : ∃ j, R.depth = j + 1 := ⟨R.depth - 1, by omega⟩
  unfold classBuilder
  rw [hj, builderSearch, h1]
  dsimp only at h2 ⊢
  rw [h3, h2]
  rfl

include hcollect hN hpos hdepth hT hE href hr hi h hs hk ho home hf hhas hothers hend hspec hsrc in
/-- **C103**, classes without `__init__`: the same for the class and its `__new__`; what is returned is what
`__new__` is written to return. -/
theorem C103_new (fs : List FunctionDef) (hne : fs ≠ [])
    (hno : classes ++ [name] ++ ["__init__"] ∉ classPathsAll o [] body)
    (hnone : declaredAt (declaredAll o [] body) (classes ++ [name] ++ ["__init__"]) = [])
    (hnc : classes ++ [name] ++ ["__new__"] ∉ classPathsAll o [] body)
    (hfs : declaredAt (declaredAll o [] body) (classes ++ [name] ++ ["__new__"]) = fs.map .functionDef)
    (kind : NodeKind) (hlast : lastKind (kindsDeclaredAll o [] body) (classes ++ [name]) = some kind)
    (l : Labels) (raw : Except PyErr RawSig) (hl : f = .ofClass l) (hc : c = .cls l raw)
    (hplain : ∀ d ∈ fs, d.args.posonlyargs = [] ∧ Parsed d.args)
    (hmeans : ∀ d ∈ fs, ∀ e ∈ partsOf d, BitOps e ∧
      ∃ v, meaningOf (lenient W) R.stubs R.depth (selfKnown self) n m (classes ++ [name]) e = .ok v)
    (hdec : ∀ d ∈ fs, ∀ x ∈ d.decorators, Identified R m (classes ++ [name]) x)
    (hfirst : ∀ d ∈ fs, formals d.args ≠ []) :
    ∃ s, (session R ((R.evaluator W other N).after collect) cs (initialEval self))[i]? = some (.ok s) ∧
      WrittenBy (meaningOf (lenient W) R.stubs R.depth (selfKnown self) n m (classes ++ [name]))
        (fun _ role => role = .constructor) fs s := by
  obtain ⟨hlooks, hby⟩ := new_looked R hdepth E rep k stubModules hT L libraryDepth indexDepth modules index h hs hk o
    ho m classes name v home f hf hhas hothers hend hspec body hsrc fs hne hno hnone hnc hfs kind hlast
  obtain ⟨-, hkinds⟩ := stubs_of_source ho hT hend hspec hsrc
  obtain ⟨-, kinds, h1, -⟩ := hkinds _ _ hlast
  subst hl
  exact class_written R W other n N collect hcollect self hN hpos hdepth E rep k stubModules hT hE href cs hr i c hi
    l raw hc m (classes ++ [name]) "__new__" hlooks fs hne hby ⟨kinds, h1⟩ hplain hmeans hdec hfirst

end

end

/-! ### Samples -/

/-- `def f(x: Row, y: int = ..., *, z=1) -> Row`. -/
def writtenF : FunctionDef :=
  { name := "f"
    args := {
      args := [⟨"x", some (nm "Row")⟩, ⟨"y", some (nm "int")⟩], defaults := [.constant .ellipsis]
      kwonlyargs := [⟨"z", none⟩], kwDefaults := [some (.constant (.int 1))] }
    returns := some (nm "Row") }

/-- `def __init__(self, rows: list[Row])`. -/
def writtenInit : FunctionDef :=
  { name := "__init__", args := { args := [⟨"self", none⟩, ⟨"rows", some (sampleSubscript "list" (nm "Row"))⟩] } }

/-- The stub of `m` defines `f` and `C` with the alias `Row = list[int]`; `h` is written with aliases that
use each other. -/
def writtenBody : List Stmt := [
  .assign [tgt "A"] (sampleSubscript "list" (nm "B")), .assign [tgt "B"] (sampleSubscript "list" (nm "A")),
  .assign [tgt "Row"] (sampleSubscript "list" (nm "int")), .functionDef writtenF,
  .functionDef (defOf "h" (nm "A")),
  .classDef "C" [nm "object"] [] [.functionDef writtenInit], .assign [tgt "g"] (nm "f")]

def writtenFiles : StubFiles := filesOf [
  (["builtins"], [.classDef "object" [] [] [], .classDef "int" [] [] [], .classDef "list" [] [] []]),
  (["m"], writtenBody)]

/-- The tables read from these files. -/
def writtenStubs : Stubs :=
  match parseStubs writtenFiles (fun _ => "") 20 [["m"]] with
  | .ok T => T
  | .error _ => stubsSample

theorem writtenStubs_read : parseStubs writtenFiles (fun _ => "") 20 [["m"]] = .ok writtenStubs := rfl

/-- The runtime with these tables and the index of `ownWorld`. -/
def writtenRuntime : Runtime :=
  { homeRuntime with stubs := writtenStubs }

theorem writtenStubs_end : ReadToEnd writtenFiles (parseAll writtenFiles 20 [["m"]] {}).2 ["m"] :=
  C100_in_turn writtenFiles 20 [] [] ["m"] _ rfl (by decide)

theorem written_files : PlainFiles writtenFiles := by
  refine files_plain fun mb hmb => ?_
  simp only [List.mem_cons, List.not_mem_nil, or_false] at hmb
  rcases hmb with rfl | rfl <;>
    simp [AllPlainlyAssigning, PlainlyAssigning, PlainAssignment, BitOps, BitOpsAll, BitOpsKw, writtenBody, sampleSubscript, nm, tgt]

def writtenH : Callable := .function { module_ := .text "m", qualname := "h" } (.error .keyError)

/-- Questions about `h`, `f` and `C`. -/
def writtenQuestions : List Callable :=
  [writtenH, .function labF (.error .keyError), .cls labC (.error .keyError)]

theorem written_limit : .error .recursionError ∉ session writtenRuntime
    (writtenRuntime.evaluator sessionPython (fun _ => "") 9) writtenQuestions (initialEval (.form 99)) := by
  intro h
  simp only [writtenQuestions, session, List.mem_cons, List.not_mem_nil, or_false] at h
  rcases h with h | h | h <;> cases h

/-- The hypotheses of `C103_function` hold for `f`. -/
example : ∃ s, (session writtenRuntime (writtenRuntime.evaluator sessionPython (fun _ => "") 9)
      writtenQuestions (initialEval (.form 99)))[1]? = some (.ok s) ∧
    WrittenBy (meaningOf (lenient sessionPython) writtenRuntime.stubs writtenRuntime.depth
        (selfKnown (.form 99)) 3 ["m"] [])
      (fun d => HasRole writtenRuntime d fnF ["m"] []) [writtenF] s := by
  refine C103_function writtenRuntime sessionPython (fun _ => "") 3 9 _ keepingAll (.form 99) (by decide) (by decide)
    (by decide) writtenFiles (fun _ => "") 20 [["m"]] writtenStubs_read written_files
    (fun _ => ⟨_, rfl⟩) writtenQuestions written_limit 1 (.function labF (.error .keyError)) rfl ownWorld 3 5
    [["m"]] _ ownIndex rfl (by decide) sampleOutcome (filesOf_decides _) ["m"] [] "f" (.other 1) ownWorld_f
    fnF rfl rfl (fun place hp _ => ?_) writtenStubs_end (by decide) _ rfl [writtenF] (by simp) (by decide) rfl
    _ (.function labF (.error .keyError)) ?_ ?_ ?_ ?_
  · have hp : place = (["m"], ["f"]) ∨ place = (["m"], ["g"]) := by simpa [listed] using hp
    rcases hp with rfl | rfl
    · exact .inl rfl
    · exact .inl rfl
  · intro d hd
    cases List.mem_singleton.1 hd
    exact ⟨rfl, by decide, by decide, by decide⟩
  · intro d hd e he
    cases List.mem_singleton.1 hd
    simp only [partsOf, argumentsParts, writtenF, List.filterMap, Option.toList, List.append_nil,
      List.cons_append, List.nil_append, List.mem_cons, List.not_mem_nil, or_false, id] at he
    rcases he with rfl | rfl | rfl | rfl | rfl <;> exact ⟨trivial, _, rfl⟩
  · intro d hd x hx
    cases List.mem_singleton.1 hd
    cases hx
  · intro d hd _ _ _
    cases List.mem_singleton.1 hd
    decide

/-- The hypotheses of `C103_class` hold for `C`. -/
example : ∃ s, (session writtenRuntime (writtenRuntime.evaluator sessionPython (fun _ => "") 9)
      writtenQuestions (initialEval (.form 99)))[2]? = some (.ok s) ∧
    WrittenBy (meaningOf (lenient sessionPython) writtenRuntime.stubs writtenRuntime.depth
        (selfKnown (.form 99)) 3 ["m"] ["C"])
      (fun _ role => role = .constructor) [writtenInit] s := by
  refine C103_class writtenRuntime sessionPython (fun _ => "") 3 9 _ keepingAll (.form 99) (by decide) (by decide)
    (by decide) writtenFiles (fun _ => "") 20 [["m"]] writtenStubs_read written_files
    (fun _ => ⟨_, rfl⟩) writtenQuestions written_limit 2 (.cls labC (.error .keyError)) rfl ownWorld 3 5
    [["m"]] _ ownIndex rfl (by decide) sampleOutcome (filesOf_decides _) ["m"] [] "C" (.cls 2) ownWorld_C
    clsC rfl rfl (fun place hp _ => ?_) writtenStubs_end (by decide) _ rfl [writtenInit] (by simp) (by decide)
    rfl .class_ rfl labC (.error .keyError) rfl rfl ?_ ?_ ?_ ?_
  · have hp : place = (["m"], ["C"]) ∨ place = (["m"], ["D"]) := by
      simpa [listed, List.lookup] using hp
    rcases hp with rfl | rfl
    · exact .inl rfl
    · exact .inr rfl
  · intro d hd
    cases List.mem_singleton.1 hd
    exact ⟨rfl, by decide, by decide, by decide⟩
  · intro d hd e he
    cases List.mem_singleton.1 hd
    simp only [partsOf, argumentsParts, writtenInit, List.filterMap, Option.toList, List.append_nil,
      List.mem_cons, List.not_mem_nil, or_false] at he
    subst he
    exact ⟨by simp [BitOps, sampleSubscript, nm], _, rfl⟩
  · intro d hd x hx
    cases List.mem_singleton.1 hd
    cases hx
  · intro d hd
    cases List.mem_singleton.1 hd
    decide

example : session writtenRuntime (writtenRuntime.evaluator sessionPython (fun _ => "") 9) writtenQuestions
    (initialEval (.form 99)) = [
      .ok (.plain ⟨[.required (.pep585 92 [.pep585 92 [.form 93]]) .positionalOnly "x"], .form anyForm⟩),
      .ok (.plain ⟨[.required (.pep585 92 [.cls 91]) .positionalOnly "x",
        .optional (.cls 91) none .positionalOnly "y",
        .optional (.form anyForm) (some (.atom (.int 1))) .keywordOnly "z"], .pep585 92 [.cls 91]⟩),
      .ok (.plain ⟨[.required (.pep585 92 [.pep585 92 [.cls 91]]) .positionalOnly "rows"],
        .form selfForm⟩)] := rfl

/-- `def __new__(cls, rows: list[Row]) -> Row`. -/
def writtenNew : FunctionDef :=
  { name := "__new__"
    args := { args := [⟨"cls", none⟩, ⟨"rows", some (sampleSubscript "list" (nm "Row"))⟩] }
    returns := some (nm "Row") }

/-- The class `C` with `__new__` instead of `__init__`. -/
def makerBody : List Stmt := [.assign [tgt "Row"] (sampleSubscript "list" (nm "int")),
  .classDef "C" [nm "object"] [] [.functionDef writtenNew]]

def makerFiles : StubFiles := filesOf [
  (["builtins"], [.classDef "object" [] [] [], .classDef "int" [] [] [], .classDef "list" [] [] []]),
  (["m"], makerBody)]

/-- The tables read from these files. -/
def makerStubs : Stubs :=
  match parseStubs makerFiles (fun _ => "") 20 [["m"]] with
  | .ok T => T
  | .error _ => stubsSample

theorem makerStubs_read : parseStubs makerFiles (fun _ => "") 20 [["m"]] = .ok makerStubs := rfl

def makerRuntime : Runtime :=
  { homeRuntime with stubs := makerStubs, index := [(["m"], [(["C"], [(["m"], ["C"])])])] }

theorem makerStubs_end : ReadToEnd makerFiles (parseAll makerFiles 20 [["m"]] {}).2 ["m"] :=
  C100_in_turn makerFiles 20 [] [] ["m"] _ rfl (by decide)

theorem maker_files : PlainFiles makerFiles := by
  refine files_plain fun mb hmb => ?_
  simp only [List.mem_cons, List.not_mem_nil, or_false] at hmb
  rcases hmb with rfl | rfl <;>
    simp [AllPlainlyAssigning, PlainlyAssigning, PlainAssignment, BitOps, BitOpsAll, BitOpsKw, makerBody, sampleSubscript, nm, tgt]

theorem maker_limit : .error .recursionError ∉ session makerRuntime
    (makerRuntime.evaluator sessionPython (fun _ => "") 9) [.cls labC (.error .keyError)] (initialEval (.form 99)) := by
  intro h
  simp only [session, List.mem_cons, List.not_mem_nil, or_false] at h
  cases h

def makerWorld : World where
  vars
    | 0 => [("C", .cls 2)]
    | _ => []
  classes _ := (.text "m", "C")
  others _ := .other
  importModule m := if m = ["m"] then some 0 else none

/-- The hypotheses of `C103_new` hold for `C`. -/
example : ∃ s, (session makerRuntime (makerRuntime.evaluator sessionPython (fun _ => "") 9)
      [.cls labC (.error .keyError)] (initialEval (.form 99)))[0]? = some (.ok s) ∧
    WrittenBy (meaningOf (lenient sessionPython) makerRuntime.stubs makerRuntime.depth
        (selfKnown (.form 99)) 3 ["m"] ["C"])
      (fun _ role => role = .constructor) [writtenNew] s := by
  refine C103_new makerRuntime sessionPython (fun _ => "") 3 9 _ keepingAll (.form 99) (by decide) (by decide)
    (by decide) makerFiles (fun _ => "") 20 [["m"]] makerStubs_read maker_files
    (fun _ => ⟨_, rfl⟩) _ maker_limit 0 (.cls labC (.error .keyError)) rfl makerWorld 3 5
    [["m"]] [(["m"], [(["C"], [(["m"], ["C"])])])] rfl rfl (by decide) sampleOutcome (filesOf_decides _) ["m"] [] "C"
    (.cls 2)
    ⟨by simp, ⟨0, _, rfl, .cls (by simp [makerWorld]), by simp⟩, ⟨by simp, by decide⟩,
      fun x hx => by simp at hx; subst hx; decide, .cls⟩
    clsC rfl rfl (fun place hp _ => ?_) makerStubs_end (by decide) _ rfl [writtenNew] (by simp) (by decide) rfl
    (by decide) rfl .class_ rfl labC (.error .keyError) rfl rfl ?_ ?_ ?_ ?_
  · have hp : place = (["m"], ["C"]) := by simpa [listed, List.lookup] using hp
    subst hp
    exact .inl rfl
  · intro d hd
    cases List.mem_singleton.1 hd
    exact ⟨rfl, by decide, by decide, by decide⟩
  · intro d hd e he
    cases List.mem_singleton.1 hd
    simp only [partsOf, argumentsParts, writtenNew, List.filterMap, Option.toList, List.append_nil,
      List.cons_append, List.nil_append, List.mem_cons, List.not_mem_nil, or_false] at he
    rcases he with rfl | rfl
    · exact ⟨by simp [BitOps, sampleSubscript, nm], _, rfl⟩
    · exact ⟨trivial, _, rfl⟩
  · intro d hd x hx
    cases List.mem_singleton.1 hd
    cases hx
  · intro d hd
    cases List.mem_singleton.1 hd
    decide

example : session makerRuntime (makerRuntime.evaluator sessionPython (fun _ => "") 9) [.cls labC (.error .keyError)]
    (initialEval (.form 99)) = [.ok (.plain ⟨[.required (.pep585 92 [.pep585 92 [.cls 91]]) .positionalOnly "rows"],
      .pep585 92 [.cls 91]⟩)] := rfl

end Paradigm.Props
