import Verif.Lemmas.InheritedSignature
import Verif.Props.Linear
import Verif.Props.Inherited
import Verif.Props.Written

/-!
# C117: the signature of a method that the stub of its class does not declare
-/

namespace Paradigm.Props

open Spec

/-- **C117**, full statement: a method that the stub of its class does not declare has the signature that is
written for it in the first class of the method resolution order with a declaration. -/
def C117_statement : Prop :=
  ∀ (L : World) (libraryDepth k : Nat) (modules : List Path) (index : Index),
    indexModules L libraryDepth modules = .ok index →
    ∀ (R : Runtime), supportedPaths R.stubs.toTables k index = .ok R.index →
    -- the stubs are read from source files
    (∃ E rep n stubModules, parseStubs E rep n stubModules = .ok R.stubs) →
    -- the object is found where it has been defined, and is the callable asked about
    ∀ (m : Path) (classes : List String) (x : String) (value : Value), AtHome L modules m classes x value →
    ∀ (f : Fn), f.named = L.named value → R.has f (m, classes ++ [x]) = true →
    -- the ancestors of its class are known, and `q` is the first one that declares it
    ∀ (order pre post : List QPath) (q : QPath), Hierarchy R.stubs.toTables (m, classes) →
      Mro (runtimeBases R.stubs.toTables) (m, classes) order → order = pre ++ q :: post →
      HasMember R.stubs.toTables x q → (∀ p ∈ pre, ¬ HasMember R.stubs.toTables x p) →
    -- the lookup is not too deep, and the object is found nowhere else
    R.resolve m [] (classes ++ [x]) ≠ .error .recursionError →
    (∀ place ∈ listed index (m, classes ++ [x]), R.has f place = true → place = (m, classes ++ [x])) →
    -- `q` declares functions
    ∀ (kinds : Dict Path NodeKind) (kind : NodeKind) (fs : List FunctionDef), q.1 ≠ [] →
      R.stubs.nodesKinds.lookup q.1 = some kinds → kinds.lookup (q.2 ++ [x]) = some kind → kind ≠ .class_ →
      DefinedBy R.stubs (q.1, q.2 ++ [x]) fs → fs ≠ [] →
    (∀ m parent e, R.ev m parent e ≠ .error .signatureNotFound) →
    ∀ (callable : Callable) (raw : Except PyErr RawSig), LookedUpAs callable f raw →
    ∀ (sig : Sig), fromCallable R callable = .ok sig ↔ GivenBy R f (q.1, q.2 ++ [x]) fs sig

section

variable (L : World) (libraryDepth k : Nat) (modules : List Path) (index : Index)
  (h : indexModules L libraryDepth modules = .ok index) (R : Runtime)
  (hs : supportedPaths R.stubs.toTables k index = .ok R.index)
  (m : Path) (classes : List String) (x : String) (value : Value) (home : AtHome L modules m classes x value)
  (f : Fn) (hf : f.named = L.named value) (hhas : R.has f (m, classes ++ [x]) = true)
  (order : List QPath) (q : QPath) (hc : Hierarchy R.stubs.toTables (m, classes))
  (hmro : Mro (runtimeBases R.stubs.toTables) (m, classes) order) (hq : HasMember R.stubs.toTables x q)
  (hdeep : R.resolve m [] (classes ++ [x]) ≠ .error .recursionError)
  -- other places at which the object is found lead to the same place, or to none
  (hothers : ∀ place ∈ listed index (m, classes ++ [x]), R.has f place = true →
    R.resolve place.1 [] place.2 = .ok (q.1, q.2 ++ [x]) ∨ R.resolve place.1 [] place.2 = .error .objectNotFound)
  (kinds : Dict Path NodeKind) (kind : NodeKind) (fs : List FunctionDef) (hne : q.1 ≠ [])
  (hkinds : R.stubs.nodesKinds.lookup q.1 = some kinds) (hkind : kinds.lookup (q.2 ++ [x]) = some kind)
  (hnc : kind ≠ .class_) (hfs : DefinedBy R.stubs (q.1, q.2 ++ [x]) fs) (hfne : fs ≠ [])
  (hev : ∀ m parent e, R.ev m parent e ≠ .error .signatureNotFound)
  (callable : Callable) (raw : Except PyErr RawSig) (hcall : LookedUpAs callable f raw) (sig : Sig)

include h hs home hf hhas hc hmro hq hdeep hothers hne hkinds hkind hnc hfs hfne hev hcall

/-- **C117** for a class `q` that all ways to other classes with the method go through (in particular for
methods that only one ancestor declares), in any hierarchy. Missing: see `C117_refuted`. -/
theorem C117_through_partial (hab : Above (runtimeBases R.stubs.toTables) (m, classes) q)
    (hway : ∀ e, Around (runtimeBases R.stubs.toTables) q (m, classes) e → ¬ HasMember R.stubs.toTables x e) :
    fromCallable R callable = .ok sig ↔ GivenBy R f (q.1, q.2 ++ [x]) fs sig :=
  fromCallable_at (place := (q.1, q.2 ++ [x])) h hs home hf hhas ⟨hne, by simp⟩
    (C116_through_partial R.stubs.toTables (m, classes) x order q hc hmro hab hq hway).1 hdeep hothers hkinds hkind
    hnc hfs hfne hev hcall sig

/-- **C117** for hierarchies in which no class but `object` is inherited in two ways, and methods that
`object` does not declare, or without multiple inheritance. Missing: see `C117_refuted`. -/
theorem C117_branching_partial (hb : Branching (runtimeBases R.stubs.toTables) (m, classes))
    (hx : ¬ HasMember R.stubs.toTables x objectClass ∨
      ∀ d, Above (runtimeBases R.stubs.toTables) (m, classes) d → (runtimeBases R.stubs.toTables d).length ≤ 1)
    (pre post : List QPath) (ho : order = pre ++ q :: post) (hpre : ∀ p ∈ pre, ¬ HasMember R.stubs.toTables x p) :
    fromCallable R callable = .ok sig ↔ GivenBy R f (q.1, q.2 ++ [x]) fs sig :=
  fromCallable_at (place := (q.1, q.2 ++ [x])) h hs home hf hhas ⟨hne, by simp⟩
    (C116_branching_partial R.stubs.toTables (m, classes) x order pre post q hc hmro hb hx ho hq hpre) hdeep hothers
    hkinds hkind hnc hfs hfne hev hcall sig

end

section

variable (R : Runtime) (W : Interpreter Obj) (other : Atom → String) (n N : Nat)
  (collect : EvalState Obj → EvalState Obj) (hcollect : Collecting collect) (self : Obj)
  (hN : n ≤ N) (hpos : 0 < N) (hdepth : 2 ≤ R.depth)
  -- the stubs are read from source files
  (E : StubFiles) (rep : Atom → String) (stubDepth : Nat) (stubModules : List Path)
  (hT : parseStubs E rep stubDepth stubModules = .ok R.stubs) (hE : PlainFiles E)
  (href : ∀ t, ∃ v, W.forwardRef t = .ok v)
  -- callables are asked about one after the other
  (cs : List Callable)
  (hr : .error .recursionError ∉ session R ((R.evaluator W other N).after collect) cs (initialEval self))
  (i : Nat) (c : Callable) (hi : cs[i]? = some c)

include hcollect hN hpos hdepth hT hE href hr hi in
/-- The answer about a function that is looked up at one place only. -/
theorem answer_at (f : Fn) (place : QPath) (hpaths : toQualifiedPaths R f = .ok [place])
    (fs : List FunctionDef) (hby : DefinedBy R.stubs place fs) (hne : fs ≠ [])
    (hmod : ∃ kinds, R.stubs.nodesKinds.lookup place.1 = some kinds)
    (raw : Except PyErr RawSig) (hc : LookedUpAs c f raw)
    (hplain : ∀ d ∈ fs, d.args.posonlyargs = [] ∧ Parsed d.args)
    (hmeans : ∀ d ∈ fs, ∀ e ∈ partsOf d, BitOps e ∧
      ∃ v, meaningOf (lenient W) R.stubs R.depth (selfKnown self) n place.1 place.2.dropLast e = .ok v)
    (hdec : ∀ d ∈ fs, ∀ x ∈ d.decorators, Identified R place.1 place.2.dropLast x)
    (hfirst : ∀ d ∈ fs, ∀ role, HasRole R d f place.1 place.2.dropLast role → role ≠ .function →
      formals d.args ≠ []) :
    ∃ s, (session R ((R.evaluator W other N).after collect) cs (initialEval self))[i]? = some (.ok s) ∧
      WrittenBy (meaningOf (lenient W) R.stubs R.depth (selfKnown self) n place.1 place.2.dropLast)
        (fun d => HasRole R d f place.1 place.2.dropLast) fs s :=
  C103_looked_up R W other n N collect hcollect self hN hpos hdepth E rep stubDepth stubModules hT hE href cs hr
    i c hi false f place fs (by cases hc <;> rfl) (fun q' hq' => by
      obtain ⟨paths, h1, h2⟩ := hq'
      rw [hpaths] at h1
      cases h1
      exact List.mem_singleton.1 h2)
    (fun ev s hno hg => by
      have hl : LooksAt { R with ev := ev } false f place := ⟨[], (toQualifiedPaths_ev R ev f).trans hpaths⟩
      obtain ⟨h1, h2⟩ := fromFn_given (R := { R with ev := ev }) (show R.depth ≠ 0 by omega) hl hby hne hno
      rw [hc.fromCallable, orElse_found h1]
      exact (h2 s).2 hg)
    hby hne hplain hmeans hdec hmod hfirst

include hcollect hN hpos hdepth hT hE href hr hi in
/-- **C117**, whatever was asked before: the answer about a method that the stub of its class does not declare
is what is written in the class `q` of the method resolution order, with the meaning that the expressions have
there. Missing: as above. -/
theorem C117_written_partial (L : World) (libraryDepth k : Nat) (modules : List Path) (index : Index)
    (h : indexModules L libraryDepth modules = .ok index)
    (hs : supportedPaths R.stubs.toTables k index = .ok R.index)
    (m : Path) (classes : List String) (x : String) (value : Value) (home : AtHome L modules m classes x value)
    (f : Fn) (hf : f.named = L.named value) (hhas : R.has f (m, classes ++ [x]) = true)
    (order : List QPath) (q : QPath) (hq : Hierarchy R.stubs.toTables (m, classes))
    (hmro : Mro (runtimeBases R.stubs.toTables) (m, classes) order)
    (hdecided : Decided (runtimeBases R.stubs.toTables) R.stubs.toTables x (m, classes) order q)
    (hdeep : R.resolve m [] (classes ++ [x]) ≠ .error .recursionError)
    (hothers : ∀ place ∈ listed index (m, classes ++ [x]), R.has f place = true →
      R.resolve place.1 [] place.2 = .ok (q.1, q.2 ++ [x]) ∨ R.resolve place.1 [] place.2 = .error .objectNotFound)
    (kinds : Dict Path NodeKind) (kind : NodeKind) (fs : List FunctionDef) (hqne : q.1 ≠ [])
    (hkinds : R.stubs.nodesKinds.lookup q.1 = some kinds) (hkind : kinds.lookup (q.2 ++ [x]) = some kind)
    (hnc : kind ≠ .class_) (hby : DefinedBy R.stubs (q.1, q.2 ++ [x]) fs) (hne : fs ≠ [])
    (raw : Except PyErr RawSig) (hc : LookedUpAs c f raw)
    (hplain : ∀ d ∈ fs, d.args.posonlyargs = [] ∧ Parsed d.args)
    (hmeans : ∀ d ∈ fs, ∀ e ∈ partsOf d, BitOps e ∧
      ∃ v, meaningOf (lenient W) R.stubs R.depth (selfKnown self) n q.1 q.2 e = .ok v)
    (hdec : ∀ d ∈ fs, ∀ x ∈ d.decorators, Identified R q.1 q.2 x)
    (hfirst : ∀ d ∈ fs, ∀ role, HasRole R d f q.1 q.2 role → role ≠ .function → formals d.args ≠ []) :
    ∃ s, (session R ((R.evaluator W other N).after collect) cs (initialEval self))[i]? = some (.ok s) ∧
      WrittenBy (meaningOf (lenient W) R.stubs R.depth (selfKnown self) n q.1 q.2)
        (fun d => HasRole R d f q.1 q.2) fs s := by
  have hans : Answers R.stubs.toTables m [] (classes ++ [x]) [] (.ok (q.1, q.2 ++ [x])) := by
    cases hdecided with
    | through above has way => exact (C116_through_partial R.stubs.toTables (m, classes) x order q hq hmro above has way).1
    | branching hb has simple pre post split first =>
      exact C116_branching_partial R.stubs.toTables (m, classes) x order pre post q hq hmro hb simple split has first
  have hpaths := paths_at (place := (q.1, q.2 ++ [x])) h hs home hf hhas ⟨hqne, by simp⟩ hans hdeep hothers hkinds
    hkind hnc
  have e : ((q.1, q.2 ++ [x]) : QPath).2.dropLast = q.2 := List.dropLast_concat
  have := answer_at R W other n N collect hcollect self hN hpos hdepth E rep stubDepth stubModules hT hE href cs
    hr i c hi f (q.1, q.2 ++ [x]) hpaths fs hby hne ⟨kinds, hkinds⟩ raw hc hplain
  rw [e] at this
  exact this hmeans hdec hfirst

include hcollect hN hpos hdepth hT hE href hr hi in
/-- **C115**, whatever was asked before: the answer about a function that the stub has in the generic class of a
base is what is written there with the arguments in the place of the parameters. Missing: what is missing in
`C115_found_partial`. -/
theorem C115_written_partial (L : World) (libraryDepth k : Nat) (modules : List Path) (index : Index)
    (h : indexModules L libraryDepth modules = .ok index)
    (hs : supportedPaths R.stubs.toTables k index = .ok R.index) (depth : Nat) (hd : R.depth = depth + 2)
    (s : ParseState) (hread : parseAll E stubDepth stubModules {} = (.ok (), s))
    (m : Path) (classes : List String) (x : String) (value : Value) (home : AtHome L modules m classes x value)
    (f : Fn) (hf : f.named = L.named value) (hhas : R.has f (m, classes ++ [x]) = true)
    -- its class inherits from a generic one
    (before after : List Expr) (v w : Expr) (l : Bool) (g : QPath) (params : List Path) (name : String)
    (hcne : classes ≠ []) (hcd : DefinedAt s m classes) (hx : ¬ DefinedAt s m (classes ++ [x]))
    (hb : s.classesBases.lookup (m, classes) = some (before ++ .subscript v w l :: after))
    (hgc : s.generics.lookup (m, classes) = none) (hg : s.generics.lookup g = some params)
    (hname : identifierOf rep (.subscript v w l) = some name)
    (honly : IdentifiesOnly (identifierOf rep) stubDepth s name g (bracketed w))
    (hbefore : NotBefore R.stubs (depth + 1) (m, classes) ((supersAt s m classes).length + before.length) x)
    -- other places at which it is found lead there
    (hothers : ∀ place ∈ listed index (m, classes ++ [x]), R.has f place = true →
      R.resolve place.1 [] place.2 = .ok (["__specializations"], [name, x]) ∨
        R.resolve place.1 [] place.2 = .error .objectNotFound)
    -- the definitions in the generic class
    (fs : List FunctionDef) (hfs : fs ≠ []) (hgx : DefinedAt s g.1 (g.2 ++ [x]))
    (hnodes : nodesAt s g.1 (g.2 ++ [x]) = fs.map .functionDef) (kind : NodeKind)
    (hkind : kindAt s g.1 (g.2 ++ [x]) = some kind)
    (hattr : ∀ node ∈ nodesAt s g.1 (g.2 ++ [x]), ∀ e ∈ exprsOf node,
      PlainAttributes (fun p => (params.zip (bracketed w)).lookup p) e)
    (hnc : kind ≠ .class_) (raw : Except PyErr RawSig) (hc : LookedUpAs c f raw)
    (fs' : List FunctionDef) (hfs' : fs' = fs.map (substFunction fun p => (params.zip (bracketed w)).lookup p))
    (hplain : ∀ d ∈ fs', d.args.posonlyargs = [] ∧ Parsed d.args)
    (hmeans : ∀ d ∈ fs', ∀ e ∈ partsOf d, BitOps e ∧ ∃ v, meaningOf (lenient W) R.stubs R.depth (selfKnown self) n
      ["__specializations"] [name] e = .ok v)
    (hdec : ∀ d ∈ fs', ∀ x ∈ d.decorators, Identified R ["__specializations"] [name] x)
    (hfirst : ∀ d ∈ fs', ∀ role, HasRole R d f ["__specializations"] [name] role → role ≠ .function →
      formals d.args ≠ []) :
    ∃ sig, (session R ((R.evaluator W other N).after collect) cs (initialEval self))[i]? = some (.ok sig) ∧
      WrittenBy (meaningOf (lenient W) R.stubs R.depth (selfKnown self) n ["__specializations"] [name])
        (fun d => HasRole R d f ["__specializations"] [name]) fs' sig := by
  obtain ⟨hans, ⟨kinds, k1, k2⟩, hby⟩ := generic_member E rep stubDepth stubModules s R.stubs hread hT depth m classes x
    before after v w l g params name hcne hcd hx hb hgc hg hname honly hbefore fs hfs hgx hnodes kind hkind hattr
  have hdeep : R.resolve m [] (classes ++ [x]) ≠ .error .recursionError := by
    unfold Runtime.resolve
    rw [hd, (C115_found_partial E rep stubDepth stubModules s R.stubs hread hT (m, classes) before after v w l g params
      x name depth hcne hcd hx hb hgc hg hgx hname honly hbefore).1]
    simp
  have hpaths := paths_at h hs home hf hhas ⟨by simp, by simp⟩ hans hdeep hothers k1 k2 hnc
  rw [← hfs'] at hby
  exact answer_at R W other n N collect hcollect self hN hpos hdepth E rep stubDepth stubModules hT hE href cs
    hr i c hi f (["__specializations"], [name, x]) hpaths fs' hby (by rw [hfs']; simpa using hfs) ⟨kinds, k1⟩ raw hc
    hplain hmeans hdec hfirst

end

/-! ### Samples -/

/-- In the library `D` has methods `f` and `g`, which its stub does not declare. -/
def riderWorld : World where
  vars
    | 0 => [("D", .cls 2)]
    | 2 => [("f", .other 1), ("g", .other 3)]
    | _ => []
  classes _ := (.text "m", "D")
  others
    | 1 => .function (.text "m") "D.f"
    | 3 => .function (.text "m") "D.g"
    | _ => .other
  importModule m := if m = ["m"] then some 0 else none

def riderIndex : Index := [(["m"], [(["D"], [(["m"], ["D"])]), (["D", "f"], [(["m"], ["D", "f"])]),
  (["D", "g"], [(["m"], ["D", "g"])])])]

theorem riderIndex_of : indexModules riderWorld 4 [["m"]] = .ok riderIndex := rfl

def riderRuntime : Runtime := { runtimeSample with stubs := diamondStubs, index := riderIndex }

theorem rider_home (x : String) (id : Nat) (hx : (x, Value.other id) ∈ riderWorld.vars 2)
    (ho : riderWorld.others id = .function (.text "m") ("D." ++ x)) (hn : NamesIn [.cls "D"] x)
    (hd : DefinedAs ["m"] [.cls "D"] x (.function (.text "m") ("D." ++ x))) :
    AtHome riderWorld [["m"]] ["m"] ["D"] x (.other id) where
  module := by simp
  found := ⟨0, _, rfl, .inside (id := 2) (by simp [riderWorld]) (.other hx), by simp⟩
  parts := ⟨by simp, by decide⟩
  names := hn
  defined := by
    show DefinedAs ["m"] [.cls "D"] x (riderWorld.others id)
    rw [ho]
    exact hd

/-- The method of `C`. -/
def riderC : FunctionDef := { name := "f", args := { args := [⟨"self", none⟩] }, returns := some (.constant .none) }

/-- The full statement is false: `D.f` gets the signature of `A.f` instead of the one of `C.f`. -/
theorem C117_refuted : ¬ C117_statement := by
  intro h
  have h := h riderWorld 4 9 [["m"]] riderIndex riderIndex_of riderRuntime rfl
    ⟨diamondFiles, sampleRep, 20, [["m"]], rfl⟩ ["m"] ["D"] "f" (.other 1)
    (rider_home "f" 1 (by simp [riderWorld]) rfl (fun x hx => by simp at hx; rcases hx with rfl | rfl <;> decide) .function)
    (.ofFunction { module_ := .text "m", qualname := "D.f" }) rfl rfl _ [ofM "D", ofM "B"] [ofM "A", objectClass]
    (ofM "C") diamond_hierarchy diamond_mro rfl (by decide +kernel) (by decide +kernel)
    (by rw [show riderRuntime.resolve ["m"] [] (["D"] ++ ["f"]) = .ok (["m"], ["A", "f"]) from rfl]; simp)
    (fun place hp _ => by simpa [listed, List.lookup, riderIndex] using hp) _ .function [riderC] (by simp)
    rfl rfl (by decide) ⟨_, rfl, rfl⟩ (by simp) (fun _ _ => evalSample_found)
    (.function { module_ := .text "m", qualname := "D.f" } (.error .keyError)) _ (.function _ _)
  have h1 : ∃ p, fromCallable riderRuntime
      (.function { module_ := .text "m", qualname := "D.f" } (.error .keyError)) = .ok (.plain p) ∧ p.returns = int_ :=
    ⟨_, rfl, rfl⟩
  have h2 : ∃ p, fromFunctionDef riderRuntime riderC (.ofFunction { module_ := .text "m", qualname := "D.f" }) ["m"] ["C"]
      = .ok (.plain p) ∧ p.returns = .atom .none := ⟨_, rfl, rfl⟩
  obtain ⟨p, e1, r1⟩ := h1
  obtain ⟨p', e2, r2⟩ := h2
  obtain ⟨ss, hp, -, hone, -⟩ := (h (.plain p)).1 e1
  match ss, hp with
  | [s], hp =>
    have e3 := e2.symm.trans hp.1
    cases e3
    cases hone _ rfl
    rw [r1] at r2
    cases r2

/-- The hypotheses of `C117_through_partial` hold for `D.g`. -/
example (raw : Except PyErr RawSig) (sig : Sig) :
    fromCallable riderRuntime (.function { module_ := .text "m", qualname := "D.g" } raw) = .ok sig ↔
      GivenBy riderRuntime (.ofFunction { module_ := .text "m", qualname := "D.g" }) (["m"], ["A", "g"])
        [{ name := "g", args := { args := [⟨"self", none⟩] }, returns := some (nm "int") }] sig :=
  C117_through_partial riderWorld 4 9 [["m"]] riderIndex riderIndex_of riderRuntime rfl ["m"] ["D"] "g" (.other 3)
    (rider_home "g" 3 (by simp [riderWorld]) rfl (fun x hx => by simp at hx; rcases hx with rfl | rfl <;> decide) .function)
    (.ofFunction { module_ := .text "m", qualname := "D.g" }) rfl rfl _ (ofM "A") diamond_hierarchy diamond_mro
    (by decide +kernel)
    (by rw [show riderRuntime.resolve ["m"] [] (["D"] ++ ["g"]) = .ok (["m"], ["A", "g"]) from rfl]; simp)
    (fun place hp _ => by
      have hp : place = (["m"], ["D", "g"]) := by simpa [listed, List.lookup, riderIndex] using hp
      subst hp
      exact .inl rfl)
    _ .function _ (by simp) rfl rfl (by decide) ⟨_, rfl, rfl⟩ (by simp) (fun _ _ => evalSample_found)
    _ raw (.function _ raw) sig
    (.step (b := ofM "B") (by decide +kernel) (.step (b := ofM "A") (by decide +kernel) (.refl _)))
    fun e he => by
      have : ∀ e ∈ [ofM "D", ofM "B", ofM "C", ofM "A", objectClass], e ≠ ofM "A" →
          ¬ HasMember diamondStubs.toTables "g" e := by decide +kernel
      exact this e (diamond_above he.above) he.ne

def mixedIndex : Index := [(["m"], [(["D"], [(["m"], ["D"])]), (["D", "run"], [(["m"], ["D", "run"])])])]

/-- `D` of the first sample has a method `run` that its stub does not declare. -/
def mixedRuntime : Runtime :=
  { runtimeSample with
    stubs := mixedStubs
    index := mixedIndex }

def mixedWorld : World where
  vars
    | 0 => [("D", .cls 2)]
    | 2 => [("run", .other 1)]
    | _ => []
  classes _ := (.text "m", "D")
  others
    | 1 => .function (.text "m") "D.run"
    | _ => .other
  importModule m := if m = ["m"] then some 0 else none

/-- The hypotheses of `C117_branching_partial` hold for `D.run`. -/
example (raw : Except PyErr RawSig) (sig : Sig) :
    fromCallable mixedRuntime (.function { module_ := .text "m", qualname := "D.run" } raw) = .ok sig ↔
      GivenBy mixedRuntime (.ofFunction { module_ := .text "m", qualname := "D.run" }) (["m"], ["C", "run"])
        [{ name := "run", args := { args := [⟨"self", none⟩] }, returns := some (nm "None") }] sig :=
  C117_branching_partial mixedWorld 4 9 [["m"]] mixedIndex rfl mixedRuntime rfl ["m"] ["D"] "run" (.other 1)
    ⟨by simp, ⟨0, _, rfl, .inside (id := 2) (by simp [mixedWorld]) (.other (by simp [mixedWorld])), by simp⟩,
      ⟨by simp, by decide⟩, fun x hx => by simp at hx; rcases hx with rfl | rfl <;> decide, .function⟩
    (.ofFunction { module_ := .text "m", qualname := "D.run" }) rfl rfl _ (ofM "C") mixed_hierarchy mixed_mro
    (by decide +kernel)
    (by rw [show mixedRuntime.resolve ["m"] [] (["D"] ++ ["run"]) = .ok (["m"], ["C", "run"]) from rfl]; simp)
    (fun place hp _ => by
      have hp : place = (["m"], ["D", "run"]) := by simpa [listed, List.lookup, mixedIndex] using hp
      subst hp
      exact .inl rfl)
    _ .function _ (by simp) rfl rfl (by decide) ⟨_, rfl, rfl⟩ (by simp) (fun _ _ => evalSample_found)
    _ raw (.function _ raw) sig mixed_branching (.inl (by decide +kernel)) [ofM "D", ofM "B"] [objectClass] rfl
    (by decide +kernel)

/-! Sessions. -/

theorem diamond_files : PlainFiles diamondFiles := by
  refine files_plain fun mb hmb => ?_
  simp only [List.mem_cons, List.not_mem_nil, or_false] at hmb
  rcases hmb with rfl | rfl <;>
    simp [AllPlainlyAssigning, PlainlyAssigning, PlainAssignment, BitOps, BitOpsAll, BitOpsKw, meth]

/-- Questions about `D.f` and `D.g`. -/
def riderQuestions : List Callable :=
  [.function { module_ := .text "m", qualname := "D.f" } (.error .keyError),
    .function { module_ := .text "m", qualname := "D.g" } (.error .keyError)]

theorem rider_limit : .error .recursionError ∉ session riderRuntime
    (riderRuntime.evaluator sessionPython (fun _ => "") 9) riderQuestions (initialEval (.form 99)) := by
  intro h
  simp only [riderQuestions, session, List.mem_cons, List.not_mem_nil, or_false] at h
  rcases h with h | h <;> cases h

/-- The method of `A`. -/
def riderG : FunctionDef := { name := "g", args := { args := [⟨"self", none⟩] }, returns := some (nm "int") }

/-- The hypotheses of `C117_written_partial` hold for `D.g`. -/
example : ∃ s, (session riderRuntime (riderRuntime.evaluator sessionPython (fun _ => "") 9)
      riderQuestions (initialEval (.form 99)))[1]? = some (.ok s) ∧
    WrittenBy (meaningOf (lenient sessionPython) riderRuntime.stubs riderRuntime.depth (selfKnown (.form 99)) 3
        ["m"] ["A"])
      (fun d => HasRole riderRuntime d (.ofFunction { module_ := .text "m", qualname := "D.g" }) ["m"] ["A"])
      [riderG] s := by
  refine C117_written_partial riderRuntime sessionPython (fun _ => "") 3 9 _ keepingAll (.form 99) (by decide)
    (by decide) (by decide) diamondFiles sampleRep 20 [["m"]] rfl diamond_files
    (fun _ => ⟨_, rfl⟩) riderQuestions rider_limit 1 _ rfl riderWorld 4 9 [["m"]] riderIndex riderIndex_of rfl
    ["m"] ["D"] "g" (.other 3)
    (rider_home "g" 3 (by simp [riderWorld]) rfl (fun x hx => by simp at hx; rcases hx with rfl | rfl <;> decide) .function)
    (.ofFunction { module_ := .text "m", qualname := "D.g" }) rfl rfl _ (ofM "A") diamond_hierarchy diamond_mro
    (.through (.step (b := ofM "B") (by decide +kernel) (.step (b := ofM "A") (by decide +kernel) (.refl _)))
      (by decide +kernel) fun e he => ?_)
    (by rw [show riderRuntime.resolve ["m"] [] (["D"] ++ ["g"]) = .ok (["m"], ["A", "g"]) from rfl]; simp)
    (fun place hp _ => ?_)
    _ .function [riderG] (by simp) rfl rfl (by decide) ⟨_, rfl, rfl⟩ (by simp) _ (.function _ _) ?_ ?_ ?_ ?_
  · have : ∀ e ∈ [ofM "D", ofM "B", ofM "C", ofM "A", objectClass], e ≠ ofM "A" →
        ¬ HasMember diamondStubs.toTables "g" e := by decide +kernel
    exact this e (diamond_above he.above) he.ne
  · have hp : place = (["m"], ["D", "g"]) := by simpa [listed, List.lookup, riderIndex] using hp
    subst hp
    exact .inl rfl
  · intro d hd
    cases List.mem_singleton.1 hd
    exact ⟨rfl, by decide, by decide, by decide⟩
  · intro d hd e he
    cases List.mem_singleton.1 hd
    have : e = nm "int" := by simpa [partsOf, argumentsParts, riderG, Option.toList] using he
    subst this
    exact ⟨trivial, _, rfl⟩
  · intro d hd x hx
    cases List.mem_singleton.1 hd
    cases hx
  · intro d hd _ _ _
    cases List.mem_singleton.1 hd
    decide

theorem kin_files : PlainFiles (filesOf kinFiles) := by
  refine files_plain fun mb hmb => ?_
  simp only [kinFiles, List.mem_cons, List.not_mem_nil, or_false] at hmb
  rcases hmb with rfl | rfl <;>
    simp [AllPlainlyAssigning, PlainlyAssigning, PlainAssignment, BitOps, BitOpsAll, BitOpsKw, typingHead, sampleBuiltins, meth, nm, tgt]

/-- A question about `C.f`. -/
def kinQuestions : List Callable := [.function { module_ := .text "m", qualname := "C.f" } (.error .keyError)]

theorem kin_limit : .error .recursionError ∉ session kinRuntime
    (kinRuntime.evaluator sessionPython (fun _ => "") 9) kinQuestions (initialEval (.form 99)) := by
  intro h
  simp only [kinQuestions, session, List.mem_cons, List.not_mem_nil, or_false] at h
  cases h

/-- `def f(self) -> int`. -/
def kinF : FunctionDef := { name := "f", args := { args := [⟨"self", none⟩] }, returns := some (nm "int") }

/-- The hypotheses of `C115_written_partial` hold for `C.f`. -/
example : ∃ s, (session kinRuntime (kinRuntime.evaluator sessionPython (fun _ => "") 9)
      kinQuestions (initialEval (.form 99)))[0]? = some (.ok s) ∧
    WrittenBy (meaningOf (lenient sessionPython) kinRuntime.stubs kinRuntime.depth (selfKnown (.form 99)) 3
        ["__specializations"] ["G_getitem_int"])
      (fun d => HasRole kinRuntime d (.ofFunction { module_ := .text "m", qualname := "C.f" })
        ["__specializations"] ["G_getitem_int"]) [kinF] s := by
  refine C115_written_partial kinRuntime sessionPython (fun _ => "") 3 9 _ keepingAll (.form 99) (by decide)
    (by decide) (by decide) (filesOf kinFiles) sampleRep 20 [["m"]] kinStubs_read kin_files
    (fun _ => ⟨_, rfl⟩) kinQuestions kin_limit 0 _ rfl kinWorld 4 5 [["m"]] _ kinIndex rfl 8 rfl
    (readAll kinFiles [["m"]]) rfl ["m"] ["C"] "f" (.other 1)
    ⟨by simp, ⟨0, _, rfl, .inside (id := 2) (by simp [kinWorld]) (.other (by simp [kinWorld])), by simp⟩,
      ⟨by simp, by decide⟩, fun x hx => by simp at hx; rcases hx with rfl | rfl <;> decide, .function⟩
    (.ofFunction { module_ := .text "m", qualname := "C.f" }) rfl rfl [] [] (nm "G") (nm "int") true
    (["m"], ["G"]) [["T"]] "G_getitem_int" (by simp) ⟨_, kin_known, _, rfl, trivial⟩ kin_undefined rfl rfl rfl
    rfl kin_only (fun q hq => nomatch hq) (fun place hp _ => ?_)
    [{ name := "f", args := { args := [⟨"self", none⟩] }, returns := some (nm "T") }] (by simp)
    ⟨_, kin_known, _, rfl, _, rfl, trivial⟩ rfl .function rfl kin_plain (by decide) _ (.function _ _) [kinF] rfl
    ?_ ?_ ?_ ?_
  · have hp : place = (["m"], ["C", "f"]) := by simpa [listed, List.lookup] using hp
    subst hp
    exact .inl rfl
  · intro d hd
    cases List.mem_singleton.1 hd
    exact ⟨rfl, by decide, by decide, by decide⟩
  · intro d hd e he
    cases List.mem_singleton.1 hd
    have : e = nm "int" := by simpa [partsOf, argumentsParts, kinF, Option.toList] using he
    subst this
    exact ⟨trivial, _, rfl⟩
  · intro d hd x hx
    cases List.mem_singleton.1 hd
    cases hx
  · intro d hd _ _ _
    cases List.mem_singleton.1 hd
    decide

end Paradigm.Props
