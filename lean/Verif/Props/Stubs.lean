import Verif.Lemmas.Resolving
import Verif.Props.Lookup

/-!
# C29, C39–C45, C48, C49, C65, C67: reading stub files
-/

namespace Paradigm.Props

open Spec

/-! ### Samples -/

/-- A name that is read. -/
def nm (id : String) : Expr := .name id true

/-- A name that is assigned to. -/
def tgt (id : String) : Expr := .name id false

/-- `def name(): ...`. -/
def defn (name : String) (returns : Option Expr := none) : FunctionDef :=
  { name := name, args := {}, returns := returns }

/-- Files given as a table; a test holds unless it is the name `no`. -/
def filesOf (d : Dict Path (List Stmt)) : StubFiles :=
  { source := fun m => d.lookup m
    isPackage := fun _ => false
    condition := fun test _ => match test with
      | .name "no" _ => .ok false
      | _ => .ok true }

/-- The outcomes of the tests of `filesOf`. -/
def sampleOutcome : Expr → Bool
  | .name "no" _ => false
  | _ => true

theorem filesOf_decides (d : Dict Path (List Stmt)) : Decides (filesOf d) sampleOutcome := by
  intro test ns b h
  cases test <;> first
    | exact (Except.ok.inj h).symm
    | (simp only [filesOf] at h
       unfold sampleOutcome
       split at h <;> simp_all)

/-- Two modules that import each other; an overloaded function and a class. -/
def cyclicFiles : StubFiles := filesOf [
  (["builtins"], []),
  (["a"], [.importFrom (some "b") [⟨"f", none⟩] 0,
    .functionDef (defn "g" (some (nm "int"))), .functionDef (defn "g" (some (nm "str"))),
    .classDef "C" [nm "f"] [] [.functionDef (defn "m"), .annAssign (tgt "x") (nm "int") none]]),
  (["b"], [.importFrom (some "a") [⟨"*", none⟩] 0, .functionDef (defn "f"),
    .ifStmt (nm "no") [.functionDef (defn "dead")] [.functionDef (defn "live")],
    .classDef "D" [nm "C"] [] []])]

/-- The tables after both modules were read. -/
def cyclicState : ParseState := (parseAll cyclicFiles 20 [["a"], ["b"]] {}).2

example : (parseAll cyclicFiles 20 [["a"], ["b"]] {}).1.isOk = true := rfl

/-! ### C39 -/

/-- **C39.** However modules import each other, and however the parse ends, no source is asked for
twice. -/
theorem C39_read_once (E : StubFiles) (n : Nat) (modules : List Path) :
    (parseAll E n modules {}).2.reads.Nodup :=
  ((parseAll_pres readOnce_preorder (parsing_rels (readOnce_rels E) n).2.2 modules) {}
    ⟨by simp, by simp⟩).2

/-- **C39.** Visiting a module again changes nothing at all. -/
theorem C39_revisit (E : StubFiles) (n : Nat) (m : Path) (s : ParseState) (h : m ∈ s.visited) :
    (parseScope E n m s).2 = s := by
  cases n with
  | zero => rw [parseScope]; rfl
  | succ n => rw [parse_visited E n h]; exact item_state _ _ _

/-- **C39.** Reading other modules changes nothing about a module visited before. -/
theorem C39_others (E : StubFiles) (n : Nat) (m other : Path) (s : ParseState)
    (h : m ∈ s.visited) : SameAt s (parseScope E n other s).2 m :=
  ((parsing_ext E n).2.2 other s).same m h id

example : cyclicState.reads = [["b"], ["a"], ["builtins"]] := rfl

/-! ### C40 -/

/-- **C40.** At any time, however the parse ends, an object with a recorded node or kind is defined
in its module. -/
theorem C40_recorded_defined (E : StubFiles) (n : Nat) (modules : List Path) (m path : Path)
    (h : Recorded (parseAll E n modules {}).2 m path) :
    DefinedAt (parseAll E n modules {}).2 m path := by
  have hR : Preorder' (KeepsIf (fun _ => True)) := keepsIf_preorder fun _ _ _ h => h
  have start : Consistent {} := by
    refine ⟨fun m p h => ?_, fun m p h => ?_⟩
    · rcases h with ⟨d, _, h, _⟩ | ⟨d, _, h, _⟩ <;> cases h
    · obtain ⟨d, h, _⟩ := h; cases h
  exact ((parseAll_pres hR (parsing_rels (consistent_rels E) n).2.2 modules) {} trivial start).1
    |>.defined m path h

example : Recorded cyclicState ["a"] ["C", "m"] := .inl ⟨_, _, rfl, rfl⟩
example : Recorded cyclicState ["a"] ["C"] := .inr ⟨_, _, rfl, rfl⟩

/-! ### C29, C67 -/

/-- **C29** / **C67**, full statement: every module read has all of its declarations recorded, in
order. -/
def C67_statement : Prop :=
  ∀ (E : StubFiles) (o : Expr → Bool), Decides E o → ∀ (n : Nat) (modules : List Path)
    (t : ParseState), parseAll E n modules {} = (.ok (), t) →
    ∀ m ∈ modules, ∀ body, E.source m = some body → ∀ p, p ∉ classPathsAll o [] body →
      nodesAt t m p = declaredAt (declaredAll o [] body) p

/-- `b` cannot be read to its end (`Unknown` is not found), which is noticed while a name of `a` is
looked up and then forgotten. -/
def brokenFiles : StubFiles := filesOf [
  (["builtins"], []),
  (["a"], [.importFrom (some "b") [⟨"*", none⟩] 0, .assign [tgt "x"] (nm "missing")]),
  (["b"], [.functionDef (defn "f"), .classDef "D" [.subscript (nm "Unknown") (nm "f") true] [] [],
    .functionDef (defn "g")])]

/-- A module may be left half read without an error: `g` is lost. -/
theorem C67_refuted : ¬ C67_statement := by
  intro h
  have hp : ["g"] ∉ classPathsAll sampleOutcome [] [.functionDef (defn "f"),
      .classDef "D" [.subscript (nm "Unknown") (nm "f") true] [] [], .functionDef (defn "g")] := by
    decide
  have := h brokenFiles sampleOutcome (filesOf_decides _) 20 [["a"], ["b"]] _ rfl ["b"] (by decide)
    _ rfl ["g"] hp
  cases this

/-- **C67**, what holds (missing: modules whose reading was broken off inside of another lookup).
A module whose own reading came to an end has exactly its declarations recorded, each path with
those of the taken branches in source order. -/
theorem C67_complete_partial (E : StubFiles) (o : Expr → Bool) (ho : Decides E o) (n : Nat)
    (m : Path) (s t : ParseState) (scope : Scope) (body : List Stmt) (hm : m ∉ s.visited)
    (hsrc : E.source m = some body) (h : parseScope E n m s = (.ok scope, t)) (p : Path)
    (hp : p ∉ classPathsAll o [] body) :
    nodesAt t m p = declaredAt (declaredAll o [] body) p :=
  parse_nodes ho hm hsrc h hp

example : nodesAt cyclicState ["a"] ["g"] = [.functionDef (defn "g" (some (nm "int"))),
    .functionDef (defn "g" (some (nm "str")))] := rfl
example : (nodesAt cyclicState ["b"] ["dead"]).length = 0 ∧
    (nodesAt cyclicState ["b"] ["live"]).length = 1 := ⟨rfl, rfl⟩

/-- **C67**, always: whatever is recorded for a module is a beginning of what it declares; nothing
is invented, repeated or reordered, even when the parse fails. -/
theorem C67_nothing_else (E : StubFiles) (o : Expr → Bool) (ho : Decides E o) (n : Nat)
    (modules : List Path) (m : Path) (body : List Stmt) (hsrc : E.source m = some body) (p : Path)
    (hp : p ∉ classPathsAll o [] body) :
    nodesAt (parseAll E n modules {}).2 m p <+: declaredAt (declaredAll o [] body) p := by
  have H := begun_rels ho
  have h := (parseAll_pres H.preR (parsing_rels H n).2.2 modules) {}
  have hb := h.2 (fun _ _ => rfl)
  by_cases hm : m ∈ (parseAll E n modules {}).2.visited
  · exact (hb.2 m hm (by simp)).2 body hsrc p hp
  · unfold nodesAt
    rw [hb.1 m hm]
    exact List.nil_prefix

example : (nodesAt (parseAll brokenFiles 20 [["a"], ["b"]] {}).2 ["b"] ["f"]).length = 1 ∧
    (nodesAt (parseAll brokenFiles 20 [["a"], ["b"]] {}).2 ["b"] ["g"]).length = 0 := ⟨rfl, rfl⟩

/-- **C29**, from the source on: if the stub source of a module declares the callable by function
definitions only, its signature has exactly the signatures of these, in source order; one definition
gives a plain signature. Missing: definitions for which no signature is found (they send the whole
callable to `inspect`). -/
theorem C29_source_partial (E : StubFiles) (o : Expr → Bool) (ho : Decides E o) (n : Nat)
    (s t : ParseState) (scope : Scope) (body : List Stmt) (R : Runtime) (value : Fn)
    (m object : Path) (others : List QPath) (fs : List FunctionDef)
    (hm : m ∉ s.visited) (hsrc : E.source m = some body)
    (hparse : parseScope E n m s = (.ok scope, t))
    (hobj : object ∉ classPathsAll o [] body)
    (hfs : declaredAt (declaredAll o [] body) object = fs.map .functionDef) (hne : fs ≠ [])
    (hraw : R.stubs.rawAstNodes.lookup m = t.nodes.lookup m) (hd : R.depth ≠ 0)
    (hq : toQualifiedPaths R value = .ok ((m, object) :: others)) (sig : Sig)
    (hno : ∀ f ∈ fs, fromFunctionDef R f value m object.dropLast ≠ .error .signatureNotFound) :
    fromFn R value = .ok sig ↔ ∃ ss : List PlainSig,
      Pointwise (fun f p => fromFunctionDef R f value m object.dropLast = .ok (.plain p)) fs ss ∧
      (∀ p, ss = [p] → sig = .plain p) ∧ (2 ≤ ss.length → sig = .overloaded ss) ∧ ss ≠ [] := by
  have hnodes := parse_nodes ho hm hsrc hparse hobj
  rw [hfs] at hnodes
  unfold nodesAt at hnodes
  cases hl : t.nodes.lookup m with
  | none => rw [hl] at hnodes; cases fs with
    | nil => exact absurd rfl hne
    | cons f fs => cases hnodes
  | some nodes =>
    rw [hl, Option.getD_some] at hnodes
    cases ho' : nodes.lookup object with
    | none => rw [ho'] at hnodes; cases fs with
      | nil => exact absurd rfl hne
      | cons f fs => cases hnodes
    | some l =>
      rw [ho', Option.getD_some] at hnodes
      exact C29_overloads_partial R value m object others nodes fs hd hq (hraw.trans hl)
        (by rw [ho', hnodes]) sig hno

/-! ### C41 -/

/-- **C41**, full statement: if every name a test reads can be resolved, and the test can be
evaluated once its names are supplied, then the selected branch is visited and nothing else
happens. -/
def C41_statement : Prop :=
  ∀ (E : StubFiles) (o : Expr → Bool), Evaluates E o → ∀ (n : Nat) (c : Place) (test : Expr)
    (body orelse : List Stmt) (s : ParseState),
    (∀ name ∈ loadedNames test, ∃ q, resolveP E n c.module c.parent [name] s = (.ok q, s)) →
    visit E (n + 1) c (.ifStmt test body orelse) s
      = P.each (visit E n c) (if o test then body else orelse) s

/-- Files without content whose tests need the names they consist of. -/
def needyFiles : StubFiles :=
  { source := fun _ => none
    isPackage := fun _ => false
    condition := fun test ns =>
      if (loadedNames test).all (fun name => (ns.map Prod.fst).contains name) then .ok true
      else .error .nameError }

/-- The tables of a module that defines `FLAG`. -/
def flagState : ParseState :=
  { definitions := [(["m"], .mk [("FLAG", .mk [])])], visited := [["m"]] }

/-- A test that is just a name fails: names are looked for below the test only. -/
theorem C41_refuted : ¬ C41_statement := by
  intro h
  have hE : Evaluates needyFiles (fun _ => true) := by
    intro test ns hall
    have : (loadedNames test).all (fun name => (ns.map Prod.fst).contains name) = true := by
      rw [List.all_eq_true]
      intro x hx
      simpa using hall x hx
    simp only [needyFiles, this, if_true]
  have := h needyFiles (fun _ => true) hE 3 ⟨["m"], []⟩ (nm "FLAG") [] [] flagState (by
    intro name hn
    have : name = "FLAG" := by simpa [loadedNames, nm, subtrees] using hn
    subst this
    exact ⟨(["m"], ["FLAG"]), rfl⟩)
  exact absurd (congrArg Prod.fst this) (by
    show (.error .nameError : Except PyErr Unit) ≠ .ok ()
    intro h
    cases h)

/-- **C41**, what holds (missing: tests that are a single name). -/
theorem C41_branch_partial (E : StubFiles) (o : Expr → Bool) (hE : Evaluates E o) (n : Nat)
    (c : Place) (test : Expr) (hname : ∀ id load, test ≠ .name id load) (body orelse : List Stmt)
    (s : ParseState)
    (hres : ∀ name ∈ loadedNames test, ∃ q, resolveP E n c.module c.parent [name] s = (.ok q, s)) :
    visit E (n + 1) c (.ifStmt test body orelse) s
      = P.each (visit E n c) (if o test then body else orelse) s := by
  obtain ⟨ns, h1, h2⟩ := map_resolve_ok (resolve := resolveP E n) (c := c) (s := s)
    (E.order test.dependencies) fun name h =>
      hres name (dependencies_sound name ((E.order_perm _).mem_iff.1 h))
  have htest : evaluateTest E (resolveP E n) c test s = (.ok (o test), s) := by
    unfold evaluateTest
    rw [bind_of_ok h2]
    unfold P.lift
    rw [hE test ns fun name h => h1 ▸ (E.order_perm _).mem_iff.2
      (dependencies_complete hname name h)]
  simp only [visit]
  rw [bind_of_ok htest]

example : visit needyFiles 4 ⟨["m"], []⟩ (.ifStmt (.attribute (nm "FLAG") "x" true)
    [.functionDef (defn "f")] [.functionDef (defn "g")]) flagState
    = visit needyFiles 3 ⟨["m"], []⟩ (.functionDef (defn "f")) flagState := rfl

/-- **C41**, for a whole run: emptying every branch that is not taken, in all files, changes neither
the outcome nor any table. -/
theorem C41_untaken_irrelevant (E : StubFiles) (o : Expr → Bool) (ho : Decides E o) (n : Nat)
    (modules : List Path) (s : ParseState) :
    parseAll (pruned E o) n modules s = parseAll E n modules s := by
  have h : parseScope (pruned E o) n = parseScope E n := funext (pruned_same ho n).2.2
  unfold parseAll
  rw [h]

example : (pruned cyclicFiles sampleOutcome).source ["b"] = some [
    .importFrom (some "a") [⟨"*", none⟩] 0, .functionDef (defn "f"),
    .ifStmt (nm "no") [] [.functionDef (defn "live")], .classDef "D" [nm "C"] [] []] := rfl

/-! ### C42 -/

/-- **C42.** `import a.b.c` makes `a`, `a.b` and `a.b.c` refer to these modules, `import a.b as n`
makes `n` refer to `a.b`; nothing else changes. Of several, the last counts. -/
theorem C42_import (E : StubFiles) (n : Nat) (c : Place) (names : List Alias)
    (split : String → Path) (hsplit : ∀ a ∈ names, Names a.name (split a.name)) (s : ParseState)
    (p : Path) :
    ∃ t, visit E (n + 1) c (.import_ names) s = (.ok (), t) ∧
      referenceAt t c.module p
        = (lastBinding (fun a : Alias => importBinds (split a.name) a.asname p) names).or
          (referenceAt s c.module p) := by
  have inner : ∀ (bs : List (Path × QPath)) (s : ParseState),
      (P.each (fun b : Path × QPath => P.update (addReference c b.1 b.2)) bs s).1 = .ok () := by
    intro bs
    induction bs with
    | nil => exact fun _ => rfl
    | cons b bs ih => exact fun s => ih (addReference c b.1 b.2 s)
  have outer : ∀ (as : List Alias) (s : ParseState), (visitImport c as s).1 = .ok () := by
    intro as
    induction as with
    | nil => exact fun _ => rfl
    | cons a as ih =>
      intro s
      unfold visitImport
      show ((P.each _ _ >>= fun _ => visitImport c as) s).1 = _
      rw [bind_of_ok (Prod.ext (inner _ s) rfl)]
      exact ih _
  refine ⟨(visitImport c names s).2, ?_, ?_⟩
  · simp only [visit]
    exact Prod.ext (outer names s) rfl
  · refine each_ref_last c p names (fun a ha s => ?_) s _ (Prod.ext (outer names s) rfl)
    rw [each_references, importBindings_last (hsplit a ha)]

/-- **C42.** `from m import x` / `from m import x as y` makes `x` / `y` refer to `x` of `m`; nothing
else changes. -/
theorem C42_from (E : StubFiles) (n : Nat) (c : Place) (m : Option String) (names : List Alias)
    (level : Nat) (target : Path) (hstar : ∀ a ∈ names, a.name ≠ "*")
    (hdots : ∀ a ∈ names, Names a.name [a.name])
    (htarget : toParentModulePath E.isPackage (m.map pathFromString) level c.module = .ok target)
    (s : ParseState) (p : Path) :
    ∃ t, visit E (n + 1) c (.importFrom m names level) s = (.ok (), t) ∧
      referenceAt t c.module p
        = (lastBinding (fun a : Alias => fromBinds target a.name a.asname p) names).or
          (referenceAt s c.module p) := by
  have hvisit : visit E (n + 1) c (.importFrom m names level) s = P.each (fun alias : Alias =>
      if alias.name = "*" then P.update (addSubmodule c target)
      else P.update (addReference c (match alias.asname with
        | none => pathFromString alias.name
        | some asname => [asname]) (target, pathFromString alias.name))) names s := by
    simp only [visit, visitImportFrom]
    rw [bind_of_ok (t := s) (a := target) (by unfold P.lift; rw [htarget])]
    all_goals rfl
  rw [hvisit]
  have outer : ∀ (as : List Alias) (s : ParseState), (P.each (fun alias : Alias =>
      if alias.name = "*" then P.update (addSubmodule c target)
      else P.update (addReference c (match alias.asname with
        | none => pathFromString alias.name
        | some asname => [asname]) (target, pathFromString alias.name))) as s).1 = .ok () := by
    intro as
    induction as with
    | nil => exact fun _ => rfl
    | cons a as ih =>
      intro s
      show (((if a.name = "*" then P.update (addSubmodule c target) else _)
        >>= fun _ => P.each _ as) s).1 = _
      by_cases e : a.name = "*"
      · rw [if_pos e]; exact ih _
      · rw [if_neg e]; exact ih _
  refine ⟨_, Prod.ext (outer names s) rfl, ?_⟩
  refine each_ref_last c p names (fun a ha s => ?_) s _ (Prod.ext (outer names s) rfl)
  rw [if_neg (hstar a ha), pathFromString_eq (hdots a ha)]
  show referenceAt (addReference c _ _ s) c.module p = _
  rw [referenceAt_addReference]
  unfold fromBinds
  cases a.asname with
  | none =>
    simp only [Option.getD_none]
    by_cases e : p = [a.name] <;> simp [e]
  | some y =>
    simp only [Option.getD_some]
    by_cases e : p = [y] <;> simp [e]

/-- **C42.** A name that is not defined in its module (and there are no star imports) resolves
through the longest of its beginnings that an import bound. -/
theorem C42_resolve (E : StubFiles) (n : Nat) (m parent : Path) (head : String) (rest : Path)
    (s : ParseState) (defs : Scope) (refs : Dict Path QPath) (k : Nat) (q : QPath)
    (hv : m ∈ s.visited) (hd : s.definitions.lookup m = some defs)
    (hno : ¬ Defines defs (parent ++ [head])) (hno' : ¬ Defines defs [head])
    (hstar : (s.submodules.lookup m).getD [] = []) (hr : s.references.lookup m = some refs)
    (hk : 1 ≤ k) (hk' : k ≤ rest.length + 1)
    (hq : refs.lookup ((head :: rest).take k) = some q)
    (hlong : ∀ j, k < j → j ≤ rest.length + 1 → refs.lookup ((head :: rest).take j) = none) :
    resolveP E (n + 2) m parent (head :: rest) s = (.ok (q.1, q.2 ++ (head :: rest).drop k), s) :=
  resolveP_reference E n hv hd hno hno' hstar hr hk hk' hq hlong

/-- `import a.b.c, d.e as f`, `from g import h as i`. -/
def importFiles : StubFiles := filesOf [
  (["m"], [.import_ [⟨"a.b.c", none⟩, ⟨"d.e", some "f"⟩],
    .importFrom (some "g") [⟨"h", some "i"⟩] 0])]

example : Names "a.b.c" ["a", "b", "c"] := ⟨by decide, by decide, by decide⟩
example : referenceAt (parseScope importFiles 9 ["m"] {}).2 ["m"] ["a", "b"] =
    some (["a", "b"], []) := by decide
example : (resolveP importFiles 9 ["m"] [] ["a", "b", "c", "X"] {}).1 =
    .ok (["a", "b", "c"], ["X"]) := rfl
example : (resolveP importFiles 9 ["m"] [] ["f", "X"] {}).1 = .ok (["d", "e"], ["X"]) := rfl
example : (resolveP importFiles 9 ["m"] [] ["i", "X"] {}).1 = .ok (["g"], ["h", "X"]) := rfl
example : referenceAt (parseScope importFiles 9 ["m"] {}).2 ["m"] ["d"] = none := by decide

end Paradigm.Props
