import Verif.Props.Stubs
import Verif.Spec.Fields

/-!
# C43–C45, C48, C49: aliases, relative imports, type arguments, named tuples, tree iteration
-/

namespace Paradigm.Props

open Spec

/-! ### C43 -/

/-- **C43**, full statement: an alias in a class or module binds exactly the name of the target
within that class or module, to what the value resolves to. -/
def C43_statement : Prop :=
  ∀ (E : StubFiles) (n : Nat) (c : Place) (target value : Expr) (x y : Path) (q : QPath)
    (s : ParseState), dotted target = some x → dotted value = some y →
    resolveP E n c.module c.parent y s = (.ok q, s) →
    ∃ t, visit E (n + 1) c (.assign [target] value) s = (.ok (), t) ∧
      t.definitions = s.definitions ∧
      ∀ p, referenceAt t c.module p
        = if p = c.parent ++ x then some q else referenceAt s c.module p

/-- **C43**, what happens instead (missing: aliases in classes): the alias is always bound at module
level. -/
theorem C43_module_alias_partial (E : StubFiles) (n : Nat) (c : Place) (target value : Expr)
    (x y : Path) (q : QPath) (s : ParseState) (hx : dotted target = some x)
    (hy : dotted value = some y) (hq : resolveP E n c.module c.parent y s = (.ok q, s)) :
    ∃ t, visit E (n + 1) c (.assign [target] value) s = (.ok (), t) ∧
      t.definitions = s.definitions ∧
      ∀ p, referenceAt t c.module p = if p = x then some q else referenceAt s c.module p := by
  refine ⟨addReference c x q s, ?_, rfl, fun p => referenceAt_addReference c x q s p⟩
  simp only [visit, visitAssign, toMaybePath_eq, hy]
  have h1 : toQualified (resolveP E n) c y s = (.ok q, s) := by
    unfold toQualified P.orNotFound
    rw [hq]
  rw [bind_of_ok h1]
  show ((P.lift (toPath target) >>= fun path => P.update (addReference c path q)) >>=
    fun _ => P.each _ []) s = _
  have h2 : P.lift (toPath target) s = (.ok x, s) := by
    unfold P.lift
    rw [toPath_of_dotted hx]
  rw [bind_of_ok (t := addReference c x q s) (a := ()) (by rw [bind_of_ok h2]; rfl)]
  rfl

/-- An alias in a class binds a name of the module. -/
theorem C43_refuted : ¬ C43_statement := by
  intro h
  obtain ⟨t, ht, _, h⟩ := h needyFiles 3 ⟨["m"], ["C"]⟩ (tgt "x") (nm "FLAG") ["x"] ["FLAG"]
    (["m"], ["FLAG"]) flagState rfl rfl rfl
  obtain ⟨t', ht', _, h'⟩ := C43_module_alias_partial needyFiles 3 ⟨["m"], ["C"]⟩ (tgt "x")
    (nm "FLAG") ["x"] ["FLAG"] (["m"], ["FLAG"]) flagState rfl rfl rfl
  have : t = t' := by rw [ht] at ht'; exact (Prod.mk.inj ht').2
  subst this
  have h1 := h ["x"]
  have h2 := h' ["x"]
  rw [h1] at h2
  exact absurd h2 (by decide)

example : referenceAt (visit needyFiles 4 ⟨["m"], []⟩ (.assign [tgt "x"] (nm "FLAG")) flagState).2
    ["m"] ["x"] = some (["m"], ["FLAG"]) := by decide

/-! ### C44 -/

/-- **C44**, full statement: relative imports lead where Python's import system leads, and are
rejected where it rejects them. -/
def C44_statement : Prop :=
  ∀ (isPackage : Path → Bool) (name : Option Path) (m : Path) (level : Nat), level ≠ 0 →
    match resolveName (isPackage m) m level (name.getD []) with
    | some r => toParentModulePath isPackage name level m = .ok r
    | none => ∃ e, toParentModulePath isPackage name level m = .error e

/-- `from . import x` in a top-level module leads to the module itself instead of an error. -/
theorem C44_refuted : ¬ C44_statement := by
  intro h
  obtain ⟨e, h⟩ := h (fun _ => false) none ["a"] 1 (by decide)
  cases h

/-- **C44**, what holds (missing: imports that Python rejects). -/
theorem C44_relative_partial (isPackage : Path → Bool) (name : Option Path) (m : Path) (level : Nat)
    (hl : level ≠ 0) (r : Path)
    (h : resolveName (isPackage m) m level (name.getD []) = some r) :
    toParentModulePath isPackage name level m = .ok r := by
  cases name with
  | none => rw [parentPath_none isPackage m level hl]; exact parentPath_legal _ _ _ _ hl _ h
  | some name => exact parentPath_legal _ _ _ _ hl _ h

/-- **C44.** Absolute imports lead to the module named. -/
theorem C44_absolute (isPackage : Path → Bool) (name m : Path) :
    toParentModulePath isPackage (some name) 0 m = .ok name := rfl

example : resolveName false ["p", "q", "r"] 2 ["s"] = some ["p", "s"] := rfl
example : resolveName true ["p", "q", "r"] 2 [] = some ["p", "q"] := rfl
example : resolveName false ["a"] 1 [] = none := rfl

/-! ### C45 -/

/-- **C45**, full statement. -/
def C45_statement : Prop :=
  ∀ (value slice : Expr) (load : Bool),
    collectTypeArgs (.subscript value slice load) = argLeaves (.subscript value slice load)

/-- For `Base[A, List[B]]` the argument `B` comes first. -/
theorem C45_refuted : ¬ C45_statement := by
  intro h
  have := h (nm "Base") (.tuple [nm "A", .subscript (nm "List") (nm "B") true] true) true
  exact absurd this (by
    show [nm "B", nm "A"] ≠ [nm "A", nm "B"]
    intro h
    simp [nm] at h)

/-- **C45**, what holds (missing: the order of nested arguments): every innermost argument is
collected exactly as often as it occurs; without nested brackets also in order. -/
theorem C45_collected_partial (value slice : Expr) (load : Bool) :
    (collectTypeArgs (.subscript value slice load)).Perm
      (argLeaves (.subscript value slice load)) ∧
    ((∀ v s l, .subscript v s l ∉ bracketed slice) →
      collectTypeArgs (.subscript value slice load)
        = argLeaves (.subscript value slice load)) := by
  refine ⟨collectTypeArgs_perm value slice load, fun h => ?_⟩
  have h : ∀ c ∈ bracketed slice, c.isSubscript = false := by
    intro c hc
    cases c
    case subscript v s l => exact absurd hc (h v s l)
    all_goals rfl
  rw [collectTypeArgs_flat _ _ _ h, argLeaves_subscript]
  unfold sliceLeaves
  have all : ∀ cs : List Expr, (∀ c ∈ cs, c.isSubscript = false) → argLeavesAll cs = cs := by
    intro cs
    induction cs with
    | nil => exact fun _ => rfl
    | cons c cs ih =>
      intro h
      rw [argLeavesAll, argLeaves_other (h c List.mem_cons_self),
        ih fun x hx => h x (List.mem_cons_of_mem _ hx)]
      rfl
  exact (all _ h).symm

example : collectTypeArgs (.subscript (nm "Base") (.tuple [nm "A", nm "B"] true) true)
    = [nm "A", nm "B"] := rfl

/-! ### C48 -/

/-- **C48**, full statement: the constructor of a named tuple takes the annotated fields of the
branches taken, in order, with the defaults given, after the class. -/
def C48_statement : Prop :=
  ∀ (o : Expr → Bool) (name : String) (body : List Stmt) (fields : List Field),
    IsFields o body fields → ∃ f, namedTupleConstructor name body = .ok f ∧ ConstructorOf name fields f

/-- A field below a version check is forgotten. -/
theorem C48_refuted : ¬ C48_statement := by
  intro h
  obtain ⟨f, hf, _, hargs, _⟩ := h (fun _ => true) "T"
    [.ifStmt (nm "NEW") [.annAssign (tgt "x") (nm "int") none] []] [⟨"x", nm "int", none⟩] rfl
  cases hf
  cases hargs

/-- **C48**, what holds (missing: fields below `if`). -/
theorem C48_constructor_partial (o : Expr → Bool) (name : String) (body : List Stmt)
    (fields : List Field) (hif : ∀ test b c, .ifStmt test b c ∉ body)
    (h : IsFields o body fields) :
    ∃ f, namedTupleConstructor name body = .ok f ∧ ConstructorOf name fields f := by
  have hb : annotatedFields body = fields.map fun f => (.name f.name false, f.type, f.default) := by
    rw [← h]
    clear h
    induction body with
    | nil => rfl
    | cons node body ih =>
      have ih := ih fun t b c hm => hif t b c (List.mem_cons_of_mem _ hm)
      cases node
      case ifStmt t b c => exact absurd List.mem_cons_self (hif t b c)
      all_goals simp [annotatedFields, fieldsAll, fieldsOf, ih]
  unfold namedTupleConstructor
  rw [hb]
  have hm : mapExcept fieldArg (fields.map fun f => (Expr.name f.name false, f.type, f.default))
      = .ok (fields.map fun f => ⟨f.name, some f.type⟩) := by
    clear h hb
    induction fields with
    | nil => rfl
    | cons f fs ih => rw [List.map_cons, mapExcept, ih]; rfl
  rw [hm]
  refine ⟨_, rfl, rfl, rfl, ?_, rfl, rfl, rfl, rfl, rfl⟩
  clear h hb hm
  simp only [List.filterMap_map]
  rfl

/-- **C48.** A class one of whose bases is `NamedTuple` has the constructor recorded for it. -/
theorem C48_recorded (E : StubFiles) (n : Nat) (c : Place) (name : String) (body : List Stmt)
    (base : Expr) (path : Path) (f : FunctionDef) (s : ParseState) (hb : dotted base = some path)
    (hq : resolveP E n c.module c.parent path s = (.ok (["typing"], ["NamedTuple"]), s))
    (hf : namedTupleConstructor name body = .ok f) :
    ∃ t, visitBase (parseScope E n) (resolveP E n) c name body base s = (.ok [], t) ∧
      nodesAt t c.module (c.parent ++ [name])
        = nodesAt s c.module (c.parent ++ [name]) ++ [.functionDef f] := by
  have hp : P.lift (toPath base) s = (.ok path, s) := by
    unfold P.lift
    rw [toPath_of_dotted hb]
  have h1 : toQualified (resolveP E n) c path s = (.ok (["typing"], ["NamedTuple"]), s) := by
    unfold toQualified P.orNotFound
    rw [hq]
  refine ⟨addSuperclass c.module (c.parent ++ [name]) (["typing"], ["NamedTuple"])
    (addNode c [name] (.functionDef f) s), ?_, ?_⟩
  · unfold visitBase
    cases base
    case subscript => cases hb
    all_goals first
      | (cases hb; done)
      | (dsimp only
         rw [bind_of_ok hp, bind_of_ok h1]
         show (P.lift (namedTupleConstructor name body) >>= _) s = _
         rw [bind_of_ok (t := s) (a := f) (by unfold P.lift; rw [hf])]
         rfl)
  · simp only [nodesAt, addSuperclass, addNode, dictUpdate, lookup_dictSet_self, Option.getD_some]

/-- `class T(NamedTuple): x: int; y: str = d`. -/
def pairBody : List Stmt :=
  [.annAssign (tgt "x") (nm "int") none, .annAssign (tgt "y") (nm "str") (some (nm "d"))]

example : IsFields (fun _ => true) pairBody [⟨"x", nm "int", none⟩, ⟨"y", nm "str", some (nm "d")⟩] :=
  rfl

/-! ### C49 -/

/-- **C49.** Iterating over a tree yields each proper descendant exactly once. -/
theorem C49_each_once (e : Expr) : (e :: e.descendants).Perm (subtrees e) := by
  have h : Expr.sizes e.children ≤ e.size := by rw [size_children e]; omega
  rw [subtrees_eq, descendants_levels]
  exact .cons _ (levels_perm _ _ h)

/-- **C49.** Shallower descendants come first: all children, then all of their children, and so
on. -/
theorem C49_shallow_first (e : Expr) :
    e.descendants = levels Expr.children e.size e.children :=
  descendants_levels e

/-- **C49.** The iteration ends: more iterations yield nothing new. -/
theorem C49_ends (e : Expr) (n : Nat) (hn : e.size ≤ n) :
    iterateQueue Expr.children n e.children = e.descendants := by
  have h : Expr.sizes e.children ≤ e.size := by rw [size_children e]; omega
  rw [descendants_levels]
  exact iterateQueue_levels _ _ _ _ (by rw [length_levels _ _ h]; omega) (levels_stable _ _ h)

example : (Expr.call (nm "f") [.attribute (nm "a") "b" true] [(none, nm "c")]).descendants
    = [nm "f", .attribute (nm "a") "b" true, nm "c", nm "a"] := rfl

end Paradigm.Props
