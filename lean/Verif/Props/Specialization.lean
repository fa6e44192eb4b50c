import Verif.Lemmas.Specialization
import Verif.Lemmas.Identifiers
import Verif.Props.Trees

/-!
# C46, C47, C66, C69–C71: specialised generic base classes
-/

namespace Paradigm.Props

open Spec

/-! ### Samples -/

/-- `repr` of constants, as far as the samples need it. -/
def sampleRep : Atom → String
  | .none => "None"
  | _ => "..."

/-- Sets are visited in the order of insertion. -/
def sampleOrder : SetOrder := {}

/-- `value[slice]`. -/
def sub (value slice : Expr) : Expr := .subscript value slice true

/-- `def name(self) -> returns: ...`. -/
def meth (name : String) (returns : Expr) : Stmt :=
  .functionDef { name := name, args := { args := [⟨"self", none⟩] }, returns := some returns }

/-- `from typing import Generic, TypeVar` and `T = TypeVar('T')`. -/
def typingHead : List Stmt :=
  [.importFrom (some "typing") [⟨"Generic", none⟩, ⟨"TypeVar", none⟩] 0,
   .assign [tgt "T"] (.call (nm "TypeVar") [.constant (.str "T")] [])]

/-- `object`, `int` and `str`. -/
def sampleBuiltins : List Stmt :=
  [.classDef "object" [] [] [], .classDef "int" [] [] [], .classDef "str" [] [] []]

/-- The tables after everything was read, and what the processing of the bases makes of them. -/
def readAll (d : Dict Path (List Stmt)) (modules : List Path) : ParseState :=
  (parseAll (filesOf d) 20 modules {}).2

/-! ### C46 -/

/-- **C46**, full statement: specialising replaces exactly the parameters, all at once. -/
def C46_statement : Prop :=
  ∀ (table : Dict Path Expr) (node : Stmt),
    specializeStmt table node = .ok (substStmt (fun p => table.lookup p) node)

/-- `x: P.args` with `P` replaced: the attribute of a parameter is overlooked. -/
theorem C46_refuted : ¬ C46_statement := by
  intro h
  have := h [(["P"], nm "Q")] (.annAssign (tgt "x") (.attribute (nm "P") "args" true) none)
  have e : (Except.ok (.annAssign (tgt "x") (.attribute (nm "P") "args" true) none)
      : Except PyErr Stmt)
      = .ok (.annAssign (tgt "x") (.attribute (nm "Q") "args" true) none) := this
  simp [nm] at e

/-- `x: f().y` cannot be specialised at all. -/
theorem C46_attribute_of_call :
    specializeStmt [] (.annAssign (tgt "x") (.attribute (.call (nm "f") [] []) "y" true) none)
      = .error (.typeError "to_path") := rfl

/-- **C46**, what holds (missing: attributes of parameters and of expressions that are not dotted
names). -/
theorem C46_substitution_partial (table : Dict Path Expr) (node : Stmt)
    (h : ∀ e ∈ exprsOf node, PlainAttributes (fun p => table.lookup p) e) :
    specializeStmt table node = .ok (substStmt (fun p => table.lookup p) node) :=
  specializeStmt_subst table node h

/-- **C46**, what holds for whole classes: after a class was specialised, each of its members is
recorded with the arguments in the place of the parameters, and has the kind it had (missing: the
same, and modules called `__specializations`). -/
theorem C46_members_partial (o : SetOrder) (n : Nat) (gm go sm so : Path) (params : List Path) (args : List Expr)
    (s t : ParseState) (hgm : gm ≠ specPath)
    (h : registerGeneric o n gm go sm so params args s = (.ok (), t)) (scope : Scope)
    (hscope : (s.definitions.lookup gm).bind (·.getPath go) = some scope)
    (name : String) (hname : name ∈ scope.entries.map Prod.fst)
    (hplain : ∀ node ∈ nodesAt s gm (go ++ [name]), ∀ e ∈ exprsOf node,
      PlainAttributes (fun p => (params.zip args).lookup p) e) :
    nodesAt t specPath (so ++ [name])
        = (nodesAt s gm (go ++ [name])).map (substStmt fun p => (params.zip args).lookup p)
      ∧ kindAt t specPath (so ++ [name]) = kindAt s gm (go ++ [name]) := by
  obtain ⟨defs, scope', h1, h2, h3, -⟩ := (registerGeneric_ok hgm h).found
  rw [h1, Option.bind_some, h2] at hscope
  cases hscope
  obtain ⟨old, new, kind, a, b, c, d, e⟩ := h3 name hname
  have ho : nodesAt s gm (go ++ [name]) = old := by
    rw [nodesAt]; rw [nodesEntry] at a; rw [a]; rfl
  have hn : nodesAt t specPath (so ++ [name]) = new := by
    rw [nodesAt]; rw [nodesEntry] at c; rw [c]; rfl
  refine ⟨?_, e.trans d.symm⟩
  rw [ho] at hplain ⊢
  rw [hn]
  have := mapExcept_ok (specializeStmt (params.zip args))
    (substStmt fun p => (params.zip args).lookup p) old fun node hnode =>
      specializeStmt_subst _ node (hplain node hnode)
  rw [this] at b
  exact (Except.ok.inj b).symm

/-- Parameters are replaced at once, not one after the other. -/
example : specializeStmt [(["K"], nm "V"), (["V"], nm "K")] (meth "f" (sub (nm "dict")
    (.tuple [nm "K", nm "V"] true)))
    = .ok (meth "f" (sub (nm "dict") (.tuple [nm "V", nm "K"] true))) := rfl

/-- Its members have plain attributes. -/
example : ∀ e ∈ exprsOf (meth "f" (.attribute (nm "m") "K" true)),
    PlainAttributes (fun p => [(["K"], nm "V")].lookup p) e := by
  intro e he v a l hm
  simp only [exprsOf, meth, List.nil_append, List.append_nil, Option.toList, List.filterMap_nil,
    List.filterMap_cons_none, List.mem_cons, List.not_mem_nil, or_false] at he
  subst he
  simp only [subtrees, nm, List.mem_cons, List.not_mem_nil, or_false, Expr.attribute.injEq,
    reduceCtorEq] at hm
  obtain ⟨rfl, rfl, rfl⟩ := hm
  exact ⟨["m"], rfl, fun k => by cases k <;> rfl⟩

/-! ### C47 -/

/-- **C47**, full statement: different generic bases get different names. -/
def C47_statement : Prop :=
  ∀ (rep : Atom → String) (v v' w w' : Expr) (name : String),
    toIdentifier rep (sub v w) = .ok name → toIdentifier rep (sub v' w') = .ok name →
    v = v' ∧ bracketed w = bracketed w'

/-- `A[b.C]` and `A[b, C]` share a name. -/
theorem C47_refuted : ¬ C47_statement := by
  intro h
  have := (h sampleRep (nm "A") (nm "A") (.attribute (nm "b") "C" true)
    (.tuple [nm "b", nm "C"] true) "A_getitem_b_C" rfl rfl).2
  cases this

theorem toIdentifiers_names (rep : Atom → String) : ∀ args : List String,
    toIdentifiers rep (args.map nm) = .ok args
  | [] => rfl
  | a :: args => by
    rw [List.map_cons, toIdentifiers, toIdentifiers_names rep args]; rfl

theorem toIdentifier_flat (rep : Atom → String) (g : String) (w : Expr) (args : List String)
    (name : String) (hw : bracketed w = args.map nm)
    (h : toIdentifier rep (sub (nm g) w) = .ok name) :
    name.toList = g.toList ++ '_' :: ("getitem".toList ++ '_' :: ['_'].intercalate
      (args.map String.toList)) := by
  have key : ∀ s : String, toIdentifier rep w = .ok s →
      s.toList = ['_'].intercalate (args.map String.toList) := by
    intro s hs
    cases w
    case tuple elts load =>
      rw [bracketed] at hw
      subst hw
      rw [toIdentifier] at hs
      cases load with
      | false => cases hs
      | true =>
        rw [toIdentifiers_names] at hs
        have : s = String.intercalate "_" args := (Except.ok.inj hs).symm
        rw [this, String.toList_intercalate]
        rfl
    case name id load =>
      simp only [bracketed] at hw
      cases args with
      | nil => cases hw
      | cons a args =>
        cases args with
        | cons _ _ => simp at hw
        | nil =>
          simp only [List.map_cons, List.map_nil, List.cons.injEq, nm, Expr.name.injEq,
            and_true] at hw
          obtain ⟨rfl, rfl⟩ := hw
          have : s = id := (Except.ok.inj hs).symm
          rw [this]
          simp [List.intercalate]
    all_goals
      exfalso
      simp only [bracketed] at hw
      cases args with
      | nil => cases hw
      | cons a args => simp [nm] at hw
  rw [sub, toIdentifier] at h
  simp only [Bool.not_true, Bool.false_eq_true, if_false] at h
  cases hs : toIdentifier rep w with
  | error e => rw [hs] at h; cases h
  | ok s =>
    rw [hs] at h
    have hn : name = g ++ "_getitem_" ++ s := (Except.ok.inj h).symm
    rw [hn]
    simp only [String.toList_append, key s hs, List.append_assoc]
    rfl

/-- **C47**, what holds (missing: nested, dotted and other arguments, names with underscores, bases
in different modules). For bases `G[A, B, ...]` made of plain names without underscores, the name
determines the class and the arguments. -/
theorem C47_plain_partial (rep : Atom → String) (g g' : String) (w w' : Expr)
    (args args' : List String) (name : String)
    (hg : '_' ∉ g.toList) (hg' : '_' ∉ g'.toList)
    (hw : bracketed w = args.map nm) (hw' : bracketed w' = args'.map nm)
    (ha : ∀ a ∈ args, '_' ∉ a.toList) (ha' : ∀ a ∈ args', '_' ∉ a.toList)
    (hne : args ≠ []) (hne' : args' ≠ [])
    (h : toIdentifier rep (sub (nm g) w) = .ok name)
    (h' : toIdentifier rep (sub (nm g') w') = .ok name) :
    nm g = nm g' ∧ bracketed w = bracketed w' := by
  have e := toIdentifier_flat rep g w args name hw h
  rw [toIdentifier_flat rep g' w' args' name hw' h'] at e
  obtain ⟨e1, e2⟩ := split_underscore hg' hg e
  obtain ⟨-, e3⟩ := split_underscore (by decide) (by decide) e2
  have e4 := join_underscore (by simpa using hne') (by simpa using hne)
    (by simpa using ha') (by simpa using ha) e3
  have e5 : args' = args := List.map_inj_right (fun a b => String.toList_inj.1) |>.1 e4
  rw [String.toList_inj.1 e1, hw, hw', e5]
  exact ⟨rfl, rfl⟩

example : toIdentifier sampleRep (sub (nm "Pair") (.tuple [nm "int", nm "str"] true))
    = .ok "Pair_getitem_int_str" := rfl

/-- **C47**, exactly which bases share a name (missing: names with underscores): those with the same
words in the same order, however they are nested. -/
theorem C47_words_partial (rep : Atom → String) (e e' : Expr) (name name' : String)
    (h : toIdentifier rep e = .ok name) (h' : toIdentifier rep e' = .ok name')
    (hu : ∀ w ∈ words rep e, '_' ∉ w.toList) (hu' : ∀ w ∈ words rep e', '_' ∉ w.toList) :
    name = name' ↔ words rep e = words rep e' := by
  obtain ⟨h1, h2⟩ := toIdentifier_words rep e h
  obtain ⟨h3, h4⟩ := toIdentifier_words rep e' h'
  rw [← String.toList_inj, h2, h4]
  exact ⟨joined_inj h1 h3 hu hu', congrArg joined⟩

/-- `G[H[int], str | None]` and `G[H[int, str | None]]` share a name; `G[H[int], str ^ None]` has
another. -/
example : toIdentifier sampleRep (sub (nm "G") (.tuple [sub (nm "H") (nm "int"),
        .binOp (nm "str") "BitOr" (.constant .none)] true)) = .ok "G_getitem_H_getitem_int_str_bitor_None"
    ∧ toIdentifier sampleRep (sub (nm "G") (sub (nm "H") (.tuple [nm "int",
        .binOp (nm "str") "BitOr" (.constant .none)] true))) = .ok "G_getitem_H_getitem_int_str_bitor_None"
    ∧ toIdentifier sampleRep (sub (nm "G") (.tuple [sub (nm "H") (nm "int"),
        .binOp (nm "str") "BitXor" (.constant .none)] true))
      = .ok "G_getitem_H_getitem_int_str_bitxor_None"
    ∧ words sampleRep (sub (nm "G") (.tuple [sub (nm "H") (nm "int"),
        .binOp (nm "str") "BitOr" (.constant .none)] true))
      = ["G", "getitem", "H", "getitem", "int", "str", "bitor", "None"] := ⟨rfl, rfl, rfl, rfl⟩

/-- Two modules with a class `Box` each. -/
def boxFiles : Dict Path (List Stmt) := [
  (["builtins"], sampleBuiltins),
  (["a"], typingHead ++ [.classDef "Box" [sub (nm "Generic") (nm "T")] [] [meth "get" (nm "T")],
    .classDef "D" [sub (nm "Box") (nm "int")] [] []]),
  (["b"], typingHead ++ [.classDef "Box" [sub (nm "Generic") (nm "T")] [] [meth "put" (nm "T")],
    .classDef "E" [sub (nm "Box") (nm "int")] [] []])]

/-- The tables made from `boxFiles`. -/
def boxState : ParseState := (processBases sampleOrder sampleRep 20 (readAll boxFiles [["a"], ["b"]])).2

/-- Everything succeeds, yet `b.E` derives from the specialisation of `a.Box`, which lacks `put`. -/
theorem C47_modules_refuted :
    (processBases sampleOrder sampleRep 20 (readAll boxFiles [["a"], ["b"]])).1.isOk = true
      ∧ supersAt boxState ["b"] ["E"] = supersAt boxState ["a"] ["D"]
      ∧ resolve boxState.tables 20 ["b"] [] ["Box", "put"] [] = .ok (["b"], ["Box", "put"])
      ∧ resolve boxState.tables 20 ["b"] [] ["E", "put"] [] = .error .objectNotFound :=
  ⟨rfl, rfl, rfl, rfl⟩

/-! ### C66, C69 -/

/-- `c` declares `g` or `g[...]` as a base. -/
def DeclaresBase (n : Nat) (s : ParseState) (c g : QPath) : Prop :=
  ∃ bases base path, s.classesBases.lookup c = some bases ∧ base ∈ bases
    ∧ dotted (match base with
        | .subscript value _ _ => value
        | e => e) = some path
    ∧ resolve s.tables n c.1 c.2.dropLast path [] = .ok g

/-- `c` declares a base that declares a base ... that is `g`. -/
inductive BaseAncestor (n : Nat) (s : ParseState) : QPath → QPath → Prop
  | base {c g : QPath} : DeclaresBase n s c g → BaseAncestor n s c g
  | further {c b g : QPath} : DeclaresBase n s c b → BaseAncestor n s b g → BaseAncestor n s c g

/-- **C66**, full statement: what an ancestor defines is found from the class. -/
def C66_statement : Prop :=
  ∀ (o : SetOrder) (rep : Atom → String) (n : Nat) (s t : ParseState),
    processBases o rep n s = (.ok (), t) → ∀ (c g : QPath) (name : String), BaseAncestor n s c g →
      DefinedAt s c.1 c.2 → DefinedAt s g.1 (g.2 ++ [name]) →
      resolve t.tables n c.1 [] (c.2 ++ [name]) [] ≠ .error .objectNotFound

/-- Four classes, each the base of the next. -/
def deepFiles : Dict Path (List Stmt) := [
  (["builtins"], sampleBuiltins),
  (["a"], typingHead ++ [.classDef "G" [sub (nm "Generic") (nm "T")] [] [meth "f" (nm "T")],
    .classDef "H" [sub (nm "G") (nm "T")] [] [], .classDef "I" [sub (nm "H") (nm "T")] [] [],
    .classDef "D" [sub (nm "I") (nm "int")] [] []])]

/-- The grand-grandparent of a specialised class is lost: `D.f` is not found. -/
theorem C66_refuted : ¬ C66_statement := by
  intro h
  refine h sampleOrder sampleRep 20 (readAll deepFiles [["a"]]) _ rfl (["a"], ["D"]) (["a"], ["G"]) "f"
    (.further ⟨_, _, ["I"], rfl, List.mem_cons_self, rfl, rfl⟩
      (.further (b := (["a"], ["H"])) ⟨_, _, ["H"], rfl, List.mem_cons_self, rfl, rfl⟩
        (.base ⟨_, _, ["G"], rfl, List.mem_cons_self, rfl, rfl⟩))) ?_ ?_ rfl
  · exact ⟨_, rfl, _, rfl, trivial⟩
  · exact ⟨_, rfl, _, rfl, _, rfl, trivial⟩

/-- **C69**, full statement: a specialised class has the specialised bases of the class among its
superclasses. -/
def C69_statement : Prop :=
  ∀ (o : SetOrder) (rep : Atom → String) (n : Nat) (s t : ParseState), processBases o rep n s = (.ok (), t) →
    ∀ (c : QPath) (bases : List Expr), s.classesBases.lookup c = some bases →
    ∀ (value slice : Expr) (path : Path) (g : QPath) (params : List Path) (name : String),
      sub value slice ∈ bases → dotted value = some path →
      resolve s.tables n c.1 c.2.dropLast path [] = .ok g → s.generics.lookup g = some params →
      toIdentifier rep (sub value slice) = .ok name →
    ∀ (gbases : List Expr) (v w : Expr) (name' : String), s.classesBases.lookup g = some gbases →
      sub v w ∈ gbases →
      toIdentifier rep (subst (fun p => (params.zip (bracketed slice)).lookup p) (sub v w))
        = .ok name' →
      (specPath, [name']) ∈ supersAt t specPath [name]

/-- `Base` derives from `Gen[T]`, `D` from `Base[int]`, `E` from `Base[str]`. -/
def siblingFiles : Dict Path (List Stmt) := [
  (["builtins"], sampleBuiltins),
  (["a"], typingHead ++ [.classDef "Gen" [sub (nm "Generic") (nm "T")] [] [meth "get" (nm "T")],
    .classDef "Base" [sub (nm "Gen") (nm "T")] [] [],
    .classDef "D" [sub (nm "Base") (nm "int")] [] [],
    .classDef "E" [sub (nm "Base") (nm "str")] [] []])]

/-- The tables made from `siblingFiles`. -/
def siblingState : ParseState := (processBases sampleOrder sampleRep 20 (readAll siblingFiles [["a"]])).2

/-- `Base[int]` is specialised first, which changes the stored base of `Base` itself to `Gen[int]`:
from then on `Base[str]` derives from `Gen[int]`. -/
theorem C69_refuted : ¬ C69_statement := by
  intro h
  have e : supersAt siblingState specPath ["Base_getitem_str"]
      = [(specPath, ["Gen_getitem_int"])] := rfl
  have := h sampleOrder sampleRep 20 (readAll siblingFiles [["a"]]) siblingState rfl (["a"], ["E"]) _ rfl
    (nm "Base") (nm "str") ["Base"] (["a"], ["Base"]) _ "Base_getitem_str" List.mem_cons_self rfl
    rfl rfl rfl _ (nm "Gen") (nm "T") "Gen_getitem_str" rfl List.mem_cons_self rfl
  rw [e] at this
  exact absurd this (by decide)

/-- The signature found for `E().get` is that of `Gen[int]`. -/
theorem C69_witness :
    resolve siblingState.tables 20 ["a"] [] ["E", "get"] [] = .ok (specPath, ["Gen_getitem_int", "get"])
      ∧ nodesAt siblingState specPath ["Gen_getitem_int", "get"] = [meth "get" (nm "int")] :=
  ⟨rfl, rfl⟩

/-- **C66** and **C69**, what holds (missing: superclasses of superclasses; bases whose nodes were
changed by an earlier specialisation). When `value[slice]` is registered for the first time, its
superclasses are those of the generic class at that moment, one by one: a base that is itself
subscripted in its specialised form, any other base as its name resolves in the module of the generic
class. -/
theorem C66_direct_partial (o : SetOrder) (rep : Atom → String) (n : Nat) (name : String) (value slice : Expr)
    (cm co : Path) (s t : ParseState) (h : registerNew o rep n name value slice cm co s = (.ok (), t)) :
    ∃ path g params bases, dotted value = some path
      ∧ resolve s.tables n cm co.dropLast path [] = .ok g ∧ s.generics.lookup g = some params
      ∧ s.classesBases.lookup g = some bases
      ∧ supersAt s specPath [name] = []
      ∧ Pointwise (fun base q =>
          (∀ v w, base = sub v w →
            PlainAttributes (fun p => (params.zip (bracketed slice)).lookup p) base →
            ∃ name', toIdentifier rep
                (subst (fun p => (params.zip (bracketed slice)).lookup p) base) = .ok name'
              ∧ q = (specPath, [name']))
          ∧ ∀ p, dotted base = some p → ∃ u, Aside OtherSupers s u
              ∧ resolve u.tables n g.1 [] p [] = .ok q)
        bases (supersAt t specPath [name]) := by
  have hunpack : unpack slice = bracketed slice := by cases slice <;> rfl
  unfold registerNew at h
  obtain ⟨path, _, h1, g1⟩ := bind_ok h
  obtain ⟨e1, rfl⟩ := lift_out h1
  obtain ⟨g, u2, h2, g2⟩ := bind_ok g1
  unfold resolveNow at h2
  obtain rfl : s = u2 := congrArg Prod.snd h2
  have e2 : resolve s.tables n cm co.dropLast path [] = .ok g := congrArg Prod.fst h2
  obtain ⟨params, _, h3, g3⟩ := bind_ok g2
  obtain ⟨e3, rfl⟩ := item_out h3
  obtain ⟨_, u4, h4, g4⟩ := bind_ok g3
  have a4 := (registerGeneric_aside _ _ _ _ _ _ _).of_eq h4
  obtain ⟨u5, u6, h5, g5⟩ := bind_ok g4
  have e5 : u5 = u4 ∧ u4 = u6 := by
    unfold P.get at h5
    simp only [Prod.mk.injEq, Except.ok.injEq] at h5
    exact ⟨h5.1.symm, h5.2⟩
  obtain ⟨rfl, rfl⟩ := e5
  cases hsup : ((u5.superclasses.lookup specPath).getD []).lookup [name] with
  | some l => rw [hsup] at g5; simp only [Option.isSome_some, if_true] at g5; cases g5
  | none =>
    rw [hsup] at g5
    simp only [Option.isSome_none, Bool.false_eq_true, if_false] at g5
    obtain ⟨bases, u7, h7, g7⟩ := bind_ok g5
    obtain ⟨e7, rfl⟩ := item_out h7
    have hs0 : supersAt u5 specPath [name] = [] := by rw [supersAt, hsup]; rfl
    obtain ⟨qs, hq, hp, -⟩ := registerBaseBases_ok g7
    rw [hs0, List.nil_append] at hq
    refine ⟨path, g, params, bases, toPath_ok e1, e2, e3, ?_, ?_, ?_⟩
    · rw [← a4.supers.2]; exact e7
    · rw [supersAt, ← a4.supers.1]; exact hs0
    · rw [hq]
      have hlen := hp.length
      refine pointwise_of_zipIdx hp fun i base q ⟨u, v, hu, hb⟩ => ⟨?_, ?_⟩
      · rintro v' w' rfl hplain
        obtain ⟨e, name', h8, h9, h10⟩ := registerSubscript_name hb
        have h8 := h8
        rw [hunpack] at h8
        have h8 := (specialize_subst _ _ hplain).symm.trans h8
        cases h8
        exact ⟨name', h9, h10⟩
      · intro p hpath
        have hu' : Aside OtherSupers s u :=
          (aside_preorder otherSupers_preorder).trans (a4.mono SameSupers.other) hu
        refine ⟨u, hu', ?_⟩
        have hb' : (do
            let path ← P.lift (toPath base)
            resolveNow n g.1 [] path : P QPath) u = (.ok q, v) := by
          cases base
          case subscript => cases hpath
          all_goals exact hb
        rw [toPath_of_dotted hpath] at hb'
        exact congrArg Prod.fst hb'

/-- The hypotheses of `C66_direct_partial` can be met: `Base[int]` has one superclass, `Gen[int]`. -/
example : ∃ s t, registerNew sampleOrder sampleRep 20 "Base_getitem_int" (nm "Base") (nm "int") ["a"] ["D"] s
    = (.ok (), t) ∧ supersAt t specPath ["Base_getitem_int"] = [(specPath, ["Gen_getitem_int"])] :=
  ⟨(openSpecializations (readAll siblingFiles [["a"]])).2, _, rfl, rfl⟩

/-! ### C70 -/

/-- **C70**, full statement: a name read by a member of a specialised class, other than a type
parameter, means what it meant in the module of the class. -/
def C70_statement : Prop :=
  ∀ (o : SetOrder) (rep : Atom → String) (n : Nat) (s t : ParseState), processBases o rep n s = (.ok (), t) →
    ∀ (c : QPath) (bases : List Expr), s.classesBases.lookup c = some bases →
    ∀ (value slice : Expr) (path : Path) (g : QPath) (params : List Path) (name : String),
      sub value slice ∈ bases → dotted value = some path →
      resolve s.tables n c.1 c.2.dropLast path [] = .ok g → s.generics.lookup g = some params →
      toIdentifier rep (sub value slice) = .ok name →
    ∀ (member d : String) (node : Stmt) (q : QPath), node ∈ nodesAt s g.1 (g.2 ++ [member]) →
      d ∈ namesRead node → [d] ∉ params → resolve s.tables n g.1 [] [d] [] = .ok q →
      resolve t.tables n specPath [] [d] [] = .ok q

/-- Two modules with a class `K` each. -/
def helperFiles : Dict Path (List Stmt) := [
  (["builtins"], sampleBuiltins),
  (["a"], typingHead ++ [.classDef "K" [] [] [],
    .classDef "G" [sub (nm "Generic") (nm "T")] [] [meth "f" (nm "K")],
    .classDef "D" [sub (nm "G") (nm "int")] [] []]),
  (["b"], typingHead ++ [.classDef "K" [] [] [],
    .classDef "H" [sub (nm "Generic") (nm "T")] [] [meth "f" (nm "K")],
    .classDef "E" [sub (nm "H") (nm "int")] [] []])]

/-- The tables made from `helperFiles`. -/
def helperState : ParseState := (processBases sampleOrder sampleRep 20 (readAll helperFiles [["a"], ["b"]])).2

/-- What `a.D.f` returns is said to be `b.K`. -/
theorem C70_refuted : ¬ C70_statement := by
  intro h
  have e : resolve helperState.tables 20 specPath [] ["K"] [] = .ok (["b"], ["K"]) := rfl
  have := h sampleOrder sampleRep 20 (readAll helperFiles [["a"], ["b"]]) helperState rfl (["a"], ["D"]) _ rfl
    (nm "G") (nm "int") ["G"] (["a"], ["G"]) [["T"]] "G_getitem_int" List.mem_cons_self rfl rfl rfl
    rfl "f" "K" (meth "f" (nm "K")) (["a"], ["K"]) List.mem_cons_self List.mem_cons_self (by decide)
    rfl
  rw [e] at this
  exact absurd (Except.ok.inj this) (by decide)

/-- **C70**, what holds (missing: later specialisations that read the same name from another module;
names read both by the class and by an argument; names that are themselves imported). When a class
has been specialised, every name `d` its members read refers to the definition of `d` in the module of
the class, or in that of the derived class if `d` comes from the arguments. -/
theorem C70_fresh_partial (o : SetOrder) (n : Nat) (gm go sm so : Path) (params : List Path) (args : List Expr)
    (s t : ParseState) (hgm : gm ≠ specPath)
    (h : registerGeneric o n gm go sm so params args s = (.ok (), t)) (scope : Scope)
    (hscope : (s.definitions.lookup gm).bind (·.getPath go) = some scope)
    (name d : String) (hname : name ∈ scope.entries.map Prod.fst) (m : Path)
    (hm : m ≠ specPath) (hb : m ≠ ["builtins"])
    (harg : (∃ e ∈ args, d ∈ loadedNames e) → m = sm)
    (hgen : (¬ ∃ e ∈ args, d ∈ loadedNames e) → m = gm) (hs : DefinedAt s m [d])
    (node : Stmt) (hnode : node ∈ nodesAt t specPath (so ++ [name])) (hload : d ∈ namesRead node)
    (hnot : ∀ node ∈ nodesAt t specPath (so ++ [name]), ¬ BindsName d node) :
    referenceAt t specPath [d] = some (m, [d]) := by
  refine registerGeneric_refs hgm h hscope hname hm hb ?_ ?_ hnode ?_ hnot
  · have hiff : (argsNames args).contains d = true ↔ ∃ e ∈ args, d ∈ loadedNames e := by
      rw [List.contains_iff_mem]; exact mem_dependencyNames
    by_cases hc : ∃ e ∈ args, d ∈ loadedNames e
    · rw [if_pos (hiff.2 hc), harg hc]
    · rw [if_neg (fun e => hc (hiff.1 e)), hgen hc]
  · obtain ⟨defs, h1, inner, h2, -⟩ := hs
    exact ⟨defs, inner, h1, h2⟩
  · obtain ⟨e, he, hd⟩ := List.mem_flatMap.1 hload
    exact mem_dependencyNames.2 ⟨e, mem_exprs.2 he, hd⟩

/-- Its hypotheses can be met, for a name of the class and for one of the argument. -/
example : ∃ s t, registerGeneric sampleOrder 20 ["a"] ["G"] ["b"] ["G_getitem_H"] [["T"]] [nm "H"] s = (.ok (), t)
    ∧ (s.definitions.lookup ["a"]).bind (·.getPath ["G"]) = some (.mk [("f", .mk [])])
    ∧ nodesAt t specPath ["G_getitem_H", "f"] = [meth "f" (nm "K")]
    ∧ referenceAt t specPath ["K"] = some (["a"], ["K"]) :=
  ⟨(openSpecializations (readAll helperFiles [["a"], ["b"]])).2, _, rfl, rfl, rfl, rfl⟩

/-! ### C71 -/

/-- **C71**: whatever the outcome, processing the bases of the classes adds nothing but superclasses
to the modules that were read. -/
theorem C71_modules_kept (o : SetOrder) (rep : Atom → String) (n : Nat) (s : ParseState) (m path : Path)
    (hm : m ≠ ["__specializations"]) :
    let t := (processBases o rep n s).2
    nodesAt t m path = nodesAt s m path
      ∧ kindAt t m path = kindAt s m path
      ∧ (DefinedAt t m path ↔ DefinedAt s m path)
      ∧ referenceAt t m path = referenceAt s m path
      ∧ t.submodules = s.submodules
      ∧ supersAt s m path <+: supersAt t m path := by
  have h := processBases_aside (o := o) rep n s
  refine ⟨?_, ?_, ?_, ?_, h.submodules, h.supers.supers m path hm⟩
  · rw [nodesAt, nodesAt, h.nodes m hm]
  · rw [kindAt, kindAt, h.kinds m hm]
  · rw [DefinedAt, DefinedAt, h.definitions m hm]
  · rw [referenceAt, referenceAt, h.references m hm]

/-- Something happens. -/
example : supersAt (readAll siblingFiles [["a"]]) ["a"] ["E"] = []
    ∧ supersAt siblingState ["a"] ["E"] = [(specPath, ["Base_getitem_str"])] := ⟨rfl, rfl⟩

end Paradigm.Props
