import Verif.Lemmas.OwnStub
import Verif.Props.Index
import Verif.Props.Pipeline
import Verif.Spec.Catalog

/-!
# C97, C98, C99: how live objects are named, listed and looked up
-/

namespace Paradigm.Props

open Spec

/-! ### C97 -/

/-- **C97**, what the names are: the qualified path of a function, class or builtin consists of the
parts of its module's name and of the names of the definitions around it. -/
theorem C97_named (parts : Path) (scopes : List Enclosing) (name : String) (v : Named)
    (hm : ModuleParts parts) (hn : NamesIn scopes name) (hv : DefinedAs parts scopes name v) :
    qualifiedPathFrom v = .ok (parts, steps scopes name) := by
  cases hv <;>
    (show Except.ok (pathFromString (dottedText parts), pathFromString _) = _
     rw [pathFromString_dottedText hm, pathFromString_qualname hn])

/-- **C97**, different places have different names. -/
theorem C97_distinct (parts parts' : Path) (scopes scopes' : List Enclosing) (name name' : String)
    (v w : Named) (hm : ModuleParts parts) (hm' : ModuleParts parts') (hn : NamesIn scopes name)
    (hn' : NamesIn scopes' name') (hv : DefinedAs parts scopes name v)
    (hw : DefinedAs parts' scopes' name' w) (h : qualifiedPathFrom v = qualifiedPathFrom w) :
    parts = parts' ∧ scopes = scopes' ∧ name = name' := by
  rw [C97_named parts scopes name v hm hn hv, C97_named parts' scopes' name' w hm' hn' hw] at h
  injection h with h
  injection h with h1 h2
  exact ⟨h1, steps_injective hn hn' h2⟩

/-- **C97**, failures: exactly the objects whose module is not given by a text have no qualified
path. -/
theorem C97_fails (v : Named) (e : PyErr) :
    qualifiedPathFrom v = .error e ↔ e = .assertionError ∧ ¬ HasModule v := by
  have key : ∀ (a : TextAttr) (q : Path),
      (do let m ← pathFromAttr a; return (m, q) : Except PyErr QPath) = .error e ↔
        e = .assertionError ∧ ¬ ∃ value, a = .text value := by
    intro a q
    cases a with
    | text value => exact ⟨fun h => (by cases h), fun h => absurd ⟨value, rfl⟩ h.2⟩
    | none => exact ⟨fun h => by cases h; exact ⟨rfl, by simp⟩, fun h => by rw [h.1]; rfl⟩
    | other => exact ⟨fun h => by cases h; exact ⟨rfl, by simp⟩, fun h => by rw [h.1]; rfl⟩
  have never : ∀ r : QPath, Except.ok (ε := PyErr) r = .error e ↔ e = .assertionError ∧ ¬ True :=
    fun r => ⟨fun h => (by cases h), fun h => absurd trivial h.2⟩
  cases v with
  | builtin self qualname =>
    cases self with
    | type m => exact key m _
    | module name spec => exact never _
    | none => exact never _
    | «instance» => exact never _
  | function m qualname =>
    cases m with
    | none => exact ⟨fun h => (by cases h), fun h => absurd (.inl rfl) h.2⟩
    | text value => exact ⟨fun h => (by cases h), fun h => absurd (.inr ⟨value, rfl⟩) h.2⟩
    | other => exact ⟨fun h => by cases h; exact ⟨rfl, by simp [HasModule]⟩, fun h => by rw [h.1]; rfl⟩
  | descriptor m qualname => exact key m _
  | cls m qualname => exact key m _
  | other => exact never _

/-- **C97**, without a module: functions whose module is `None` and builtins that belong to nothing
have an empty module path and the names of the definitions around them. -/
theorem C97_without_module (scopes : List Enclosing) (name : String) (hn : NamesIn scopes name) :
    qualifiedPathFrom (.function .none (qualname scopes name)) = .ok ([], steps scopes name) ∧
    qualifiedPathFrom (.builtin .none (qualname scopes name)) = .ok ([], steps scopes name) := by
  rw [← pathFromString_qualname hn]
  exact ⟨rfl, rfl⟩

/-- **C97**, without a name: builtins bound to instances, and what is none of the above, have an empty
qualified path, and nothing else has. -/
theorem C97_nameless (v : Named) :
    qualifiedPathFrom v = .ok ([], []) ↔ v = .other ∨ ∃ name, v = .builtin .instance name := by
  constructor
  · intro h
    cases v with
    | other => exact .inl rfl
    | builtin self name =>
      cases self with
      | type m =>
        obtain ⟨value, _, h⟩ := attr_bind_ok h
        exact absurd (congrArg Prod.snd h).symm (pathFromString_ne_nil _)
      | module moduleName spec =>
        exact absurd (congrArg Prod.snd (Except.ok.inj h)) (pathFromString_ne_nil _)
      | none => exact absurd (congrArg Prod.snd (Except.ok.inj h)) (pathFromString_ne_nil _)
      | «instance» => exact .inr ⟨name, rfl⟩
    | function m name =>
      cases m with
      | none => exact absurd (congrArg Prod.snd (Except.ok.inj h)) (pathFromString_ne_nil _)
      | text value => exact absurd (congrArg Prod.snd (Except.ok.inj h)) (pathFromString_ne_nil _)
      | other => cases h
    | descriptor m name =>
      obtain ⟨value, _, h⟩ := attr_bind_ok h
      exact absurd (congrArg Prod.snd h).symm (pathFromString_ne_nil _)
    | cls m name =>
      obtain ⟨value, _, h⟩ := attr_bind_ok h
      exact absurd (congrArg Prod.snd h).symm (pathFromString_ne_nil _)
  · rintro (rfl | ⟨name, rfl⟩) <;> rfl

/-- `[].append` has no name, `int.from_bytes` has one. -/
example : qualifiedPathFrom (.builtin .instance "list.append") = .ok ([], []) ∧
    qualifiedPathFrom (.builtin (.type (.text "builtins")) "int.from_bytes") =
      .ok (["builtins"], ["int", "from_bytes"]) := ⟨rfl, rfl⟩

/-- `def g` in `class A` in `def f` in `pkg.m`. -/
example : qualifiedPathFrom (.function (.text "pkg.m") "f.<locals>.A.g") =
      .ok (["pkg", "m"], ["f", "<locals>", "A", "g"]) ∧
    DefinedAs ["pkg", "m"] [.function "f", .cls "A"] "g"
      (.function (.text "pkg.m") "f.<locals>.A.g") ∧ ModuleParts ["pkg", "m"] ∧
    NamesIn [.function "f", .cls "A"] "g" := by
  refine ⟨rfl, .function, ⟨by simp, by decide⟩, ?_⟩
  intro x hx
  simp only [List.map_cons, List.map_nil, List.mem_cons, List.not_mem_nil, or_false] at hx
  rcases hx with rfl | rfl | rfl <;> decide

/-! ### C98 -/

/-- **C98**, own places: what has been defined in a module, possibly inside of classes, and can still
be found there is listed in the index at its own place. -/
theorem C98_own_place (W : World) (n : Nat) (modules : List Path) (index : Index)
    (h : indexModules W n modules = .ok index) (m : Path) (hm : m ∈ modules) (ns : Nat)
    (hns : W.importModule m = some ns) (classes : List String) (name : String) (v : Value)
    (via : List Nat) (hl : Leads W ns (classes ++ [name]) v via) (hvia : via.Nodup)
    (hparts : ModuleParts m) (hn : NamesIn (classes.map .cls) name)
    (hv : DefinedAs m (classes.map .cls) name (W.named v)) :
    (m, classes ++ [name]) ∈ listed index (m, classes ++ [name]) := by
  have hs : ∀ (cs : List String), steps (cs.map .cls) name = cs ++ [name] := by
    intro cs
    induction cs with
    | nil => rfl
    | cons c cs ih => rw [List.map_cons, steps, ih]; rfl
  have hq : W.qualified v = .ok (m, classes ++ [name]) := by
    rw [World.qualified, C97_named m _ name _ hparts hn hv, hs]
  exact C73_complete W n modules index h m hm ns hns _ v via hl hvia _ hq (by simp)

/-- **C98**, failures: building the index raises `AssertionError` only for an object in one of the
modules whose own module is not given by a text. -/
theorem C98_fails (W : World) (n : Nat) (modules : List Path) (e : PyErr)
    (h : indexModules W n modules = .error e) : e = .recursionError ∨ e = .assertionError ∧
      ∃ m ∈ modules, ∃ ns path v via, W.importModule m = some ns ∧ Leads W ns path v via ∧
        ¬ HasModule (W.named v) := by
  have fold : ∀ {α β : Type} {f : β → α → Except PyErr β} {as : List α} {b : β},
      foldExcept f b as = .error e → ∃ a ∈ as, ∃ b, f b a = .error e := by
    intro α β f as
    induction as with
    | nil => intro b h; cases h
    | cons a as ih =>
      intro b h
      rw [foldExcept] at h
      cases ha : f b a with
      | error e' =>
        rw [ha] at h
        injection h with h
        exact ⟨a, List.mem_cons_self, b, by rw [ha, h]⟩
      | ok b' =>
        rw [ha] at h
        obtain ⟨x, hx, b, hb⟩ := ih h
        exact ⟨x, List.mem_cons_of_mem _ hx, b, hb⟩
  have space : ∀ (n : Nat) (m : Path) (ns : Nat) (parent : Path) (visited : List Nat) (paths : Index),
      indexNamespace W n m ns parent visited paths = .error e → e = .recursionError ∨
        e = .assertionError ∧ ∃ path v via, Leads W ns path v via ∧ ¬ HasModule (W.named v) := by
    intro n
    induction n with
    | zero => intro m ns parent visited paths h; cases h; exact .inl rfl
    | succ n ih =>
      intro m ns parent visited paths h
      rw [indexNamespace] at h
      obtain ⟨⟨name, value⟩, hmem, b, ha⟩ := fold h
      unfold indexEntry at ha
      dsimp only at ha
      cases value with
      | cls id =>
        dsimp only at ha
        split at ha
        · cases ha
        cases hq : W.qualified (.cls id) with
        | error e' =>
          rw [hq] at ha
          injection ha with ha
          subst ha
          obtain ⟨h1, h2⟩ := (C97_fails _ _).1 hq
          exact .inr ⟨h1, _, _, _, .cls hmem, h2⟩
        | ok q =>
          rw [hq] at ha
          dsimp only at ha
          split at ha
          · rename_i hne
            exfalso
            unfold World.qualified qualifiedPathFrom World.named at hq
            obtain ⟨value, _, rfl⟩ := attr_bind_ok hq
            simp only [Bool.and_eq_true, List.isEmpty_iff] at hne
            exact pathFromString_ne_nil _ hne.1
          · rcases ih m id _ _ _ ha with h | ⟨h, path, v, via, hl, hv⟩
            · exact .inl h
            · exact .inr ⟨h, _, v, _, .inside hmem hl, hv⟩
      | other id =>
        dsimp only at ha
        cases hq : W.qualified (.other id) with
        | error e' =>
          rw [hq] at ha
          injection ha with ha
          subst ha
          obtain ⟨h1, h2⟩ := (C97_fails _ _).1 hq
          exact .inr ⟨h1, _, _, _, .other hmem, h2⟩
        | ok q =>
          rw [hq] at ha
          dsimp only at ha
          split at ha <;> cases ha
  obtain ⟨m, hm, b, ha⟩ := fold h
  unfold indexModule at ha
  split at ha
  · cases ha
  · rename_i ns hns
    rcases space _ _ _ _ _ _ ha with h | ⟨h, path, v, via, hl, hv⟩
    · exact .inl h
    · exact .inr ⟨h, m, hm, ns, path, v, via, hns, hl, hv⟩

/-- Nothing is listed for objects without a name. -/
theorem C57_named (W : World) (hW : DistinctNames W) (n : Nat) (modules : List Path) (index : Index)
    (h : indexModules W n modules = .ok index) : listed index ([], []) = [] := by
  rw [List.eq_nil_iff_forall_not_mem]
  intro location hl
  obtain ⟨_, _, _, _, _, _, hne⟩ := C57_sound W hW n modules index h _ _ hl
  rcases hne with h | ⟨h, _⟩ <;> exact h rfl

/-- `A.f` of the sample is defined where it is found. -/
example : DefinedAs ["m"] (["A"].map .cls) "f" (sampleWorld.named (.other 3)) ∧
    Leads sampleWorld 0 (["A"] ++ ["f"]) (.other 3) [1] ∧ ModuleParts ["m"] ∧
    NamesIn (["A"].map .cls) "f" := by
  refine ⟨.function, .inside (id := 1) (by simp [sampleWorld]) (.other (by simp [sampleWorld])),
    ⟨by simp, by decide⟩, ?_⟩
  intro x hx
  simp only [List.map_cons, List.map_nil, List.mem_cons, List.not_mem_nil, or_false] at hx
  rcases hx with rfl | rfl <;> decide

/-- A class with `__module__ = None` makes the index fail. -/
example : indexModules { sampleWorld with classes := fun _ => (.none, "A") } 3 [["m"]] =
    .error .assertionError := rfl

/-! ### C99 -/

/-- **C99.** The signature of what has been defined in a library module (possibly inside of classes)
and can still be found there is the one given by the stub of its own place, if there is one and the
stubs of other places at which it is found lead there. Everything in between is that of the library:
the index made of the modules, its restriction to what the stubs know, the search for the callable. -/
theorem C99_own_stub (W : World) (n k : Nat) (modules : List Path) (index : Index)
    (h : indexModules W n modules = .ok index) (R : Runtime)
    (hs : supportedPaths R.stubs.toTables k index = .ok R.index) (hd : R.depth ≠ 0) (hk : k ≠ 0)
    (hev : ∀ m parent e, R.ev m parent e ≠ .error .signatureNotFound)
    -- the object is found where it has been defined
    (m : Path) (hm : m ∈ modules) (ns : Nat) (hns : W.importModule m = some ns)
    (classes : List String) (name : String) (v : Value) (via : List Nat)
    (hl : Leads W ns (classes ++ [name]) v via) (hvia : via.Nodup) (hparts : ModuleParts m)
    (hn : NamesIn (classes.map .cls) name) (hv : DefinedAs m (classes.map .cls) name (W.named v))
    -- it is the callable asked about
    (callable : Callable) (f : Fn) (raw : Except PyErr RawSig) (hc : LookedUpAs callable f raw)
    (hf : f.named = W.named v) (hhas : R.has f (m, classes ++ [name]) = true)
    -- it is defined by the stub
    (hdef : DefinedIn R.stubs.toTables m (classes ++ [name])) (kinds : Dict Path NodeKind)
    (kind : NodeKind) (hkinds : R.stubs.nodesKinds.lookup m = some kinds)
    (hkind : kinds.lookup (classes ++ [name]) = some kind) (hnc : kind ≠ .class_)
    (fs : List FunctionDef) (hfs : DefinedBy R.stubs (m, classes ++ [name]) fs) (hne : fs ≠ [])
    -- so are its other places
    (hothers : ∀ place ∈ listed index (m, classes ++ [name]), R.has f place = true →
      R.resolve place.1 [] place.2 = .ok (m, classes ++ [name]) ∨
        R.resolve place.1 [] place.2 = .error .objectNotFound) (s : Sig) :
    fromCallable R callable = .ok s ↔ GivenBy R f (m, classes ++ [name]) fs s := by
  have hplace := C98_own_place W n modules index h m hm ns hns classes name v via hl hvia hparts hn hv
  have hq : qualifiedPathFrom f.named = .ok (m, classes ++ [name]) := by
    rw [hf, C97_named m _ name _ hparts hn hv, steps_classes]
  have hr := resolveQualifiedPaths_own h hs hd hk hparts.1 hq hplace hhas hdef hothers
  generalize classes ++ [name] = path at *
  have hq2 : toQualifiedPaths R f = .ok [(m, path)] := by
    unfold toQualifiedPaths
    rw [hr]
    show (getItem R.stubs.nodesKinds m >>= _) = _
    rw [show getItem R.stubs.nodesKinds m = .ok kinds by simp [getItem, hkinds]]
    show (getItem kinds path >>= _) = _
    rw [show getItem kinds path = .ok kind by simp [getItem, hkind]]
    show (if (kind == NodeKind.class_) = true then _ else _) = _
    rw [if_neg (by simpa using hnc)]
    rfl
  obtain ⟨hfound, hgiven⟩ := fromFn_found hd (f := f) ⟨[], hq2⟩ hfs hne hev
  rw [hc.fromCallable R, ← hgiven s]
  cases hfn : fromFn R f with
  | ok s' => exact Iff.rfl
  | error e =>
    cases e <;> first | exact Iff.rfl | exact absurd hfn hfound

/-- **C99** for classes: the signature of a class is the one given by `__init__` in the stub of its own
place, if there is one. -/
theorem C99_own_class (W : World) (n k : Nat) (modules : List Path) (index : Index)
    (h : indexModules W n modules = .ok index) (R : Runtime)
    (hs : supportedPaths R.stubs.toTables k index = .ok R.index) (hd : R.depth ≠ 0) (hk : k ≠ 0)
    (hev : ∀ m parent e, R.ev m parent e ≠ .error .signatureNotFound)
    (m : Path) (hm : m ∈ modules) (ns : Nat) (hns : W.importModule m = some ns)
    (classes : List String) (name : String) (v : Value) (via : List Nat)
    (hl : Leads W ns (classes ++ [name]) v via) (hvia : via.Nodup) (hparts : ModuleParts m)
    (hn : NamesIn (classes.map .cls) name) (hv : DefinedAs m (classes.map .cls) name (W.named v))
    (l : Labels) (raw : Except PyErr RawSig) (hf : (Fn.ofClass l).named = W.named v)
    (hhas : R.has (.ofClass l) (m, classes ++ [name]) = true)
    (hdef : DefinedIn R.stubs.toTables m (classes ++ [name]))
    (fs : List FunctionDef) (hfs : DefinedBy R.stubs (m, classes ++ [name] ++ ["__init__"]) fs)
    (hne : fs ≠ [])
    (hothers : ∀ place ∈ listed index (m, classes ++ [name]), R.has (.ofClass l) place = true →
      R.resolve place.1 [] place.2 = .ok (m, classes ++ [name]) ∨
        R.resolve place.1 [] place.2 = .error .objectNotFound) (s : Sig) :
    fromCallable R (.cls l raw) = .ok s ↔
      GivenBy R (.ofClass l) (m, classes ++ [name] ++ ["__init__"]) fs s := by
  have hplace := C98_own_place W n modules index h m hm ns hns classes name v via hl hvia hparts hn hv
  have hq : qualifiedPathFrom (Fn.ofClass l).named = .ok (m, classes ++ [name]) := by
    rw [hf, C97_named m _ name _ hparts hn hv, steps_classes]
  have hr := resolveQualifiedPaths_own h hs hd hk hparts.1 hq hplace hhas hdef hothers
  generalize classes ++ [name] = path at *
  refine fromClass_found hd ⟨_, [(m, path ++ ["__init__"])], hr, ⟨?_, trivial⟩,
    List.mem_singleton.2 rfl, fun b hb => .inl (List.mem_singleton.1 hb)⟩ hfs hne hev
  obtain ⟨nodes, h1, h2⟩ := hfs
  obtain ⟨j, hj⟩ : ∃ j, R.depth = j + 1 := ⟨R.depth - 1, by omega⟩
  unfold classBuilder
  rw [hj, builderSearch, h1]
  dsimp only at h2 ⊢
  rw [h2]
  rfl

/-- Module `m` with the function `f` and the class `C`, which are also found as `m.g` and `m.D`. -/
def ownWorld : World where
  vars
    | 0 => [("f", .other 1), ("C", .cls 2), ("g", .other 1), ("D", .cls 2)]
    | _ => []
  classes _ := (.text "m", "C")
  others
    | 1 => .function (.text "m") "f"
    | _ => .other
  importModule m := if m = ["m"] then some 0 else none

/-- The stub of `m` has `f`, `C.__init__` and `g = f`, but no `D`. -/
def ownStubs : Stubs :=
  { stubsSample with
    references := [(["builtins"], []), (["m"], [(["g"], (["m"], ["f"]))])]
    rawAstNodes := [(["m"], [(["f"], [.functionDef defF]),
      (["C", "__init__"], [.functionDef { defF with name := "__init__" }])])] }

/-- The runtime with the index of the sample. -/
def ownRuntime : Runtime :=
  { runtimeSample with
    stubs := ownStubs
    index := [(["m"], [(["f"], [(["m"], ["f"]), (["m"], ["g"])]), (["C"], [(["m"], ["C"])])])] }

theorem ownIndex : indexModules ownWorld 3 [["m"]] =
    .ok [(["m"], [(["f"], [(["m"], ["f"]), (["m"], ["g"])]),
      (["C"], [(["m"], ["C"]), (["m"], ["D"])])])] := rfl

/-- The hypotheses of `C99_own_stub` hold for `f` of the sample. -/
example (raw : Except PyErr RawSig) (s : Sig) :
    fromCallable ownRuntime (.function labF raw) = .ok s ↔
      GivenBy ownRuntime fnF (["m"], ["f"]) [defF] s :=
  C99_own_stub ownWorld 3 5 [["m"]] _ ownIndex ownRuntime rfl (by decide) (by decide)
    (fun _ _ => evalSample_found) ["m"] (by simp) 0 rfl [] "f" (.other 1) []
    (.other (by simp [ownWorld])) List.nodup_nil ⟨by simp, by decide⟩
    (fun x hx => by cases List.mem_singleton.1 hx; decide) .function _ fnF raw (.function labF raw) rfl
    rfl ⟨_, rfl, _, rfl, trivial⟩ _ .function rfl rfl (by decide) [defF] ⟨_, rfl, rfl⟩ (by simp)
    (fun place hp _ => by
      have hp : place = (["m"], ["f"]) ∨ place = (["m"], ["g"]) := by simpa [listed] using hp
      rcases hp with rfl | rfl
      · exact .inl rfl
      · exact .inl rfl) s

/-- The hypotheses of `C99_own_class` hold for `C` of the sample. -/
example (raw : Except PyErr RawSig) (s : Sig) :
    fromCallable ownRuntime (.cls labC raw) = .ok s ↔
      GivenBy ownRuntime clsC (["m"], ["C", "__init__"]) [{ defF with name := "__init__" }] s :=
  C99_own_class ownWorld 3 5 [["m"]] _ ownIndex ownRuntime rfl (by decide) (by decide)
    (fun _ _ => evalSample_found) ["m"] (by simp) 0 rfl [] "C" (.cls 2) [2]
    (.cls (by simp [ownWorld])) (by simp) ⟨by simp, by decide⟩
    (fun x hx => by cases List.mem_singleton.1 hx; decide) .cls labC raw rfl rfl
    ⟨_, rfl, _, rfl, trivial⟩ _ ⟨_, rfl, rfl⟩ (by simp)
    (fun place hp _ => by
      have hp : place = (["m"], ["C"]) ∨ place = (["m"], ["D"]) := by
        simpa [listed, List.lookup] using hp
      rcases hp with rfl | rfl
      · exact .inl rfl
      · exact .inr rfl) s

end Paradigm.Props
