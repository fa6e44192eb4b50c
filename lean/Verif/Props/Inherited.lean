import Verif.Props.Superclasses
import Verif.Props.Reading
import Verif.Lemmas.InheritedSignature

/-!
# C115: members of generic base classes
-/

namespace Paradigm.Props

open Spec

/-- The members of `T` for which nothing has been found among the first `k` superclasses of `c`. -/
def NotBefore (T : Stubs) (depth : Nat) (c : QPath) (k : Nat) (x : String) : Prop :=
  ∀ q ∈ (supersAt (returned T) c.1 c.2).take k,
    resolve T.toTables depth q.1 [] (q.2 ++ [x]) [c.1] = .error .objectNotFound

/-- **C115**, full statement: a member that a class does not define itself, but the generic class `g` of
its base `v[w]`, is found (if it is not found in an earlier base), and is the member of `g` with the
arguments `w` in the place of the parameters. -/
def C115_statement : Prop :=
  ∀ (E : StubFiles) (rep : Atom → String) (n : Nat) (modules : List Path) (s : ParseState) (T : Stubs),
    parseAll E n modules {} = (.ok (), s) → parseStubs E rep n modules = .ok T →
    ∀ (c : QPath) (before after : List Expr) (v w : Expr) (l : Bool) (g : QPath) (params : List Path)
      (x : String) (depth : Nat), c.2 ≠ [] → DefinedAt s c.1 c.2 → ¬ DefinedAt s c.1 (c.2 ++ [x]) →
      s.classesBases.lookup c = some (before ++ .subscript v w l :: after) →
      BaseMeans n s c v g → s.generics.lookup g = some params → DefinedAt s g.1 (g.2 ++ [x]) →
      (∀ node ∈ nodesAt s g.1 (g.2 ++ [x]), ∀ e ∈ exprsOf node,
        PlainAttributes (fun p => (params.zip (bracketed w)).lookup p) e) →
      NotBefore T (depth + 1) c ((supersAt s c.1 c.2).length + before.length) x →
      ∃ q, resolve T.toTables (depth + 2) c.1 [] (c.2 ++ [x]) [] = .ok q ∧
        kindAt (returned T) q.1 q.2 = kindAt s g.1 (g.2 ++ [x]) ∧
        nodesAt (returned T) q.1 q.2 = (nodesAt s g.1 (g.2 ++ [x])).map
          (substStmt fun p => (params.zip (bracketed w)).lookup p)

theorem pointwise_split {α β : Type} {R : α → β → Prop} {a : α} : ∀ {xs ys : List α} {zs : List β},
    Pointwise R (xs ++ a :: ys) zs → ∃ us b vs, zs = us ++ b :: vs ∧ us.length = xs.length ∧ R a b
  | [], ys, [], h => nomatch h
  | [], ys, z :: zs, h => ⟨[], z, zs, rfl, rfl, h.1⟩
  | x :: xs, ys, [], h => nomatch h
  | x :: xs, ys, z :: zs, h => by
    obtain ⟨us, b, vs, h1, h2, h3⟩ := pointwise_split (xs := xs) h.2
    exact ⟨z :: us, b, vs, by rw [h1]; rfl, by rw [List.length_cons, h2, List.length_cons], h3⟩

theorem supers_eq {T : Stubs} {m path : Path} :
    (T.toTables.supers m path).getD [] = supersAt (returned T) m path := by
  rw [supersAt, Tables.supers]
  show _ = (((T.superclasses.lookup m).getD []).lookup path).getD []
  cases T.superclasses.lookup m <;> rfl

/-- **C115**, what holds (missing: classes that have type parameters themselves, see `C92_refuted`, and
bases of which the identifier stands for another class or for other arguments, see `C115_refuted`). -/
theorem C115_found_partial (E : StubFiles) (rep : Atom → String) (n : Nat) (modules : List Path)
    (s : ParseState) (T : Stubs) (hs : parseAll E n modules {} = (.ok (), s))
    (hT : parseStubs E rep n modules = .ok T) (c : QPath) (before after : List Expr) (v w : Expr) (l : Bool)
    (g : QPath) (params : List Path) (x name : String) (depth : Nat) (hne : c.2 ≠ [])
    (hc : DefinedAt s c.1 c.2) (hx : ¬ DefinedAt s c.1 (c.2 ++ [x]))
    (hb : s.classesBases.lookup c = some (before ++ .subscript v w l :: after))
    (hgc : s.generics.lookup c = none) (hg : s.generics.lookup g = some params)
    (hgx : DefinedAt s g.1 (g.2 ++ [x]))
    (hname : identifierOf rep (.subscript v w l) = some name)
    (honly : IdentifiesOnly (identifierOf rep) n s name g (bracketed w))
    (hbefore : NotBefore T (depth + 1) c ((supersAt s c.1 c.2).length + before.length) x) :
    resolve T.toTables (depth + 2) c.1 [] (c.2 ++ [x]) [] = .ok (["__specializations"], [name, x]) ∧
      kindAt (returned T) ["__specializations"] [name, x] = kindAt s g.1 (g.2 ++ [x]) ∧
      ((∀ node ∈ nodesAt s g.1 (g.2 ++ [x]), ∀ e ∈ exprsOf node,
          PlainAttributes (fun p => (params.zip (bracketed w)).lookup p) e) →
        nodesAt (returned T) ["__specializations"] [name, x] = (nodesAt s g.1 (g.2 ++ [x])).map
          (substStmt fun p => (params.zip (bracketed w)).lookup p)) := by
  obtain ⟨s', t, h1, h2, rfl⟩ := parseStubs_ok hT
  rw [hs] at h1
  cases h1
  have tidy := parseAll_tidy hs
  have hnone : s.definitions.lookup specPath = none := by
    obtain ⟨_, _, h3, -⟩ := bind_ok (show (openSpecializations >>= _) s = _ from h2)
    exact openSpecializations_none h3
  have hspec : ∀ d : QPath, (s.definitions.lookup d.1).isSome → d.1 ≠ specPath := by
    intro d hd e
    rw [e, hnone] at hd
    cases hd
  have hcs : c.1 ≠ specPath := hspec c (tidy.bases c (by rw [hb]; rfl))
  have hA := (processBases_aside rep n).of_eq h2
  obtain ⟨qs, h3, h4⟩ := processBases_processing (rep := rep) (n := n)
    (fun d hd => hspec d (tidy.generics d hd)) tidy.nodup (fun d hd => hspec d (tidy.bases d hd)) h2 hgc hb
  obtain ⟨us, q, vs, rfl, hlen, hr, ho⟩ := pointwise_split h4
  obtain ⟨name', h5, rfl, h7⟩ := hr.1 v w l rfl
  obtain rfl : name' = name := by
    rw [identifierOf, h5] at hname
    exact Option.some.inj hname
  obtain ⟨u, c', bases', v', w', l', path, g', params', a1, a2, a3, a4, a5, a6, a7, a8, a9⟩ :=
    ho name' rfl h7
  obtain ⟨e1, path', e2, e3⟩ := honly c' v' w' l' a9 (by rw [identifierOf, a4]; rfl)
  rw [a5] at e2
  cases e2
  have e4 := e3 u.tables a1.definitions a1.references a1.submodules
  rw [a6] at e4
  cases e4
  rw [hg] at a7
  cases a7
  rw [e1] at a8
  obtain ⟨b1, b2, b3⟩ := a8.members x hgx
  refine ⟨?_, b2, b3⟩
  have hdef : ∀ p, DefinedAt s c.1 p ↔ DefinedIn t.tables c.1 p := by
    intro p
    unfold DefinedAt DefinedIn
    rw [← hA.definitions c.1 hcs]
    rfl
  obtain ⟨head, cls, hc2⟩ := List.exists_cons_of_ne_nil hne
  rw [hc2] at hc hx ⊢
  show resolve t.tables (depth + 2) c.1 [] (head :: cls ++ [x]) [] = _
  rw [resolve_class ((hdef _).1 hc) fun h => hx ((hdef _).2 h)]
  have hsup : (t.tables.supers c.1 (head :: cls)).getD []
      = (supersAt s c.1 c.2 ++ us) ++ (specPath, [name']) :: vs := by
    rw [← hc2]
    refine (supers_eq (T := { t.tables with rawAstNodes := t.nodes, nodesKinds := t.kinds })).trans ?_
    refine Eq.trans ?_ (h3.trans (List.append_assoc _ _ _).symm)
    rfl
  rw [hsup, tryEach_first (r := .ok (["__specializations"], [name', x])) (by simp)]
  · exact resolve_of_defined (T := t.tables) (m := specPath) (object := [name', x]) b1 _ _
  · intro y hy
    refine hbefore y ?_
    have hsup' : supersAt (returned { t.tables with rawAstNodes := t.nodes, nodesKinds := t.kinds }) c.1 c.2
        = (supersAt s c.1 c.2 ++ us) ++ (specPath, [name']) :: vs :=
      Eq.trans (by rfl) (h3.trans (List.append_assoc _ _ _).symm)
    rw [hsup', ← hlen, ← List.length_append, List.take_left]
    exact hy

/-- The place and the definitions of a member of a generic base. -/
theorem generic_member (E : StubFiles) (rep : Atom → String) (n : Nat) (stubModules : List Path) (s : ParseState)
    (T : Stubs) (hread : parseAll E n stubModules {} = (.ok (), s)) (hT : parseStubs E rep n stubModules = .ok T)
    (depth : Nat) (m : Path) (classes : List String) (x : String)
    (before after : List Expr) (v w : Expr) (l : Bool) (g : QPath) (params : List Path) (name : String)
    (hne : classes ≠ []) (hc : DefinedAt s m classes) (hx : ¬ DefinedAt s m (classes ++ [x]))
    (hb : s.classesBases.lookup (m, classes) = some (before ++ .subscript v w l :: after))
    (hgc : s.generics.lookup (m, classes) = none) (hg : s.generics.lookup g = some params)
    (hname : identifierOf rep (.subscript v w l) = some name)
    (honly : IdentifiesOnly (identifierOf rep) n s name g (bracketed w))
    (hbefore : NotBefore T (depth + 1) (m, classes) ((supersAt s m classes).length + before.length) x)
    (fs : List FunctionDef) (hfs : fs ≠ []) (hgx : DefinedAt s g.1 (g.2 ++ [x]))
    (hnodes : nodesAt s g.1 (g.2 ++ [x]) = fs.map .functionDef) (kind : NodeKind)
    (hkind : kindAt s g.1 (g.2 ++ [x]) = some kind)
    (hplain : ∀ node ∈ nodesAt s g.1 (g.2 ++ [x]), ∀ e ∈ exprsOf node,
      PlainAttributes (fun p => (params.zip (bracketed w)).lookup p) e) :
    Answers T.toTables m [] (classes ++ [x]) [] (.ok (["__specializations"], [name, x])) ∧
      (∃ kinds, T.nodesKinds.lookup ["__specializations"] = some kinds ∧ kinds.lookup [name, x] = some kind) ∧
      DefinedBy T (["__specializations"], [name, x])
        (fs.map (substFunction fun p => (params.zip (bracketed w)).lookup p)) := by
  obtain ⟨hres, hk, hn⟩ := C115_found_partial E rep n stubModules s T hread hT (m, classes) before after v w l g params
    x name depth hne hc hx hb hgc hg hgx hname honly hbefore
  have hn := hn hplain
  rw [hkind] at hk
  rw [hnodes] at hn
  refine ⟨answers_of hres (by simp), ?_, ?_⟩
  · have hk : ((T.nodesKinds.lookup ["__specializations"]).getD []).lookup [name, x] = some kind := hk
    cases hl : T.nodesKinds.lookup ["__specializations"] with
    | none => rw [hl] at hk; cases hk
    | some kinds => rw [hl] at hk; exact ⟨kinds, rfl, hk⟩
  · have hn : (((T.rawAstNodes.lookup ["__specializations"]).getD []).lookup [name, x]).getD []
        = (fs.map Stmt.functionDef).map (substStmt fun p => (params.zip (bracketed w)).lookup p) := hn
    have hne : (fs.map Stmt.functionDef).map (substStmt fun p => (params.zip (bracketed w)).lookup p) ≠ [] := by
      simpa using hfs
    have e : (fs.map Stmt.functionDef).map (substStmt fun p => (params.zip (bracketed w)).lookup p)
        = (fs.map (substFunction fun p => (params.zip (bracketed w)).lookup p)).map .functionDef := by
      rw [List.map_map, List.map_map]
      rfl
    rw [← hn] at hne
    rw [e] at hn
    cases hl : T.rawAstNodes.lookup ["__specializations"] with
    | none => rw [hl] at hne; exact absurd rfl hne
    | some nodes =>
      rw [hl, Option.getD_some] at hne hn
      cases hl' : nodes.lookup [name, x] with
      | none => rw [hl'] at hne; exact absurd rfl hne
      | some y =>
        rw [hl'] at hn
        exact ⟨nodes, hl, by rw [hl']; exact congrArg some hn⟩

/-- **C115**, signatures: the signature of a function or builtin that is a member of the class `classes` of
module `m`, while the stub has it in the generic class of a base, is given by the definitions there with
the arguments in the place of the parameters. Missing: what is missing in `C115_found_partial`. -/
theorem C115_signature_partial (L : World) (libraryDepth k : Nat) (modules : List Path) (index : Index)
    (h : indexModules L libraryDepth modules = .ok index) (R : Runtime)
    (hs : supportedPaths R.stubs.toTables k index = .ok R.index) (depth : Nat) (hd : R.depth = depth + 2)
    -- the stubs are read from source files
    (E : StubFiles) (rep : Atom → String) (n : Nat) (stubModules : List Path) (s : ParseState)
    (hread : parseAll E n stubModules {} = (.ok (), s)) (hT : parseStubs E rep n stubModules = .ok R.stubs)
    -- the object is found where it has been defined, and is the callable asked about
    (m : Path) (classes : List String) (x : String) (value : Value) (home : AtHome L modules m classes x value)
    (f : Fn) (hf : f.named = L.named value) (hhas : R.has f (m, classes ++ [x]) = true)
    -- its class inherits from a generic one
    (before after : List Expr) (v w : Expr) (l : Bool) (g : QPath) (params : List Path) (name : String)
    (hne : classes ≠ []) (hc : DefinedAt s m classes) (hx : ¬ DefinedAt s m (classes ++ [x]))
    (hb : s.classesBases.lookup (m, classes) = some (before ++ .subscript v w l :: after))
    (hgc : s.generics.lookup (m, classes) = none) (hg : s.generics.lookup g = some params)
    (hname : identifierOf rep (.subscript v w l) = some name)
    (honly : IdentifiesOnly (identifierOf rep) n s name g (bracketed w))
    (hbefore : NotBefore R.stubs (depth + 1) (m, classes) ((supersAt s m classes).length + before.length) x)
    -- other places at which it is found lead there
    (hothers : ∀ place ∈ listed index (m, classes ++ [x]), R.has f place = true →
      R.resolve place.1 [] place.2 = .ok (["__specializations"], [name, x]) ∨
        R.resolve place.1 [] place.2 = .error .objectNotFound)
    -- the definitions in the generic class
    (fs : List FunctionDef) (hfs : fs ≠ []) (hgx : DefinedAt s g.1 (g.2 ++ [x]))
    (hnodes : nodesAt s g.1 (g.2 ++ [x]) = fs.map .functionDef) (kind : NodeKind)
    (hkind : kindAt s g.1 (g.2 ++ [x]) = some kind)
    (hplain : ∀ node ∈ nodesAt s g.1 (g.2 ++ [x]), ∀ e ∈ exprsOf node,
      PlainAttributes (fun p => (params.zip (bracketed w)).lookup p) e)
    (hnc : kind ≠ .class_) (hev : ∀ m parent e, R.ev m parent e ≠ .error .signatureNotFound)
    (callable : Callable) (raw : Except PyErr RawSig) (hcall : LookedUpAs callable f raw) (sig : Sig) :
    fromCallable R callable = .ok sig ↔ GivenBy R f (["__specializations"], [name, x])
      (fs.map (substFunction fun p => (params.zip (bracketed w)).lookup p)) sig := by
  obtain ⟨hans, ⟨kinds, k1, k2⟩, hby⟩ := generic_member E rep n stubModules s R.stubs hread hT depth m classes x before
    after v w l g params name hne hc hx hb hgc hg hname honly hbefore fs hfs hgx hnodes kind hkind hplain
  have hdeep : R.resolve m [] (classes ++ [x]) ≠ .error .recursionError := by
    unfold Runtime.resolve
    rw [hd, (C115_found_partial E rep n stubModules s R.stubs hread hT (m, classes) before after v w l g params
      x name depth hne hc hx hb hgc hg hgx hname honly hbefore).1]
    simp
  exact fromCallable_at h hs home hf hhas ⟨by simp, by simp⟩ hans hdeep hothers k1 k2 hnc hby (by simpa using hfs) hev
    hcall sig

/-! ### Samples -/

/-- Two modules have a generic class `G` each; their members `f` differ. -/
def twinFiles : Dict Path (List Stmt) := [
  (["builtins"], sampleBuiltins),
  (["a"], typingHead ++ [.classDef "G" [sub (nm "Generic") (nm "T")] [] [meth "f" (nm "T")],
    .classDef "D" [sub (nm "G") (nm "int")] [] []]),
  (["b"], typingHead ++ [.classDef "G" [sub (nm "Generic") (nm "T")] [] [meth "f" (nm "str")],
    .classDef "D" [sub (nm "G") (nm "int")] [] []])]

def twinStubs : Stubs :=
  match parseStubs (filesOf twinFiles) sampleRep 20 [["a"], ["b"]] with
  | .ok T => T
  | .error _ => stubsSample

theorem twin_known : (readAll twinFiles [["a"], ["b"]]).definitions.lookup ["b"]
    = some (.mk [("T", .mk []), ("G", .mk [("f", .mk [])]), ("D", .mk [])]) := rfl

/-- The full statement is false: `b.D.f` is found in the specialisation of `a.G`. -/
theorem C115_refuted : ¬ C115_statement := by
  intro h
  have hmeans : BaseMeans 20 (readAll twinFiles [["a"], ["b"]]) (["b"], ["D"]) (nm "G") (["b"], ["G"]) :=
    ⟨["G"], rfl, fun T hd _ _ => resolve_own ((hd ["b"] (by decide)).trans twin_known) rfl⟩
  obtain ⟨q, h1, -, h2⟩ := h (filesOf twinFiles) sampleRep 20 [["a"], ["b"]] (readAll twinFiles [["a"], ["b"]])
    twinStubs rfl rfl (["b"], ["D"]) [] [] (nm "G") (nm "int") true (["b"], ["G"]) [["T"]] "f" 5 (by simp)
    ⟨_, twin_known, _, rfl, trivial⟩
    (by
      rintro ⟨_, e, _, e1, _, e2, -⟩
      rw [twin_known] at e
      cases e
      cases e1
      cases e2)
    rfl hmeans rfl ⟨_, twin_known, _, rfl, _, rfl, trivial⟩
    (by
      intro node hn e he
      obtain rfl : node = meth "f" (nm "str") := List.mem_singleton.1 hn
      have : e = nm "str" := by simpa [exprsOf, meth, Option.toList] using he
      subst this
      intro v a l hm
      simp [subtrees, nm] at hm)
    (fun q hq => nomatch hq)
  have h3 : resolve twinStubs.toTables 7 ["b"] [] ["D", "f"] []
      = .ok (["__specializations"], ["G_getitem_int", "f"]) := rfl
  rw [show ((["b"], ["D"]) : QPath).2 ++ ["f"] = ["D", "f"] from rfl, h3] at h1
  cases h1
  have h2 : [meth "f" (nm "int")] = [meth "f" (nm "str")] := h2
  simp [meth, nm] at h2

/-- `C` and `D` inherit `f` from the generic class `G`, `D` through another one. -/
def kinFiles : Dict Path (List Stmt) := [
  (["builtins"], sampleBuiltins),
  (["m"], typingHead ++ [.classDef "G" [sub (nm "Generic") (nm "T")] [] [meth "f" (nm "T")],
    .classDef "H" [sub (nm "G") (nm "T")] [] [],
    .classDef "C" [sub (nm "G") (nm "int")] [] [],
    .classDef "D" [sub (nm "H") (nm "str")] [] []])]

def kinStubs : Stubs :=
  match parseStubs (filesOf kinFiles) sampleRep 20 [["m"]] with
  | .ok T => T
  | .error _ => stubsSample

theorem kinStubs_read : parseStubs (filesOf kinFiles) sampleRep 20 [["m"]] = .ok kinStubs := rfl

theorem kin_known : (readAll kinFiles [["m"]]).definitions.lookup ["m"]
    = some (.mk [("T", .mk []), ("G", .mk [("f", .mk [])]), ("H", .mk []), ("C", .mk []), ("D", .mk [])]) := rfl

theorem kin_means {c : String} {d : String} (h : d ∈ ["G", "H"]) :
    BaseMeans 20 (readAll kinFiles [["m"]]) (["m"], [c]) (nm d) (["m"], [d]) := by
  refine ⟨[d], rfl, fun T hd _ _ => ?_⟩
  have hT := (hd ["m"] (by decide)).trans kin_known
  simp only [List.mem_cons, List.not_mem_nil, or_false] at h
  rcases h with rfl | rfl <;> exact resolve_own hT rfl

/-- The bases that occur. -/
theorem kin_bases {c : QPath} {e : Expr} (h : MayBeBase 20 (readAll kinFiles [["m"]]) c e) :
    (c = (["m"], ["H"]) ∧ (e = sub (nm "G") (nm "T") ∨ e = sub (nm "G") (nm "str")))
      ∨ (c = (["m"], ["C"]) ∧ e = sub (nm "G") (nm "int"))
      ∨ (c = (["m"], ["D"]) ∧ e = sub (nm "H") (nm "str")) := by
  induction h with
  | own hb he =>
    have := mem_of_lookup_some hb
    have hall : (readAll kinFiles [["m"]]).classesBases = [((["builtins"], ["object"]), []),
      ((["builtins"], ["int"]), []), ((["builtins"], ["str"]), []),
      ((["m"], ["G"]), []), ((["m"], ["H"]), [sub (nm "G") (nm "T")]),
      ((["m"], ["C"]), [sub (nm "G") (nm "int")]), ((["m"], ["D"]), [sub (nm "H") (nm "str")])] := rfl
    rw [hall] at this
    simp only [List.mem_cons, Prod.mk.injEq, List.not_mem_nil, or_false] at this
    rcases this with ⟨-, rfl⟩ | ⟨-, rfl⟩ | ⟨-, rfl⟩ | ⟨-, rfl⟩ | ⟨rfl, rfl⟩ | ⟨rfl, rfl⟩ | ⟨rfl, rfl⟩
    · cases he
    · cases he
    · cases he
    · cases he
    · exact .inl ⟨rfl, .inl (List.mem_singleton.1 he)⟩
    · exact .inr (.inl ⟨rfl, List.mem_singleton.1 he⟩)
    · exact .inr (.inr ⟨rfl, List.mem_singleton.1 he⟩)
  | specialised _ hg _ hm hv hw ih1 ih2 =>
    have hplain : ∀ (σ : Path → Option Expr) (id : String), PlainAttributes σ (nm id) := by
      intro σ id v a l hm
      simp [subtrees, nm] at hm
    rcases ih1 with ⟨rfl, ih1⟩ | ⟨rfl, ih1⟩ | ⟨rfl, ih1⟩
    · obtain rfl := Option.some.inj ((show (readAll kinFiles [["m"]]).generics.lookup (["m"], ["H"])
        = some [["T"]] from rfl).symm.trans hg)
      rcases ih2 with ⟨rfl, ih2 | ih2⟩ | ⟨rfl, ih2⟩ | ⟨rfl, ih2⟩
      · cases ih2
        exact absurd (hm _ (kin_means (by decide))) (by decide)
      · cases ih2
        exact absurd (hm _ (kin_means (by decide))) (by decide)
      · cases ih2
        exact absurd (hm _ (kin_means (by decide))) (by decide)
      · cases ih2
        rcases ih1 with ih1 | ih1
        · cases ih1
          obtain rfl := hv (hplain _ _)
          obtain rfl := hw (hplain _ _)
          exact .inl ⟨rfl, .inr rfl⟩
        · cases ih1
          obtain rfl := hv (hplain _ _)
          obtain rfl := hw (hplain _ _)
          exact .inl ⟨rfl, .inr rfl⟩
    · exact absurd (show none = some _ from hg) nofun
    · exact absurd (show none = some _ from hg) nofun

theorem kin_only :
    IdentifiesOnly (identifierOf sampleRep) 20 (readAll kinFiles [["m"]]) "G_getitem_int" (["m"], ["G"]) [nm "int"] := by
  intro c v w l h hi
  rcases kin_bases h with ⟨rfl, e | e⟩ | ⟨rfl, e⟩ | ⟨rfl, e⟩
  · cases e
    exact absurd (Option.some.inj hi) (by decide)
  · cases e
    exact absurd (Option.some.inj hi) (by decide)
  · cases e
    exact ⟨rfl, kin_means (by decide)⟩
  · cases e
    exact absurd (Option.some.inj hi) (by decide)

theorem kin_plain : ∀ node ∈ nodesAt (readAll kinFiles [["m"]]) ["m"] ["G", "f"], ∀ e ∈ exprsOf node,
    PlainAttributes (fun p => (List.zip [["T"]] (bracketed (nm "int"))).lookup p) e := by
  intro node hn e he
  obtain rfl : node = meth "f" (nm "T") := List.mem_singleton.1 hn
  have : e = nm "T" := by simpa [exprsOf, meth, Option.toList] using he
  subst this
  intro v a l hm
  simp [subtrees, nm] at hm

theorem kin_undefined : ¬ DefinedAt (readAll kinFiles [["m"]]) ["m"] ["C", "f"] := by
  rintro ⟨_, e, _, e1, _, e2, -⟩
  rw [kin_known] at e
  cases e
  cases e1
  cases e2

/-- The hypotheses of `C115_found_partial` hold for `C`. -/
example : resolve kinStubs.toTables 7 ["m"] [] ["C", "f"] []
      = .ok (["__specializations"], ["G_getitem_int", "f"]) ∧
    nodesAt (returned kinStubs) ["__specializations"] ["G_getitem_int", "f"] = [meth "f" (nm "int")] := by
  obtain ⟨h1, -, h2⟩ := C115_found_partial (filesOf kinFiles) sampleRep 20 [["m"]] (readAll kinFiles [["m"]])
    kinStubs rfl kinStubs_read (["m"], ["C"]) [] [] (nm "G") (nm "int") true (["m"], ["G"]) [["T"]] "f"
    "G_getitem_int" 5 (by simp) ⟨_, kin_known, _, rfl, trivial⟩ kin_undefined rfl rfl rfl
    ⟨_, kin_known, _, rfl, _, rfl, trivial⟩ rfl kin_only (fun q hq => nomatch hq)
  exact ⟨h1, h2 kin_plain⟩

/-- In the library `C` defines `f` itself. -/
def kinWorld : World where
  vars
    | 0 => [("C", .cls 2)]
    | 2 => [("f", .other 1)]
    | _ => []
  classes _ := (.text "m", "C")
  others
    | 1 => .function (.text "m") "C.f"
    | _ => .other
  importModule m := if m = ["m"] then some 0 else none

theorem kinIndex : indexModules kinWorld 4 [["m"]] =
    .ok [(["m"], [(["C"], [(["m"], ["C"])]), (["C", "f"], [(["m"], ["C", "f"])])])] := rfl

def kinRuntime : Runtime :=
  { runtimeSample with
    stubs := kinStubs
    index := [(["m"], [(["C"], [(["m"], ["C"])]), (["C", "f"], [(["m"], ["C", "f"])])])] }

/-- The hypotheses of `C115_signature_partial` hold for `C.f`. -/
example (raw : Except PyErr RawSig) (sig : Sig) :
    fromCallable kinRuntime (.function { module_ := .text "m", qualname := "C.f" } raw) = .ok sig ↔
      GivenBy kinRuntime (.ofFunction { module_ := .text "m", qualname := "C.f" })
        (["__specializations"], ["G_getitem_int", "f"])
        [{ name := "f", args := { args := [⟨"self", none⟩] }, returns := some (nm "int") }] sig :=
  C115_signature_partial kinWorld 4 5 [["m"]] _ kinIndex kinRuntime rfl 8 rfl (filesOf kinFiles) sampleRep 20
    [["m"]] (readAll kinFiles [["m"]]) rfl kinStubs_read ["m"] ["C"] "f" (.other 1)
    ⟨by simp, ⟨0, _, rfl, .inside (id := 2) (by simp [kinWorld]) (.other (by simp [kinWorld])), by simp⟩,
      ⟨by simp, by decide⟩, fun x hx => by simp at hx; rcases hx with rfl | rfl <;> decide, .function⟩
    (.ofFunction { module_ := .text "m", qualname := "C.f" }) rfl rfl [] [] (nm "G") (nm "int") true
    (["m"], ["G"]) [["T"]] "G_getitem_int" (by simp) ⟨_, kin_known, _, rfl, trivial⟩ kin_undefined rfl rfl rfl
    rfl kin_only (fun q hq => nomatch hq)
    (fun place hp _ => by
      have hp : place = (["m"], ["C", "f"]) := by simpa [listed, List.lookup] using hp
      subst hp
      exact .inl rfl)
    [{ name := "f", args := { args := [⟨"self", none⟩] }, returns := some (nm "T") }] (by simp)
    ⟨_, kin_known, _, rfl, _, rfl, trivial⟩ rfl .function rfl kin_plain (by decide)
    (fun _ _ => evalSample_found) _ raw (.function _ raw) sig

end Paradigm.Props
