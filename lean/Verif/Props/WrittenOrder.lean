import Verif.Lemmas.WrittenOrder
import Verif.Props.ReadingOrder
import Verif.Props.WrittenBases

/-!
# C118, C119 from the stub files: superclasses, and answers
-/

namespace Paradigm.Props

open Spec

/-- The bases of a class that is written in a stub file mean what they are there, whatever superclasses are
recorded. -/
theorem written_means {E : StubFiles} {o : Expr → Bool} (ho : Decides E o) {N n : Nat} {modules : List Path}
    {s : ParseState} (hs : parseAll E N modules {} = (.ok (), s)) {c : QPath} {qs : List QPath}
    (hc : WrittenClass E o s.tables s c qs) {bases : List Expr} (hb : s.classesBases.lookup c = some bases) :
    ∀ e ∈ bases, ∃ q, BaseMeans (n + 2) s c e q := by
  obtain ⟨hread, ⟨hspec, hty⟩, name, body, A, exprs, hname, hsrc, hd, hlast, hkind, hqs⟩ := hc
  obtain ⟨m, p⟩ := c
  dsimp only at *
  subst hname
  have e : (parseAll E N modules {}).2 = s := congrArg Prod.snd hs
  have hown := parseAll_own ho hsrc hty hd N modules
  rw [e] at hown
  have hbases := bases_written (n := N) (modules := modules) ho hsrc hty hd (by rw [e]; exact hread) hlast
  rw [e, hb] at hbases
  cases hbases
  have hkinds : ∀ p kind, lastKind (kindsDeclaredAll o [] body) p = some kind → DefinedIn s.tables m p := by
    intro p kind hk
    have hn := C100_kinds E o ho s m hread body hsrc p
    rw [hk] at hn
    unfold kindAt at hn
    cases hl : s.kinds.lookup m with
    | none => rw [hl] at hn; cases hn
    | some kinds =>
      rw [hl, Option.getD_some] at hn
      have hd := C40_recorded_defined E N modules m p (.inr ⟨kinds, kind, by rw [e]; exact hl, hn⟩)
      rw [e] at hd
      exact hd
  have hrefs := readToEnd_refers hsrc hread
  obtain ⟨defs, hdefs, -⟩ := hkinds _ _ hkind
  have hB : NamesOnly A bases := hd.bases _ (mem_of_lastAt hlast) rfl
  have recorded : ∀ {b : Path} {q : QPath}, ∀ a ∈ A, a.1 = b → (b, q) ∈ importsAll E.isPackage o m body →
      referenceAt s m b = some q := by
    intro b q a ha hab hi
    have haq : some q = a.2 := (hd.own a ha _ (importsAll_refers body hi) hab.symm).2
    have hmade := imports_written (n := N) (modules := modules) ho hsrc (by rw [e]; exact hread) hi
    rw [e] at hmade
    cases hv : referenceAt s m b with
    | none => exact absurd hv hmade
    | some v =>
      have := hown.references a ha v (by rw [hab]; exact hv)
      rw [← haq] at this
      exact this.symm
  have none' : ∀ b, (b, none) ∈ A → referenceAt s m b = none := by
    intro b hb
    cases hv : referenceAt s m b with
    | none => rfl
    | some v => cases hown.references _ hb v hv
  intro x hx
  obtain ⟨q, hq⟩ := pointwise_mem_left hqs hx
  refine ⟨q, ?_⟩
  have transfer : ∀ {T : Tables}, (∀ m, m ≠ ["__specializations"] → T.definitions.lookup m = s.definitions.lookup m) →
      ∀ {y : Path}, y ≠ ["__specializations"] → ∀ z, DefinedIn s.tables y z ↔ DefinedIn T y z := by
    intro T hT y hy z
    unfold DefinedIn
    rw [hT y hy]
    rfl
  have hbs : (["builtins"] : Path) ≠ ["__specializations"] := by decide
  cases hq with
  | own he h =>
    exact ⟨_, he, fun T t1 t2 t3 => resolve_of_defined ((transfer t1 hspec _).1 (hkinds _ _ h)) _ _⟩
  | @imported b q he hno hi hsp h =>
    refine ⟨_, he, fun T t1 t2 t3 => finds_imported ((t1 m hspec).trans hdefs)
      (fun hd => hno ((transfer t1 hspec _).2 hd)) ((transfer t1 hsp _).1 h) (by rw [t3]; exact hown.submodules) ?_⟩
    rw [t2 m hspec]
    obtain ⟨path, he', -, hpre⟩ := hB x hx
    rw [he] at he'
    cases he'
    obtain ⟨a, ha, ha1, -⟩ := hpre 1 (by decide) (by simp)
    exact recorded a ha ha1 hi
  | @builtin b he hno hb h =>
    exact ⟨_, he, fun T t1 t2 t3 => finds_builtin ((t1 m hspec).trans hdefs)
      (fun hd => hno ((transfer t1 hspec _).2 hd)) ((transfer t1 hbs _).1 h) (by rw [t3]; exact hown.submodules)
      (by rw [t2 m hspec]; exact hrefs) (by rw [t2 m hspec]; exact none' _ hb)⟩
  | @inside y ys b target he hno hb hi hsp h =>
    refine ⟨_, he, fun T t1 t2 t3 => finds_inside ((t1 m hspec).trans hdefs)
      (fun hd => hno ((transfer t1 hspec _).2 hd)) ((transfer t1 hsp _).1 h) (by rw [t3]; exact hown.submodules) ?_
      (by rw [t2 m hspec]; exact none' _ hb)⟩
    rw [t2 m hspec]
    obtain ⟨path, he', -, hpre⟩ := hB x hx
    rw [he] at he'
    cases he'
    obtain ⟨a, ha, ha1, -⟩ := hpre (ys.length + 1) (by omega) (by simp)
    exact recorded a ha (by rw [ha1]; simp) hi

/-- **C119** from the stub files: if the modules, in some order, use only what comes before, and the classes that have
bases are top level classes whose bases are written as names of classes of the module, of builtin classes or of what
is imported, then a session has the same answers whatever order the modules are read in. Missing: modules that need
each other (see `C119_refuted`), bases with arguments, bases imported by a star or again, and classes in classes that
have bases. -/
theorem C119_written_partial (E : StubFiles) (o : Expr → Bool) (ho : Decides E o) (names : List String)
    (rep : Atom → String) (N n : Nat) (order modules modules' : List Path) (h : InOrder E names order) (s : ParseState)
    (hs : parseAll E N order {} = (.ok (), s))
    (h1 : ∀ m, m ∈ ["builtins"] :: modules ↔ m ∈ ["builtins"] :: order)
    (h2 : ∀ m, m ∈ ["builtins"] :: modules' ↔ m ∈ ["builtins"] :: order) (a b : Stubs)
    (ha : parseStubs E rep (n + 2) modules = .ok a) (hb : parseStubs E rep (n + 2) modules' = .ok b)
    (hw : ∀ c bases, s.classesBases.lookup c = some bases → bases ≠ [] → ∃ qs, WrittenClass E o s.tables s c qs)
    (R : Runtime) (W : Interpreter Obj) (other : Atom → String) (k : Nat)
    (collect : EvalState Obj → EvalState Obj) (cs : List Callable) (t : EvalState Obj) :
    session (R.on a) (((R.on a).evaluator W other k).after collect) cs t
      = session (R.on b) (((R.on b).evaluator W other k).after collect) cs t := by
  refine C119_sources_partial E names rep N (n + 2) order modules modules' h s hs h1 h2 a b ha hb
    (fun c bases hc e he => ?_) R W other k collect cs t
  obtain ⟨qs, hqs⟩ := hw c bases hc (List.ne_nil_of_mem he)
  exact written_means ho hs hqs hc e he

section transfer

variable {E : StubFiles} {o : Expr → Bool} {names : List String} {rep : Atom → String} {N n n' : Nat}
  {order modules modules' : List Path} (h : InOrder E names order) {s : ParseState}
  (hs : parseAll E N order {} = (.ok (), s)) (h1 : ∀ m, m ∈ ["builtins"] :: modules ↔ m ∈ ["builtins"] :: order)
  (h2 : ∀ m, m ∈ ["builtins"] :: modules' ↔ m ∈ ["builtins"] :: order) {a b : Stubs}
  (ha : parseStubs E rep n modules = .ok a) (hb : parseStubs E rep n' modules' = .ok b)

include h hs h1 h2 ha hb

/-- What is defined does not depend on the order. -/
theorem defined_alike {y : Path} (hy : y ≠ ["__specializations"]) (z : Path) :
    DefinedIn a.toTables y z ↔ DefinedIn b.toTables y z := by
  have := (C118_sources_tables_partial E names rep N n n' order modules modules' h s hs h1 h2 a b ha hb y hy).definitions
  unfold DefinedIn
  rw [show a.toTables.definitions.lookup y = b.toTables.definitions.lookup y from this]

/-- Nor does how a class is written. -/
theorem written_alike {c : QPath} {qs : List QPath}
    (hc : WrittenClass E o a.toTables (parseAll E n modules {}).2 c qs) :
    WrittenClass E o b.toTables (parseAll E n' modules' {}).2 c qs := by
  have hdef := fun y hy => defined_alike h hs h1 h2 ha hb (y := y) hy
  obtain ⟨u, t, a1, -, -⟩ := parseStubs_ok ha
  obtain ⟨u', t', b1, -, -⟩ := parseStubs_ok hb
  have k2 := C118_sources_partial E names N n order modules h s hs h1
  have k4 := C118_sources_partial E names N n' order modules' h s hs h2
  rw [a1] at k2 hc
  rw [b1] at k4 ⊢
  rcases k2 with k2 | ⟨_, k2, k5⟩
  · cases k2
  rcases k4 with k4 | ⟨_, k4, k6⟩
  · cases k4
  cases k2
  cases k4
  have hsame : ∀ m, SameAt u u' m := fun m => (k5 m).symm'.trans' (k6 m)
  obtain ⟨⟨k, v, scope, w, r1, r2, r3⟩, hm, name, body, A, exprs, hname, hsrc, hd, hlast, hkind, hqs⟩ := hc
  refine ⟨⟨k, v, scope, w, r1, r2, r3.trans' (hsame _)⟩, hm, name, body, A, exprs, hname, hsrc, hd, hlast, hkind,
    pointwise_weaken (fun e q he => ?_) hqs⟩
  cases he with
  | own he h => exact .own he h
  | imported he hno hi hsp h => exact .imported he (fun hd => hno ((hdef _ hm.1 _).2 hd)) hi hsp ((hdef _ hsp _).1 h)
  | builtin he hno hb h =>
    exact .builtin he (fun hd => hno ((hdef _ hm.1 _).2 hd)) hb ((hdef _ (by decide) _).1 h)
  | inside he hno hb hi hsp h =>
    exact .inside he (fun hd => hno ((hdef _ hm.1 _).2 hd)) hb hi hsp ((hdef _ hsp _).1 h)

/-- Nor does a hierarchy of such classes. -/
theorem hierarchy_alike {bases : QPath → List QPath} {c : QPath}
    (hc : WrittenHierarchy E o a.toTables (parseAll E n modules {}).2 bases c) :
    WrittenHierarchy E o b.toTables (parseAll E n' modules' {}).2 bases c where
  written d hd := by
    obtain ⟨qs, k1, k2⟩ := hc.written d hd
    exact ⟨qs, written_alike h hs h1 h2 ha hb k1, k2⟩
  named := hc.named
  root := written_alike h hs h1 h2 ha hb hc.root

end transfer

/-- **C118** from the stub files, for superclasses: those of such a class are the classes its bases are, in whatever
order the modules are read. Missing: as for `C119_written_partial`. -/
theorem C118_written_partial (E : StubFiles) (o : Expr → Bool) (ho : Decides E o) (names : List String)
    (rep : Atom → String) (N n n' : Nat) (order modules modules' : List Path) (h : InOrder E names order)
    (s : ParseState) (hs : parseAll E N order {} = (.ok (), s))
    (h1 : ∀ m, m ∈ ["builtins"] :: modules ↔ m ∈ ["builtins"] :: order)
    (h2 : ∀ m, m ∈ ["builtins"] :: modules' ↔ m ∈ ["builtins"] :: order) (a b : Stubs)
    (ha : parseStubs E rep n modules = .ok a) (hb : parseStubs E rep n' modules' = .ok b) (c : QPath)
    (qs : List QPath) (hc : WrittenClass E o a.toTables (parseAll E n modules {}).2 c qs) :
    supersAt (returned a) c.1 c.2 = qs ∧ supersAt (returned b) c.1 c.2 = qs :=
  ⟨C92_written_partial E o ho rep n modules a ha c qs hc,
    C92_written_partial E o ho rep n' modules' b hb c qs (written_alike h hs h1 h2 ha hb hc)⟩

/-- **C116** for every order of the modules: an inherited member that is found in the class of the method resolution
order, if the modules are read in one order, is found there in every other order. Missing: as for
`C116_through_written_partial` and `C118_written_partial`. -/
theorem C116_order_partial (E : StubFiles) (o : Expr → Bool) (ho : Decides E o) (names : List String)
    (rep : Atom → String) (N n n' : Nat) (order modules modules' : List Path) (h : InOrder E names order)
    (s : ParseState) (hs : parseAll E N order {} = (.ok (), s))
    (h1 : ∀ m, m ∈ ["builtins"] :: modules ↔ m ∈ ["builtins"] :: order)
    (h2 : ∀ m, m ∈ ["builtins"] :: modules' ↔ m ∈ ["builtins"] :: order) (a b : Stubs)
    (ha : parseStubs E rep n modules = .ok a) (hb : parseStubs E rep n' modules' = .ok b)
    (bases : QPath → List QPath) (c : QPath) (x : String) (mro : List QPath) (q : QPath)
    (hc : WrittenHierarchy E o a.toTables (parseAll E n modules {}).2 bases c) (hmro : Mro bases c mro)
    (hq : Above bases c q) (hx : HasMember a.toTables x q)
    (hway : ∀ e, Around bases q c e → ¬ HasMember a.toTables x e) :
    Answers b.toTables c.1 [] (c.2 ++ [x]) [] (.ok (q.1, q.2 ++ [x])) ∧
      ∃ pre post, mro = pre ++ q :: post ∧ ∀ p ∈ pre, ¬ HasMember b.toTables x p := by
  have has : ∀ {d}, Above bases c d → (HasMember a.toTables x d ↔ HasMember b.toTables x d) := by
    intro d hd
    obtain ⟨qs, k1, -⟩ := hc.written d hd
    exact defined_alike h hs h1 h2 ha hb k1.module.1 _
  exact C116_through_written_partial E o ho rep n' modules' b hb bases c x mro q (hierarchy_alike h hs h1 h2 ha hb hc)
    hmro hq ((has hq).1 hx) fun e he hm => hway e he ((has he.above).2 hm)

/-! ### Example -/

/-- The modules of `importingFiles` use only what comes before. -/
theorem importing_inOrder : InOrder importingFiles [] [["base"], ["m"]] := by
  have none' : ∀ {α : Type} {p : α → Prop}, ∀ e ∈ ([] : List α), p e := fun e he => nomatch he
  refine inOrder_of (by decide) fun k hk body hb => ?_
  have hk : k < 3 := hk
  obtain rfl | rfl | rfl : k = 0 ∨ k = 1 ∨ k = 2 := by omega
  · cases hb
    exact ⟨before_class none' trivial, trivial⟩
  · cases hb
    exact ⟨before_class none' ⟨trivial, trivial⟩, trivial⟩
  · cases hb
    refine ⟨before_from (target := ["base"]) rfl (by decide +kernel), before_class (fun e he => ?_) trivial, trivial⟩
    rcases List.mem_cons.1 he with rfl | he
    · exact .inl ⟨_, rfl⟩
    · exact .inl ⟨_, List.mem_singleton.1 he⟩

/-- The superclasses of `D` are those written, also when the module it imports from is read after it. -/
example : ∃ b, parseStubs importingFiles sampleRep 25 [["m"], ["base"]] = .ok b ∧
    supersAt (returned b) ["m"] ["D"] = [(["base"], ["Root"]), objectClass] := by
  obtain ⟨b, hb⟩ := stubsRead_ok (E := importingFiles) (rep := sampleRep) (n := 25) (modules := [["m"], ["base"]])
    (by decide +kernel)
  refine ⟨b, hb, (C118_written_partial importingFiles sampleOutcome (filesOf_decides _) [] sampleRep 20 20 25
    [["base"], ["m"]] [["base"], ["m"]] [["m"], ["base"]] importing_inOrder _ importing_parsed (fun _ => Iff.rfl)
    (fun m => ?_) importingStubs b rfl hb (ofM "D") _ importing_class).2⟩
  simp only [List.mem_cons, List.not_mem_nil, or_false]
  grind

/-- And `D.run` is found in the class that is imported. -/
example : ∃ b, parseStubs importingFiles sampleRep 25 [["m"], ["base"]] = .ok b ∧
    Answers b.toTables ["m"] [] ["D", "run"] [] (.ok (["base"], ["Root", "run"])) := by
  obtain ⟨b, hb⟩ := stubsRead_ok (E := importingFiles) (rep := sampleRep) (n := 25) (modules := [["m"], ["base"]])
    (by decide +kernel)
  refine ⟨b, hb, (C116_order_partial importingFiles sampleOutcome (filesOf_decides _) [] sampleRep 20 20 25
    [["base"], ["m"]] [["base"], ["m"]] [["m"], ["base"]] importing_inOrder _ importing_parsed (fun _ => Iff.rfl)
    (fun m => ?_) importingStubs b rfl hb importingBases (ofM "D") "run" _ (["base"], ["Root"]) importing_written
    importing_mro (.step (b := (["base"], ["Root"])) (by decide) (.refl _)) (by decide +kernel) fun e he => ?_).1⟩
  · simp only [List.mem_cons, List.not_mem_nil, or_false]
    grind
  · have : ∀ e ∈ [ofM "D", (["base"], ["Root"]), objectClass], e ≠ (["base"], ["Root"]) →
        ¬ HasMember importingStubs.toTables "run" e := by decide +kernel
    exact this e (importing_above he.above) he.ne

/-- `D` is written so in the modules that were read. -/
theorem importing_read : WrittenClass importingFiles sampleOutcome (parseAll importingFiles 20 [["base"], ["m"]] {}).2.tables
    (parseAll importingFiles 20 [["base"], ["m"]] {}).2 (ofM "D") [(["base"], ["Root"]), objectClass] :=
  ⟨importing_class.read, importing_class.module, "D", importingBody, [(["Base"], some (["base"], ["Root"])), (["object"], none)],
    [nm "Base", nm "object"], rfl, rfl, importing_derived, rfl, rfl,
    .imported (b := "Base") rfl (by decide +kernel) (by decide +kernel) (by decide) (by decide +kernel),
    .builtin (b := "object") rfl (by decide +kernel) (by decide) (by decide +kernel), trivial⟩

/-- The hypotheses of `C119_written_partial` can be met. -/
example : ∃ a b, parseStubs importingFiles sampleRep 20 [["base"], ["m"]] = .ok a ∧
    parseStubs importingFiles sampleRep 20 [["m"], ["builtins"], ["base"]] = .ok b ∧
    ∀ cs, session (homeRuntime.on a) (((homeRuntime.on a).evaluator sessionPython (fun _ => "") 20).after id) cs
        (initialEval (.form 99))
      = session (homeRuntime.on b) (((homeRuntime.on b).evaluator sessionPython (fun _ => "") 20).after id) cs
        (initialEval (.form 99)) := by
  obtain ⟨a, ha⟩ := stubsRead_ok (E := importingFiles) (rep := sampleRep) (n := 20) (modules := [["base"], ["m"]])
    (by decide +kernel)
  obtain ⟨b, hb⟩ := stubsRead_ok (E := importingFiles) (rep := sampleRep) (n := 20)
    (modules := [["m"], ["builtins"], ["base"]]) (by decide +kernel)
  refine ⟨a, b, ha, hb, fun cs => C119_written_partial importingFiles sampleOutcome (filesOf_decides _) [] sampleRep 20 18
    [["base"], ["m"]] _ _ importing_inOrder _ importing_parsed (fun _ => Iff.rfl) (fun m => ?_) a b ha hb
    (fun c bases hc hne => ?_) homeRuntime sessionPython _ 20 id cs _⟩
  · simp only [List.mem_cons, List.not_mem_nil, or_false]
    grind
  · have h : ∀ e ∈ (parseAll importingFiles 20 [["base"], ["m"]] {}).2.classesBases,
        e.2.isEmpty = true ∨ e.1 = ofM "D" := by decide +kernel
    rcases h _ (mem_of_lookup hc) with h | h
    · exact absurd (List.isEmpty_iff.1 h) hne
    · cases h
      exact ⟨_, importing_read⟩

end Paradigm.Props
