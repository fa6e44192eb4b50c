import Verif.Lemmas.ReadingOrder
import Verif.Props.SessionTables

/-!
# C118, C119 from the stub files: modules that use only what comes before
-/

namespace Paradigm.Props

open Spec

/-- **C118** from the stub files: if each module, in some order, star-imports only modules before it, and imports what
begins the arguments of bases only from modules before it, then every order of the modules leads to the same tables
or to a `RecursionError`. Missing: modules that need each other, see `C118_refuted`. -/
theorem C118_sources_partial (E : StubFiles) (names : List String) (N n : Nat) (order modules : List Path)
    (h : InOrder E names order) (s : ParseState) (hs : parseAll E N order {} = (.ok (), s))
    (hall : ∀ m, m ∈ ["builtins"] :: modules ↔ m ∈ ["builtins"] :: order) :
    (parseAll E n modules {}).1 = .error .recursionError ∨
      ∃ s', parseAll E n modules {} = (.ok (), s') ∧ ∀ m, SameAt s s' m := by
  obtain ⟨u, h1, h2⟩ := C118_read_partial E N n order modules (h.readInTurn hs) hall
  rw [hs] at h1
  cases h1
  exact h2

/-- **C118** from the stub files, for the tables that are returned. Missing: modules that need each other (see
`C118_refuted`), the classes made for generic bases (module `__specializations`), and superclasses. -/
theorem C118_sources_tables_partial (E : StubFiles) (names : List String) (rep : Atom → String) (N n n' : Nat)
    (order modules modules' : List Path) (h : InOrder E names order) (s : ParseState)
    (hs : parseAll E N order {} = (.ok (), s))
    (h1 : ∀ m, m ∈ ["builtins"] :: modules ↔ m ∈ ["builtins"] :: order)
    (h2 : ∀ m, m ∈ ["builtins"] :: modules' ↔ m ∈ ["builtins"] :: order) (a b : Stubs)
    (ha : parseStubs E rep n modules = .ok a) (hb : parseStubs E rep n' modules' = .ok b) (m : Path)
    (hm : m ≠ ["__specializations"]) : TellAlike a b m :=
  C118_tables_partial E rep N n n' order modules modules' (h.readInTurn hs) h1 h2 a b ha hb m hm

/-- **C119** from the stub files, for modules that use only what comes before in some order, and whose bases are
names that mean something whatever superclasses are recorded. Missing: modules that need each other (see
`C119_refuted`), bases with arguments, and bases that are inherited. -/
theorem C119_sources_partial (E : StubFiles) (names : List String) (rep : Atom → String) (N n : Nat)
    (order modules modules' : List Path) (h : InOrder E names order) (s : ParseState)
    (hs : parseAll E N order {} = (.ok (), s))
    (h1 : ∀ m, m ∈ ["builtins"] :: modules ↔ m ∈ ["builtins"] :: order)
    (h2 : ∀ m, m ∈ ["builtins"] :: modules' ↔ m ∈ ["builtins"] :: order) (a b : Stubs)
    (ha : parseStubs E rep n modules = .ok a) (hb : parseStubs E rep n modules' = .ok b)
    (hm : ∀ c bases, s.classesBases.lookup c = some bases → ∀ e ∈ bases, ∃ q, BaseMeans n s c e q)
    (R : Runtime) (W : Interpreter Obj) (other : Atom → String) (k : Nat)
    (collect : EvalState Obj → EvalState Obj) (cs : List Callable) (t : EvalState Obj) :
    session (R.on a) (((R.on a).evaluator W other k).after collect) cs t
      = session (R.on b) (((R.on b).evaluator W other k).after collect) cs t :=
  C119_plain_partial E rep N n order modules modules' (h.readInTurn hs) h1 h2 a b ha hb s hs hm R W other k collect cs t

/-! ### Example -/

theorem inOrder_of {E : StubFiles} {names : List String} {modules : List Path} (once : (["builtins"] :: modules).Nodup)
    (h : ∀ k, ∀ hk : k < (["builtins"] :: modules).length, ∀ body,
      E.source ((["builtins"] :: modules)[k]) = some body →
      OnlyBeforeAll E.isPackage ((["builtins"] :: modules).take (k + 1)) names ((["builtins"] :: modules)[k]) body) :
    InOrder E names modules := by
  refine ⟨once, fun before m after e body hb => ?_⟩
  have hk : before.length < (["builtins"] :: modules).length := by rw [e]; simp
  have he : (["builtins"] :: modules)[before.length] = m := by simp [e]
  have ht : (["builtins"] :: modules).take (before.length + 1) = before ++ [m] := by
    rw [e, List.take_append]
    simp [Nat.add_sub_cancel_left, List.take_of_length_le]
  have := h before.length hk body (by rw [he]; exact hb)
  rw [he, ht] at this
  exact this

instance (names : List String) (path : Path) : Decidable (BeginsBy names path) := by
  unfold BeginsBy
  infer_instance

theorem before_from {isPackage : Path → Bool} {before : List Path} {names : List String} {m : Path}
    {module : Option String} {aliases : List Alias} {level : Nat} {target : Path}
    (h : toParentModulePath isPackage (module.map pathFromString) level m = .ok target)
    (h' : ∀ a ∈ aliases, (a.name = "*" → target ∈ before) ∧ (BeginsBy names (match a.asname with
        | some name => [name]
        | none => pathFromString a.name) → target ∈ before)) :
    OnlyBefore isPackage before names m (.importFrom module aliases level) := by
  rw [OnlyBefore]
  intro t ht
  rw [h] at ht
  cases ht
  exact h'

theorem before_class {isPackage : Path → Bool} {before : List Path} {names : List String} {m : Path} {name : String}
    {bases : List Expr} {keywords : List Expr} {body : List Stmt}
    (h : ∀ e ∈ bases, (∃ x, e = nm x) ∨ ∃ x y, e = sampleSubscript x (nm y) ∧ y ∈ names)
    (h' : OnlyBeforeAll isPackage before names m body) :
    OnlyBefore isPackage before names m (.classDef name bases keywords body) := by
  rw [OnlyBefore]
  refine ⟨fun value slice load hin e he p hp => ?_, h'⟩
  rcases h _ hin with ⟨x, hx⟩ | ⟨x, y, hx, hy⟩
  · cases hx
  · cases hx
    cases List.mem_singleton.1 he
    cases hp
    exact ⟨y, hy, rfl⟩

/-- In `layeredFiles` each module uses only what comes before: `b` star-imports `a`, and the arguments of bases are
`T` of `a` and `int` of `builtins`. -/
theorem layered_inOrder : InOrder layeredFiles ["T", "int"] [["a"], ["b"], ["d"], ["typing"]] := by
  have none' : ∀ {α : Type} {p : α → Prop}, ∀ e ∈ ([] : List α), p e := fun e he => nomatch he
  refine inOrder_of (by decide) fun k hk body hb => ?_
  have hk : k < 5 := hk
  obtain rfl | rfl | rfl | rfl | rfl : k = 0 ∨ k = 1 ∨ k = 2 ∨ k = 3 ∨ k = 4 := by omega
  · cases hb
    exact ⟨before_class none' trivial, before_class none' trivial, before_class none' trivial, trivial⟩
  · cases hb
    refine ⟨before_from (target := ["typing"]) rfl (by decide +kernel), ?_, before_class none' ⟨trivial, trivial⟩,
      trivial⟩
    rw [OnlyBefore]
    exact fun q hq => nomatch hq
  · cases hb
    exact ⟨before_from (target := ["a"]) rfl (by decide +kernel), before_from (target := ["typing"]) rfl (by decide +kernel),
      before_class (fun e he => .inr ⟨_, _, List.mem_singleton.1 he, by simp⟩) ⟨trivial, trivial⟩,
      before_class (fun e he => .inl ⟨_, List.mem_singleton.1 he⟩) trivial, trivial⟩
  · cases hb
    refine ⟨before_from (target := ["b"]) rfl (by decide +kernel), before_class (fun e he => ?_) trivial, trivial⟩
    rcases List.mem_cons.1 he with rfl | he
    · exact .inl ⟨_, rfl⟩
    · exact .inr ⟨_, _, List.mem_singleton.1 he, by simp⟩
  · cases hb
    exact ⟨before_class none' trivial, before_class none' trivial, trivial⟩

/-- The hypotheses of `C118_sources_tables_partial` can be met. -/
example : ∃ a b, parseStubs layeredFiles sampleRep 30 [["d"], ["b"], ["a"], ["typing"]] = .ok a ∧
    parseStubs layeredFiles sampleRep 25 [["typing"], ["b"], ["builtins"], ["d"], ["a"]] = .ok b ∧
    TellAlike a b ["b"] := by
  obtain ⟨a, ha⟩ := stubsRead_ok (E := layeredFiles) (rep := sampleRep) (n := 30)
    (modules := [["d"], ["b"], ["a"], ["typing"]]) (by decide +kernel)
  obtain ⟨b, hb⟩ := stubsRead_ok (E := layeredFiles) (rep := sampleRep) (n := 25)
    (modules := [["typing"], ["b"], ["builtins"], ["d"], ["a"]]) (by decide +kernel)
  obtain ⟨s, hs, -⟩ := layered_in_turn 4 (by decide)
  refine ⟨a, b, ha, hb, C118_sources_tables_partial layeredFiles ["T", "int"] sampleRep 30 30 25
    [["a"], ["b"], ["d"], ["typing"]] _ _ layered_inOrder s hs (fun m => ?_) (fun m => ?_) a b ha hb ["b"] (by decide)⟩
  all_goals simp only [List.mem_cons, List.not_mem_nil, or_false]; grind

/-- So does each module of `plainLayers`. -/
theorem plainLayers_inOrder : InOrder plainLayers ["T"] [["a"], ["b"], ["d"], ["typing"]] := by
  have none' : ∀ {α : Type} {p : α → Prop}, ∀ e ∈ ([] : List α), p e := fun e he => nomatch he
  refine inOrder_of (by decide) fun k hk body hb => ?_
  have hk : k < 5 := hk
  obtain rfl | rfl | rfl | rfl | rfl : k = 0 ∨ k = 1 ∨ k = 2 ∨ k = 3 ∨ k = 4 := by omega
  · cases hb
    exact ⟨before_class none' trivial, before_class none' trivial, before_class none' trivial, trivial⟩
  · cases hb
    refine ⟨before_from (target := ["typing"]) rfl (by decide +kernel), ?_, before_class none' ⟨trivial, trivial⟩,
      trivial⟩
    rw [OnlyBefore]
    exact fun q hq => nomatch hq
  · cases hb
    exact ⟨before_from (target := ["a"]) rfl (by decide +kernel), before_from (target := ["typing"]) rfl (by decide +kernel),
      before_class (fun e he => .inr ⟨_, _, List.mem_singleton.1 he, by simp⟩) ⟨trivial, trivial⟩,
      before_class (fun e he => .inl ⟨_, List.mem_singleton.1 he⟩) trivial, trivial⟩
  · cases hb
    exact ⟨before_from (target := ["b"]) rfl (by decide +kernel),
      before_class (fun e he => .inl ⟨_, List.mem_singleton.1 he⟩) trivial, trivial⟩
  · cases hb
    exact ⟨before_class none' trivial, before_class none' trivial, trivial⟩

/-- The hypotheses of `C119_sources_partial` can be met. -/
example : ∃ a b, parseStubs plainLayers sampleRep 30 [["d"], ["b"], ["a"], ["typing"]] = .ok a ∧
    parseStubs plainLayers sampleRep 30 [["typing"], ["b"], ["builtins"], ["d"], ["a"]] = .ok b ∧
    ∀ cs, session (homeRuntime.on a) (((homeRuntime.on a).evaluator sessionPython (fun _ => "") 20).after id) cs
        (initialEval (.form 99))
      = session (homeRuntime.on b) (((homeRuntime.on b).evaluator sessionPython (fun _ => "") 20).after id) cs
        (initialEval (.form 99)) := by
  obtain ⟨a, ha⟩ := stubsRead_ok (E := plainLayers) (rep := sampleRep) (n := 30)
    (modules := [["d"], ["b"], ["a"], ["typing"]]) (by decide +kernel)
  obtain ⟨b, hb⟩ := stubsRead_ok (E := plainLayers) (rep := sampleRep) (n := 30)
    (modules := [["typing"], ["b"], ["builtins"], ["d"], ["a"]]) (by decide +kernel)
  refine ⟨a, b, ha, hb, fun cs => C119_sources_partial plainLayers ["T"] sampleRep 30 30
    [["a"], ["b"], ["d"], ["typing"]] _ _ plainLayers_inOrder plainLayersRead rfl (fun m => ?_) (fun m => ?_) a b ha hb
    plainLayers_mean homeRuntime sessionPython _ 20 id cs _⟩
  all_goals simp only [List.mem_cons, List.not_mem_nil, or_false]; grind

/-- `b` of `starCycleFiles` star-imports a module that comes later. -/
example (names : List String) : ¬ InOrder starCycleFiles names [["b"], ["a"]] := by
  intro h
  have h1 := (h.before [["builtins"]] ["b"] [["a"]] rfl _ rfl).1
  rw [OnlyBefore] at h1
  exact absurd ((h1 ["a"] rfl ⟨"*", none⟩ List.mem_cons_self).1 rfl) (by decide)

end Paradigm.Props
