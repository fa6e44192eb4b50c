import Verif.Lemmas.WrittenBases
import Verif.Props.Superclasses
import Verif.Props.Linear
import Verif.Props.Reading

/-!
# C92, C116: hierarchies of classes written in stub files
-/

namespace Paradigm.Props

open Spec

theorem means_own {T : Tables} {n : Nat} {m : Path} {b : String} {q : QPath} (hd : DefinedIn T m [b])
    (h : resolve T n m [] [b] [] = .ok q) : q = (m, [b]) := by
  cases n with
  | zero => rw [resolve] at h; cases h
  | succ n =>
    rw [resolve_of_defined hd] at h
    exact (Except.ok.inj h).symm

theorem means_builtin {T : Tables} {n : Nat} {m : Path} {b : String} {q : QPath} (hno : ¬ DefinedIn T m [b])
    (hd : DefinedIn T ["builtins"] [b]) (hs : (T.submodules.lookup m).getD [] = [])
    (hr : ((T.references.lookup m).getD []).lookup [b] = none)
    (h : resolve T n m [] [b] [] = .ok q) : q = (["builtins"], [b]) := by
  cases n with
  | zero => rw [resolve] at h; cases h
  | succ n =>
    rw [resolve_succ, step] at h
    cases hl : T.definitions.lookup m with
    | none => rw [hl] at h; cases h
    | some defs =>
      rw [hl] at h
      have hg : defs.get? b = none := by
        cases hg : defs.get? b with
        | none => rfl
        | some inner => exact absurd ⟨defs, hl, inner, hg, trivial⟩ hno
      have hsubs : T.subs m = [] := hs
      dsimp only at h
      rw [hg, hsubs] at h
      cases hl' : T.references.lookup m with
      | none => simp [scopeContains, missingIndex, hl', tryEach] at h
      | some refs =>
        rw [hl', Option.getD_some] at hr
        obtain ⟨bs, hb1, inner, hb2, -⟩ := hd
        have hb1' : T.definitions.lookup builtinsPath = some bs := hb1
        have hno : longestReference refs [b] 1 = none := by
          refine longestReference_none.2 fun k h1 h2 => ?_
          have hk : k = 1 := by omega
          subst hk
          exact hr
        have hb2' : bs.get? b = some inner := hb2
        simp [scopeContains, missingIndex, hl', tryEach, hno, hb1', hb2'] at h
        exact h.symm

theorem means_imported {T : Tables} {n : Nat} {m : Path} {b : String} {q q' : QPath} (hno : ¬ DefinedIn T m [b])
    (hd : DefinedIn T q.1 q.2) (hs : (T.submodules.lookup m).getD [] = [])
    (hr : ((T.references.lookup m).getD []).lookup [b] = some q)
    (h : resolve T n m [] [b] [] = .ok q') : q' = q := by
  cases n with
  | zero => rw [resolve] at h; cases h
  | succ n =>
    rw [resolve_succ, step] at h
    cases hl : T.definitions.lookup m with
    | none => rw [hl] at h; cases h
    | some defs =>
      rw [hl] at h
      have hg : defs.get? b = none := by
        cases hg : defs.get? b with
        | none => rfl
        | some inner => exact absurd ⟨defs, hl, inner, hg, trivial⟩ hno
      have hsubs : T.subs m = [] := hs
      dsimp only at h
      rw [hg, hsubs] at h
      cases hl' : T.references.lookup m with
      | none => rw [hl'] at hr; cases hr
      | some refs =>
        rw [hl', Option.getD_some] at hr
        have hyes : longestReference refs [b] 1 = some (1, q) := by
          simp [longestReference, hr]
        obtain ⟨rm, ro⟩ := q
        simp only [hl', List.length_nil, Nat.zero_add, hyes] at h
        cases n with
        | zero => simp [scopeContains, missingIndex, tryEach, resolve] at h
        | succ n =>
          simp [scopeContains, missingIndex, tryEach, resolve_of_defined hd] at h
          exact h.symm

/-- A name that begins with the name of an imported module. -/
theorem means_inside {T : Tables} {n : Nat} {m : Path} {x : String} {xs : Path} {b : String} {target : Path}
    {q' : QPath} (hno : ¬ DefinedIn T m [x]) (hd : DefinedIn T target [b])
    (hs : (T.submodules.lookup m).getD [] = [])
    (hr : ((T.references.lookup m).getD []).lookup (x :: xs) = some (target, []))
    (hr' : ((T.references.lookup m).getD []).lookup (x :: xs ++ [b]) = none)
    (h : resolve T n m [] (x :: xs ++ [b]) [] = .ok q') : q' = (target, [b]) := by
  cases n with
  | zero => rw [resolve] at h; cases h
  | succ n =>
    rw [List.cons_append, resolve_succ, step] at h
    cases hl : T.definitions.lookup m with
    | none => rw [hl] at h; cases h
    | some defs =>
      rw [hl] at h
      have hg : defs.get? x = none := by
        cases hg : defs.get? x with
        | none => rfl
        | some inner => exact absurd ⟨defs, hl, inner, hg, trivial⟩ hno
      have hsubs : T.subs m = [] := hs
      dsimp only at h
      rw [hg, hsubs] at h
      cases hl' : T.references.lookup m with
      | none => rw [hl'] at hr; cases hr
      | some refs =>
        rw [hl', Option.getD_some] at hr hr'
        have hyes : longestReference refs (x :: (xs ++ [b])) ((xs ++ [b]).length + 1) = some (xs.length + 1, target, []) := by
          have e1 : (x :: (xs ++ [b])).take (xs.length + 1 + 1) = x :: xs ++ [b] := by
            rw [List.take_of_length_le (by simp)]
            rfl
          have e2 : (x :: (xs ++ [b])).take (xs.length + 1) = x :: xs := by simp
          rw [List.length_append, List.length_singleton, longestReference, e1, hr', longestReference, e2, hr]
        have hdrop : (x :: (xs ++ [b])).drop (xs.length + 1) = [b] := by simp
        simp only [hl', hyes, hdrop] at h
        obtain ⟨defs', hd1, -⟩ := id hd
        cases n with
        | zero => simp [scopeContains, missingIndex, tryEach, resolve] at h
        | succ n =>
          have hmod : ∀ visited, resolve T (n + 1) target [] [] visited = .ok (target, []) := fun visited => by
            rw [resolve, hd1]
          simp [scopeContains, missingIndex, tryEach, hmod, resolve_of_defined hd] at h
          exact h.symm

mutual

theorem imports_refers {isPackage : Path → Bool} {o : Expr → Bool} {m : Path} {b : Path} {q : QPath} :
    ∀ node, (b, q) ∈ imports isPackage o m node → (b, some q) ∈ refers isPackage o m node
  | .importFrom module names level, h => by
    rw [imports] at h
    rw [refers]
    cases ht : toParentModulePath isPackage (module.map pathFromString) level m with
    | error e => rw [ht] at h; cases h
    | ok target =>
      rw [ht] at h
      obtain ⟨a, ha, e⟩ := List.mem_map.1 h
      obtain ⟨ha1, ha2⟩ := List.mem_filter.1 ha
      have ha2 : a.name ≠ "*" ∧ pathFromString a.name = [a.name] := by simpa using ha2
      refine List.mem_map.2 ⟨a, ha1, ?_⟩
      cases e
      dsimp only
      rw [ha2.2]
      cases a.asname <;> rfl
  | .ifStmt test body orelse, h => by
    rw [imports] at h
    rw [refers]
    by_cases ht : o test = true
    · rw [if_pos ht] at h ⊢
      exact importsAll_refers body h
    · rw [if_neg ht] at h ⊢
      exact importsAll_refers orelse h
  | .other _ body, h => by
    rw [imports] at h
    rw [refers]
    exact importsAll_refers body h
  | .annAssign _ _ _, h => by simp [imports] at h
  | .assign _ _, h => by simp [imports] at h
  | .functionDef _, h => by simp [imports] at h
  | .import_ names, h => by
    rw [imports] at h
    rw [refers]
    obtain ⟨a, ha, h⟩ := List.mem_flatMap.1 h
    obtain ⟨x, hx, e⟩ := List.mem_map.1 h
    cases e
    exact List.mem_flatMap.2 ⟨a, ha, List.mem_map.2 ⟨x, hx, rfl⟩⟩
  | .classDef _ _ _ _, h => by simp [imports] at h

theorem importsAll_refers {isPackage : Path → Bool} {o : Expr → Bool} {m : Path} {b : Path} {q : QPath} :
    ∀ body, (b, q) ∈ importsAll isPackage o m body → (b, some q) ∈ refersAll isPackage o m body
  | [], h => by cases h
  | node :: body, h => by
    rw [importsAll] at h
    rw [refersAll]
    rcases List.mem_append.1 h with h | h
    · exact List.mem_append_left _ (imports_refers node h)
    · exact List.mem_append_right _ (importsAll_refers body h)

end

theorem mem_of_lastAt {α : Type} {l : List (Path × α)} {p : Path} {v : α} (h : lastAt l p = some v) : (p, v) ∈ l := by
  unfold lastAt at h
  obtain ⟨e, h1, h2⟩ := List.mem_map.1 (List.mem_of_getLast? h)
  obtain ⟨h3, h4⟩ := List.mem_filter.1 h1
  have : e = (p, v) := Prod.ext (by simpa using h4) h2
  exact this ▸ h3

/-- **C92** from the source of the class, for bases that are plain names of classes of the module, of builtin classes
or of what is imported by name from other modules, or dotted names of classes of imported modules. Missing: see
`C92_refuted`; generic bases, bases imported again or by a star, and classes in classes are only covered by
`C92_superclasses_partial`, which speaks of what was read. -/
theorem C92_written_partial (E : StubFiles) (o : Expr → Bool) (ho : Decides E o) (rep : Atom → String) (n : Nat)
    (modules : List Path) (T : Stubs) (hT : parseStubs E rep n modules = .ok T) (c : QPath) (qs : List QPath)
    (hc : WrittenClass E o T.toTables (parseAll E n modules {}).2 c qs) :
    supersAt (returned T) c.1 c.2 = qs := by
  obtain ⟨hread, ⟨hspec, hty⟩, name, body, A, exprs, hname, hsrc, hd, hlast, hkind, hqs⟩ := hc
  obtain ⟨m, p⟩ := c
  dsimp only at *
  subst hname
  obtain ⟨s, t, h1, h2, h3⟩ := parseStubs_ok hT
  have hown := parseAll_own ho hsrc hty hd n modules
  have hbases := bases_written ho hsrc hty hd hread hlast
  obtain ⟨-, hkinds⟩ := stubs_of_source ho hT hread hspec hsrc
  rw [h1] at hown hbases
  obtain ⟨qs', e1, e2⟩ := C92_superclasses_partial E rep n modules s T h1 hT (m, [name]) exprs hbases hown.generics
  rw [e1, hown.superclasses, List.nil_append]
  have hA := processBases_aside (o := ⟨E.order, E.order_perm⟩) rep n s
  rw [h2] at hA
  have hdefs : ∀ x, x ≠ ["__specializations"] → T.definitions.lookup x = s.definitions.lookup x := by
    rw [h3]
    exact hA.definitions
  have hbs : (["builtins"] : Path) ≠ ["__specializations"] := by decide
  have hB : NamesOnly A exprs := hd.bases _ (mem_of_lastAt hlast) rfl
  clear e1 hbases hlast
  induction exprs generalizing qs qs' with
  | nil => rw [e2.nil_left, hqs.nil_left]
  | cons e exprs ih =>
    obtain ⟨q, rest, rfl, hq, hrest⟩ := hqs.cons_left
    obtain ⟨q', rest', rfl, hq', hrest'⟩ := e2.cons_left
    rw [ih rest hrest rest' hrest' fun x hx => hB x (List.mem_cons_of_mem _ hx)]
    congr 1
    have key : ∀ b, dotted e = some b → ∃ u : ParseState, Since s u ∧ resolve u.tables n m [] b [] = .ok q' := by
      intro b hb
      rcases hq' with ⟨v, w, l, _, rfl, -⟩ | ⟨path, u, hp, hu, hr⟩
      · cases hb
      · rw [hb] at hp
        cases hp
        exact ⟨u, hu, hr⟩
    have transfer : ∀ {u : ParseState}, Since s u → ∀ {x : Path}, x ≠ ["__specializations"] → ∀ y,
        DefinedIn T.toTables x y ↔ DefinedIn u.tables x y := by
      intro u hu x hx y
      unfold DefinedIn
      rw [show u.tables.definitions.lookup x = T.definitions.lookup x from (hu.definitions x hx).trans (hdefs x hx).symm]
    have recorded : ∀ {b : Path} {q : QPath}, ∀ a ∈ A, a.1 = b → (b, q) ∈ importsAll E.isPackage o m body →
        referenceAt s m b = some q := by
      intro b q a ha hab hi
      have haq : some q = a.2 := (hd.own a ha _ (importsAll_refers body hi) hab.symm).2
      have hmade := imports_written ho hsrc hread hi
      rw [h1] at hmade
      cases hv : referenceAt s m b with
      | none => exact absurd hv hmade
      | some v =>
        have := hown.references a ha v (by rw [hab]; exact hv)
        rw [← haq] at this
        exact this.symm
    cases hq with
    | own he h =>
      obtain ⟨u, hu, hr⟩ := key _ he
      exact means_own ((transfer hu hspec _).1 (hkinds _ _ h).1) hr
    | @imported b q he hno hi hsp h =>
      obtain ⟨u, hu, hr⟩ := key _ he
      refine means_imported (fun hd => hno ((transfer hu hspec _).2 hd)) ((transfer hu hsp _).1 h) ?_ ?_ hr
      · show (u.submodules.lookup m).getD [] = []
        rw [hu.submodules]
        exact hown.submodules
      · show ((u.references.lookup m).getD []).lookup [b] = some q
        rw [hu.references m hspec]
        obtain ⟨path, he', -, hpre⟩ := hB e List.mem_cons_self
        rw [he] at he'
        cases he'
        obtain ⟨a, ha, ha1, -⟩ := hpre 1 (by decide) (by simp)
        exact recorded a ha ha1 hi
    | @builtin b he hno hb h =>
      obtain ⟨u, hu, hr⟩ := key _ he
      refine means_builtin (fun hd => hno ((transfer hu hspec _).2 hd)) ((transfer hu hbs _).1 h) ?_ ?_ hr
      · show (u.submodules.lookup m).getD [] = []
        rw [hu.submodules]
        exact hown.submodules
      · show ((u.references.lookup m).getD []).lookup [b] = none
        rw [hu.references m hspec]
        cases hv : referenceAt s m [b] with
        | none => exact hv
        | some v => cases hown.references _ hb v hv
    | @inside x xs b target he hno hb hi hsp h =>
      obtain ⟨u, hu, hr⟩ := key _ he
      refine means_inside (fun hd => hno ((transfer hu hspec _).2 hd)) ((transfer hu hsp _).1 h) ?_ ?_ ?_ hr
      · show (u.submodules.lookup m).getD [] = []
        rw [hu.submodules]
        exact hown.submodules
      · show ((u.references.lookup m).getD []).lookup (x :: xs) = some (target, [])
        rw [hu.references m hspec]
        obtain ⟨path, he', -, hpre⟩ := hB e List.mem_cons_self
        rw [he] at he'
        cases he'
        obtain ⟨a, ha, ha1, -⟩ := hpre (xs.length + 1) (by omega) (by simp)
        exact recorded a ha (by rw [ha1]; simp) hi
      · show ((u.references.lookup m).getD []).lookup (x :: xs ++ [b]) = none
        rw [hu.references m hspec]
        cases hv : referenceAt s m (x :: xs ++ [b]) with
        | none => exact hv
        | some v => cases hown.references _ hb v hv

/-- Python's bases of a class that is written in a stub file are those the tables give it. -/
theorem runtimeBases_written {E : StubFiles} {o : Expr → Bool} (ho : Decides E o) {rep : Atom → String} {n : Nat}
    {modules : List Path} {T : Stubs} (hT : parseStubs E rep n modules = .ok T) {c : QPath} {qs : List QPath}
    (hc : WrittenClass E o T.toTables (parseAll E n modules {}).2 c qs) :
    runtimeBases T.toTables c = implicitBases c qs := by
  have h := C92_written_partial E o ho rep n modules T hT c qs hc
  unfold supersAt at h
  change (((T.superclasses.lookup c.1).getD []).lookup c.2).getD [] = qs at h
  unfold runtimeBases implicitBases
  cases hl : ((T.superclasses.lookup c.1).getD []).lookup c.2 with
  | none =>
    rw [hl] at h
    subst h
    by_cases e : c = objectClass <;> simp [e]
  | some l =>
    rw [hl, Option.getD_some] at h
    subst h
    cases l with
    | nil => by_cases e : c = objectClass <;> simp [e]
    | cons b bs => simp

/-- All ancestors of `c` by `bases` are written in stub files, and `object` is the only one of its name. -/
structure WrittenHierarchy (E : StubFiles) (o : Expr → Bool) (T : Tables) (t : ParseState)
    (bases : QPath → List QPath) (c : QPath) : Prop where
  written : ∀ d, Above bases c d → ∃ qs, WrittenClass E o T t d qs ∧ bases d = implicitBases d qs
  named : ∀ d, Above bases c d → d.2 = ["object"] → d = objectClass
  root : WrittenClass E o T t objectClass []

section

variable {E : StubFiles} {o : Expr → Bool} (ho : Decides E o) {rep : Atom → String} {n : Nat} {modules : List Path}
  {T : Stubs} (hT : parseStubs E rep n modules = .ok T) {bases : QPath → List QPath} {c : QPath}
  (hc : WrittenHierarchy E o T.toTables (parseAll E n modules {}).2 bases c)

include ho hT hc in
theorem written_bases {d : QPath} (h : Above bases c d) : runtimeBases T.toTables d = bases d := by
  obtain ⟨qs, h1, h2⟩ := hc.written d h
  rw [h2]
  exact runtimeBases_written ho hT h1

include ho hT hc in
theorem written_above {d e : QPath} (hd : Above bases c d) (h : Above (runtimeBases T.toTables) d e) :
    Above bases d e := by
  induction h with
  | refl => exact .refl _
  | step hb _ ih =>
    rw [written_bases ho hT hc hd] at hb
    exact .step hb (ih (hd.trans (.step hb (.refl _))))

include ho hT hc in
theorem written_above' {d e : QPath} (hd : Above bases c d) (h : Above bases d e) :
    Above (runtimeBases T.toTables) d e := by
  induction h with
  | refl => exact .refl _
  | step hb _ ih =>
    refine .step ?_ (ih (hd.trans (.step hb (.refl _))))
    rw [written_bases ho hT hc hd]
    exact hb

include ho hT hc in
theorem written_around {q d e : QPath} (hd : Above bases c d) (h : Around (runtimeBases T.toTables) q d e) :
    Around bases q d e := by
  induction h with
  | refl h => exact .refl h
  | step hne hb _ ih =>
    rw [written_bases ho hT hc hd] at hb
    exact .step hne hb (ih (hd.trans (.step hb (.refl _))))

include ho hT hc in
theorem written_mro {d : QPath} {order : List QPath} (hd : Above bases c d) (h : Mro bases d order) :
    Mro (runtimeBases T.toTables) d order := by
  induction h with
  | mk above merged ih =>
    refine .mk (orders := ?_) (fun b hb => ?_) (by rw [written_bases ho hT hc hd]; exact merged)
    rw [written_bases ho hT hc hd] at hb
    exact ih b hb (hd.trans (.step hb (.refl _)))

include ho hT hc in
theorem written_hierarchy : Hierarchy T.toTables c where
  known d hd := by
    obtain ⟨qs, hw, -⟩ := hc.written d (written_above ho hT hc (.refl _) hd)
    obtain ⟨name, body, A, exprs, h1, h2, -, -, h3, -⟩ := hw.written
    rw [h1]
    exact ⟨by simp, ((stubs_of_source ho hT hw.read hw.module.1 h2).2 _ _ h3).1⟩
  named d hd hn := by
    have hd := written_above ho hT hc (.refl _) hd
    obtain ⟨qs, hw, -⟩ := hc.written d hd
    obtain ⟨name, _, _, _, h1, -⟩ := hw.written
    refine hc.named d hd ?_
    rw [h1] at hn ⊢
    simpa using hn
  object := by
    rw [runtimeBases_written ho hT hc.root]
    simp [implicitBases]

end

/-- **C116** from the sources, for a class `q` that all ways to other classes with the member go through.
Missing: see `C116_refuted`; hierarchies with other bases, as generic ones, are covered by `C116_through_partial`. -/
theorem C116_through_written_partial (E : StubFiles) (o : Expr → Bool) (ho : Decides E o) (rep : Atom → String)
    (n : Nat) (modules : List Path) (T : Stubs) (hT : parseStubs E rep n modules = .ok T)
    (bases : QPath → List QPath) (c : QPath) (x : String) (order : List QPath) (q : QPath)
    (hc : WrittenHierarchy E o T.toTables (parseAll E n modules {}).2 bases c) (h : Mro bases c order)
    (hq : Above bases c q) (hx : HasMember T.toTables x q)
    (hway : ∀ e, Around bases q c e → ¬ HasMember T.toTables x e) :
    Answers T.toTables c.1 [] (c.2 ++ [x]) [] (.ok (q.1, q.2 ++ [x])) ∧
      ∃ pre post, order = pre ++ q :: post ∧ ∀ p ∈ pre, ¬ HasMember T.toTables x p :=
  C116_through_partial T.toTables c x order q (written_hierarchy ho hT hc) (written_mro ho hT hc (.refl _) h)
    (written_above' ho hT hc (.refl _) hq) hx fun e he => hway e (written_around ho hT hc (.refl _) he)

/-- **C116** from the sources, for hierarchies in which no class but `object` is inherited in two ways.
Missing: see `C116_refuted` and `C116_refuted_diamond`; hierarchies with other bases, as generic ones, are covered
by `C116_branching_partial`. -/
theorem C116_branching_written_partial (E : StubFiles) (o : Expr → Bool) (ho : Decides E o) (rep : Atom → String)
    (n : Nat) (modules : List Path) (T : Stubs) (hT : parseStubs E rep n modules = .ok T)
    (bases : QPath → List QPath) (c : QPath) (x : String) (order pre post : List QPath) (q : QPath)
    (hc : WrittenHierarchy E o T.toTables (parseAll E n modules {}).2 bases c) (h : Mro bases c order)
    (hb : Branching bases c)
    (hx : ¬ HasMember T.toTables x objectClass ∨ ∀ d, Above bases c d → (bases d).length ≤ 1)
    (hord : order = pre ++ q :: post) (hq : HasMember T.toTables x q)
    (hpre : ∀ p ∈ pre, ¬ HasMember T.toTables x p) :
    Answers T.toTables c.1 [] (c.2 ++ [x]) [] (.ok (q.1, q.2 ++ [x])) := by
  refine C116_branching_partial T.toTables c x order pre post q (written_hierarchy ho hT hc)
    (written_mro ho hT hc (.refl _) h) (fun d hd => ?_) (hx.imp id fun h d hd => ?_) hord hq hpre
  · have hd := written_above ho hT hc (.refl _) hd
    rw [written_bases ho hT hc hd]
    refine ⟨(hb d hd).1, (hb d hd).2.imp_of_mem fun {a b} ha hb' hab e h1 h2 => ?_⟩
    exact hab e (written_above ho hT hc (hd.trans (.step ha (.refl _))) h1)
      (written_above ho hT hc (hd.trans (.step hb' (.refl _))) h2)
  · have hd := written_above ho hT hc (.refl _) hd
    rw [written_bases ho hT hc hd]
    exact h d hd

/-! ### Samples -/

theorem builtins_readToEnd {E : StubFiles} {n : Nat} {modules : List Path} {t : ParseState}
    (h : parseAll E n modules {} = (.ok (), t)) : ReadToEnd E t ["builtins"] := by
  unfold parseAll at h
  obtain ⟨b, s, h0, h1⟩ := bind_ok h
  have hv : (["builtins"] : Path) ∈ s.visited := parseScope_visited E n h0
  have hx := (Pres.each (ext_rels E).preR modules fun x _ => Pres.bind (ext_rels E).preR
    ((parsing_ext E n).2.2 x) fun _ => Pres.pure' (ext_rels E).preR ()).of_eq h1
  exact ⟨n, {}, b, s, by simp, h0, hx.same _ hv id⟩

theorem told_own {A : List (Path × Option QPath)} {b : String} (h : ([b], none) ∈ A) : ToldBy A [b] := by
  refine ⟨by simp, fun k h1 h2 => ⟨_, h, ?_, fun q e => nomatch e⟩⟩
  have : k = 1 := by simp at h2; omega
  subst this
  rfl

theorem told_imported {A : List (Path × Option QPath)} {b : String} {q : QPath} (h : ([b], some q) ∈ A)
    (hq : OrdinaryBase q) : ToldBy A [b] := by
  refine ⟨by simp, fun k h1 h2 => ⟨_, h, ?_, fun q' e => ?_⟩⟩
  · have : k = 1 := by simp at h2; omega
    subst this
    rfl
  · have : k = 1 := by simp at h2; omega
    subst this
    cases e
    simpa using hq

/-- The hierarchy written in `mixedFiles`. -/
def mixedBases (c : QPath) : List QPath :=
  if c = ofM "D" then [ofM "B", ofM "C"] else if c = objectClass then [] else [objectClass]

theorem mixed_parsed : parseAll mixedFiles 20 [["m"]] {} = (.ok (), (parseAll mixedFiles 20 [["m"]] {}).2) := rfl

theorem mixed_read : ReadToEnd mixedFiles (parseAll mixedFiles 20 [["m"]] {}).2 ["m"] :=
  C100_in_turn mixedFiles 20 [] [] ["m"] _ mixed_parsed (by decide)

theorem mixed_plain (name : String) (h : name ∈ ["B", "C", "D"]) : PlainlyDerived mixedFiles.isPackage sampleOutcome ["m"]
    [.classDef "B" [] [] [], .classDef "C" [] [] [meth "__init__" (nm "None"), meth "run" (nm "None")],
      .classDef "D" [nm "B", nm "C"] [] []] [name] [(["B"], none), (["C"], none)] where
  bases e he _ := by
    have he : e ∈ [(["B"], []), (["C"], []), (["D"], [nm "B", nm "C"])] := he
    simp only [List.mem_cons, List.not_mem_nil, or_false] at he
    rcases he with rfl | rfl | rfl
    · exact fun _ h => nomatch h
    · exact fun _ h => nomatch h
    · intro x hx
      simp only [List.mem_cons, List.not_mem_nil, or_false] at hx
      rcases hx with rfl | rfl
      · exact ⟨["B"], rfl, told_own (by decide)⟩
      · exact ⟨["C"], rfl, told_own (by decide)⟩
  own _ _ _ h := nomatch h
  stars := rfl

theorem mixed_root : WrittenClass mixedFiles sampleOutcome mixedStubs.toTables (parseAll mixedFiles 20 [["m"]] {}).2
    objectClass [] where
  read := builtins_readToEnd mixed_parsed
  module := ⟨by decide, by decide⟩
  written := ⟨"object", [.classDef "object" [] [] [meth "__init__" (nm "None")]], [], [], rfl, rfl,
    ⟨(fun e he _ => by
      have he : e ∈ [(["object"], ([] : List Expr))] := he
      cases List.mem_singleton.1 he
      exact (fun _ h => nomatch h : NamesOnly [] [])), (fun _ h => nomatch h), rfl⟩,
    rfl, rfl, trivial⟩

theorem mixed_written : WrittenHierarchy mixedFiles sampleOutcome mixedStubs.toTables
    (parseAll mixedFiles 20 [["m"]] {}).2 mixedBases (ofM "D") where
  written d hd := by
    have hd := above_closed (S := [ofM "D", ofM "B", ofM "C", objectClass]) (by decide +kernel) hd (by decide)
    simp only [List.mem_cons, List.not_mem_nil, or_false] at hd
    rcases hd with rfl | rfl | rfl | rfl
    · exact ⟨[ofM "B", ofM "C"], ⟨mixed_read, ⟨by decide, by decide⟩, "D", _, _, [nm "B", nm "C"], rfl, rfl,
        mixed_plain "D" (by decide), rfl, rfl, .own rfl rfl, .own rfl rfl, trivial⟩, by decide⟩
    · exact ⟨[], ⟨mixed_read, ⟨by decide, by decide⟩, "B", _, _, [], rfl, rfl, mixed_plain "B" (by decide), rfl, rfl,
        trivial⟩, by decide⟩
    · exact ⟨[], ⟨mixed_read, ⟨by decide, by decide⟩, "C", _, _, [], rfl, rfl, mixed_plain "C" (by decide), rfl, rfl,
        trivial⟩, by decide⟩
    · exact ⟨[], mixed_root, by decide⟩
  named d hd hn := by
    have hd := above_closed (S := [ofM "D", ofM "B", ofM "C", objectClass]) (by decide +kernel) hd (by decide)
    have : ∀ d ∈ [ofM "D", ofM "B", ofM "C", objectClass], d.2 = ["object"] → d = objectClass := by decide
    exact this d hd hn
  root := mixed_root

/-- `class D(B, C)` of `mixedFiles` has the bases that are written there. -/
example : supersAt (returned mixedStubs) ["m"] ["D"] = [ofM "B", ofM "C"] :=
  C92_written_partial mixedFiles sampleOutcome (filesOf_decides _) sampleRep 20 [["m"]] mixedStubs rfl (ofM "D") _
    ⟨mixed_read, ⟨by decide, by decide⟩, "D", _, _, [nm "B", nm "C"], rfl, rfl,
      mixed_plain "D" (by decide), rfl, rfl, .own rfl rfl, .own rfl rfl, trivial⟩

/-- `from base import Root as Base`, and a class that derives from it and from a builtin. -/
def importingBody : List Stmt :=
  [.importFrom (some "base") [⟨"Root", some "Base"⟩] 0, .classDef "D" [nm "Base", nm "object"] [] []]

/-- Beside the module it imports from. -/
def importingFiles : StubFiles :=
  filesOf [(["builtins"], [.classDef "object" [] [] []]), (["base"], [.classDef "Root" [] [] [meth "run" (nm "None")]]),
    (["m"], importingBody)]

/-- The tables of both. -/
def importingStubs : Stubs :=
  match parseStubs importingFiles sampleRep 20 [["base"], ["m"]] with
  | .ok T => T
  | .error _ => { definitions := [], references := [], submodules := [], superclasses := [], rawAstNodes := [], nodesKinds := [] }

theorem importing_parsed : parseAll importingFiles 20 [["base"], ["m"]] {}
    = (.ok (), (parseAll importingFiles 20 [["base"], ["m"]] {}).2) := rfl

theorem importing_derived : PlainlyDerived importingFiles.isPackage sampleOutcome ["m"] importingBody ["D"]
    [(["Base"], some (["base"], ["Root"])), (["object"], none)] where
  bases e he _ := by
    have he : e ∈ [(["D"], [nm "Base", nm "object"])] := he
    cases List.mem_singleton.1 he
    intro x hx
    simp only [List.mem_cons, List.not_mem_nil, or_false] at hx
    rcases hx with rfl | rfl
    · exact ⟨["Base"], rfl, told_imported (q := (["base"], ["Root"])) (by decide) ⟨by decide, by decide, by decide⟩⟩
    · exact ⟨["object"], rfl, told_own (by decide)⟩
  own := by decide +kernel
  stars := rfl

theorem importing_class : WrittenClass importingFiles sampleOutcome importingStubs.toTables
    (parseAll importingFiles 20 [["base"], ["m"]] {}).2 (ofM "D") [(["base"], ["Root"]), objectClass] where
  read := C100_in_turn importingFiles 20 [["base"]] [] ["m"] _ importing_parsed (by decide)
  module := ⟨by decide, by decide⟩
  written := ⟨"D", importingBody, [(["Base"], some (["base"], ["Root"])), (["object"], none)], [nm "Base", nm "object"], rfl, rfl,
    importing_derived, rfl, rfl,
    .imported (b := "Base") rfl (by decide +kernel) (by decide +kernel) (by decide) (by decide +kernel),
    .builtin (b := "object") rfl (by decide +kernel) (by decide) (by decide +kernel), trivial⟩

/-- The bases of `D` are what was imported and the builtin. -/
example : supersAt (returned importingStubs) ["m"] ["D"] = [(["base"], ["Root"]), objectClass] :=
  C92_written_partial importingFiles sampleOutcome (filesOf_decides _) sampleRep 20 [["base"], ["m"]] importingStubs rfl
    (ofM "D") _ importing_class

theorem plain_single {E : StubFiles} {m p : Path} {name : String} {body : List Stmt}
    (hb : classDefsAll sampleOutcome [] [.classDef name [] [] body] = [([name], [])])
    (hs : starsAll E.isPackage m [.classDef name [] [] body] = []) :
    PlainlyDerived E.isPackage sampleOutcome m [.classDef name [] [] body] p [] where
  bases e he _ := by
    rw [hb] at he
    cases List.mem_singleton.1 he
    exact (fun _ h => nomatch h : NamesOnly [] [])
  own _ h := nomatch h
  stars := hs

theorem importing_root : WrittenClass importingFiles sampleOutcome importingStubs.toTables
    (parseAll importingFiles 20 [["base"], ["m"]] {}).2 objectClass [] where
  read := builtins_readToEnd importing_parsed
  module := ⟨by decide, by decide⟩
  written := ⟨"object", [.classDef "object" [] [] []], [], [], rfl, rfl, plain_single rfl rfl, rfl, rfl, trivial⟩

theorem importing_base : WrittenClass importingFiles sampleOutcome importingStubs.toTables
    (parseAll importingFiles 20 [["base"], ["m"]] {}).2 (["base"], ["Root"]) [] where
  read := C100_in_turn importingFiles 20 [] [["m"]] ["base"] _ importing_parsed (by decide)
  module := ⟨by decide, by decide⟩
  written := ⟨"Root", [.classDef "Root" [] [] [meth "run" (nm "None")]], [], [], rfl, rfl, plain_single rfl rfl, rfl, rfl,
    trivial⟩

/-- The hierarchy written in `importingFiles`. -/
def importingBases (c : QPath) : List QPath :=
  if c = ofM "D" then [(["base"], ["Root"]), objectClass] else if c = objectClass then [] else [objectClass]

theorem importing_above {d : QPath} (hd : Above importingBases (ofM "D") d) :
    d ∈ [ofM "D", (["base"], ["Root"]), objectClass] :=
  above_closed (S := [ofM "D", (["base"], ["Root"]), objectClass]) (by decide +kernel) hd (by decide)

theorem importing_written : WrittenHierarchy importingFiles sampleOutcome importingStubs.toTables
    (parseAll importingFiles 20 [["base"], ["m"]] {}).2 importingBases (ofM "D") where
  written d hd := by
    have hd := importing_above hd
    simp only [List.mem_cons, List.not_mem_nil, or_false] at hd
    rcases hd with rfl | rfl | rfl
    · exact ⟨_, importing_class, by decide⟩
    · exact ⟨_, importing_base, by decide⟩
    · exact ⟨_, importing_root, by decide⟩
  named d hd hn := by
    have : ∀ d ∈ [ofM "D", (["base"], ["Root"]), objectClass], d.2 = ["object"] → d = objectClass := by decide
    exact this d (importing_above hd) hn
  root := importing_root

theorem importing_mro : Mro importingBases (ofM "D") [ofM "D", (["base"], ["Root"]), objectClass] := by
  refine .mk (orders := fun b => if b = (["base"], ["Root"]) then [(["base"], ["Root"]), objectClass] else [objectClass])
    (fun b hb => ?_) ?_
  · have hb : b ∈ [(["base"], ["Root"]), objectClass] := hb
    simp only [List.mem_cons, List.not_mem_nil, or_false] at hb
    rcases hb with rfl | rfl
    · exact mro_single rfl (mro_object rfl) merge_root
    · exact mro_object rfl
  · show Merge ([] ++ [(["base"], ["Root"]), objectClass] :: [[objectClass], [(["base"], ["Root"]), objectClass]]) _
    refine .step (fun _ _ h => nomatch h) (by decide) ?_
    show Merge ([] ++ [objectClass] :: [[objectClass], [objectClass]]) _
    refine .step (fun _ _ h => nomatch h) (by decide) (.done ?_)
    decide

/-- `D.run` is found in the class that is imported from the other module. -/
example : Answers importingStubs.toTables ["m"] [] ["D", "run"] [] (.ok (["base"], ["Root", "run"])) :=
  (C116_through_written_partial importingFiles sampleOutcome (filesOf_decides _) sampleRep 20 [["base"], ["m"]]
    importingStubs rfl importingBases (ofM "D") "run" _ (["base"], ["Root"]) importing_written importing_mro
    (.step (b := (["base"], ["Root"])) (by decide) (.refl _)) (by decide +kernel) fun e he => by
      have : ∀ e ∈ [ofM "D", (["base"], ["Root"]), objectClass], e ≠ (["base"], ["Root"]) →
          ¬ HasMember importingStubs.toTables "run" e := by decide +kernel
      exact this e (importing_above he.above) he.ne).1

/-- `import base.core`, `import other as o`, and a class that derives from classes of both modules. -/
def dottedBody : List Stmt :=
  [.import_ [⟨"base.core", none⟩], .import_ [⟨"other", some "o"⟩],
    .classDef "D" [.attribute (.attribute (nm "base") "core" true) "Root" true, .attribute (nm "o") "Mixin" true] [] []]

/-- Beside the modules it imports. -/
def dottedFiles : StubFiles :=
  filesOf [(["builtins"], [.classDef "object" [] [] []]), (["base"], []),
    (["base", "core"], [.classDef "Root" [] [] [meth "run" (nm "None")]]), (["other"], [.classDef "Mixin" [] [] []]),
    (["m"], dottedBody)]

/-- The tables of all. -/
def dottedStubs : Stubs :=
  match parseStubs dottedFiles sampleRep 20 [["base", "core"], ["other"], ["m"]] with
  | .ok T => T
  | .error _ => { definitions := [], references := [], submodules := [], superclasses := [], rawAstNodes := [], nodesKinds := [] }

theorem dotted_parsed : parseAll dottedFiles 20 [["base", "core"], ["other"], ["m"]] {}
    = (.ok (), (parseAll dottedFiles 20 [["base", "core"], ["other"], ["m"]] {}).2) := rfl

/-- What the beginnings of the names are for. -/
def dottedNames : List (Path × Option QPath) :=
  [(["base"], some (["base"], [])), (["base", "core"], some (["base", "core"], [])), (["base", "core", "Root"], none),
    (["o"], some (["other"], [])), (["o", "Mixin"], none)]

theorem dotted_told {path : Path} (h : path = ["base", "core", "Root"] ∨ path = ["o", "Mixin"]) :
    ToldBy dottedNames path := by
  have other : ∀ {m p : Path}, m ≠ ["typing"] → OrdinaryBase (m, p) := fun hm =>
    ⟨fun e => hm (congrArg Prod.fst e), fun e => hm (congrArg Prod.fst e), fun e => hm (congrArg Prod.fst e)⟩
  rcases h with rfl | rfl
  · refine ⟨by simp, fun k h1 h2 => ?_⟩
    have h2 : k ≤ 3 := h2
    obtain rfl | rfl | rfl : k = 1 ∨ k = 2 ∨ k = 3 := by omega
    · exact ⟨(["base"], some (["base"], [])), by simp [dottedNames], rfl, fun q e => by cases e; exact other (by decide)⟩
    · exact ⟨(["base", "core"], some (["base", "core"], [])), by simp [dottedNames], rfl, fun q e => by
        cases e; exact other (by decide)⟩
    · exact ⟨(["base", "core", "Root"], none), by simp [dottedNames], rfl, fun q e => nomatch e⟩
  · refine ⟨by simp, fun k h1 h2 => ?_⟩
    have h2 : k ≤ 2 := h2
    obtain rfl | rfl : k = 1 ∨ k = 2 := by omega
    · exact ⟨(["o"], some (["other"], [])), by simp [dottedNames], rfl, fun q e => by cases e; exact other (by decide)⟩
    · exact ⟨(["o", "Mixin"], none), by simp [dottedNames], rfl, fun q e => nomatch e⟩

theorem dotted_class : WrittenClass dottedFiles sampleOutcome dottedStubs.toTables
    (parseAll dottedFiles 20 [["base", "core"], ["other"], ["m"]] {}).2 (ofM "D")
    [(["base", "core"], ["Root"]), (["other"], ["Mixin"])] where
  read := C100_in_turn dottedFiles 20 [["base", "core"], ["other"]] [] ["m"] _ dotted_parsed (by decide)
  module := ⟨by decide, by decide⟩
  written := ⟨"D", dottedBody, dottedNames, _, rfl, rfl,
    { bases := fun e he _ => by
        have he : e ∈ [(["D"], [.attribute (.attribute (nm "base") "core" true) "Root" true,
          .attribute (nm "o") "Mixin" true])] := he
        cases List.mem_singleton.1 he
        intro x hx
        simp only [List.mem_cons, List.not_mem_nil, or_false] at hx
        rcases hx with rfl | rfl
        · exact ⟨["base", "core", "Root"], rfl, dotted_told (.inl rfl)⟩
        · exact ⟨["o", "Mixin"], rfl, dotted_told (.inr rfl)⟩
      own := by decide +kernel
      stars := rfl }, rfl, rfl,
    .inside (x := "base") (xs := ["core"]) rfl (by decide +kernel) (by decide) (by decide +kernel) (by decide)
      (by decide +kernel),
    .inside (x := "o") (xs := []) rfl (by decide +kernel) (by decide) (by decide +kernel) (by decide)
      (by decide +kernel), trivial⟩

/-- The bases of `D` are the classes of the imported modules. -/
example : supersAt (returned dottedStubs) ["m"] ["D"] = [(["base", "core"], ["Root"]), (["other"], ["Mixin"])] :=
  C92_written_partial dottedFiles sampleOutcome (filesOf_decides _) sampleRep 20 [["base", "core"], ["other"], ["m"]]
    dottedStubs rfl (ofM "D") _ dotted_class

/-- `D.run` is found in `C`, by the sources. -/
example : Answers mixedStubs.toTables ["m"] [] ["D", "run"] [] (.ok (["m"], ["C", "run"])) :=
  C116_branching_written_partial mixedFiles sampleOutcome (filesOf_decides _) sampleRep 20 [["m"]] mixedStubs rfl
    mixedBases (ofM "D") "run" _ [ofM "D", ofM "B"] [objectClass] (ofM "C") mixed_written
    (mixed_mro_of rfl rfl rfl rfl) (mixed_branching_of rfl rfl rfl rfl) (.inl (by decide +kernel)) rfl
    (by decide +kernel) (by decide +kernel)

/-- The same, as `run` is only defined there. -/
example : Answers mixedStubs.toTables ["m"] [] ["D", "run"] [] (.ok (["m"], ["C", "run"])) :=
  (C116_through_written_partial mixedFiles sampleOutcome (filesOf_decides _) sampleRep 20 [["m"]] mixedStubs rfl
    mixedBases (ofM "D") "run" _ (ofM "C") mixed_written (mixed_mro_of rfl rfl rfl rfl)
    (.step (b := ofM "C") (by decide) (.refl _)) (by decide +kernel) fun e he => by
      have h2 := he.ne
      have h1 := above_closed (S := [ofM "D", ofM "B", ofM "C", objectClass]) (by decide +kernel) he.above
        (by decide)
      revert h2
      have : ∀ e ∈ [ofM "D", ofM "B", ofM "C", objectClass], e ≠ ofM "C" → ¬ HasMember mixedStubs.toTables "run" e := by
        decide +kernel
      exact this e h1).1

end Paradigm.Props
