import Verif.Lemmas.OwnStub
import Verif.Props.Catalog

/-!
# Lemmas about callables of which the place leads to another one
-/

namespace Paradigm

open Spec

/-- If an index could be filtered, then no place of it was too deep. -/
theorem supportedPaths_deep {T : Tables} {n : Nat} {index out : Index} (h : supportedPaths T n index = .ok out)
    {q place : QPath} (hp : place ∈ listed index q) :
    resolve T n place.1 [] place.2 [] ≠ .error .recursionError := by
  unfold listed at hp
  cases h1 : index.lookup q.1 with
  | none => rw [h1] at hp; cases hp
  | some objects =>
    rw [h1] at hp
    cases h2 : objects.lookup q.2 with
    | none => simp [h2] at hp
    | some places =>
      have hp : place ∈ places := by simpa [h2] using hp
      obtain ⟨d, hd⟩ := filterEntries_inv h _ (lookup_mem h1)
      obtain ⟨l, hl⟩ := filterEntries_inv hd _ (lookup_mem h2)
      obtain ⟨b, hb⟩ := filterExcept_inv hl _ hp
      intro he
      unfold containsObjectPath at hb
      rw [he] at hb
      cases hb

/-- The answer is given at each depth that suffices. -/
theorem resolve_answers {T : Tables} {n : Nat} {m parent object : Path} {visited : List Path}
    {r : Except PyErr QPath} (h : Answers T m parent object visited r)
    (hn : resolve T n m parent object visited ≠ .error .recursionError) :
    resolve T n m parent object visited = r :=
  answers_unique (answers_of rfl hn) h

/-- The places of a callable that is found where it has been defined, if the stub leads from there to one
place. -/
theorem paths_at {L : World} {libraryDepth k : Nat} {modules : List Path} {index : Index}
    (h : indexModules L libraryDepth modules = .ok index) {R : Runtime}
    (hs : supportedPaths R.stubs.toTables k index = .ok R.index)
    {m : Path} {classes : List String} {x : String} {value : Value} (home : AtHome L modules m classes x value)
    {f : Fn} (hf : f.named = L.named value) (hhas : R.has f (m, classes ++ [x]) = true) {place : QPath}
    (hne : place.1 ≠ [] ∧ place.2 ≠ [])
    (hans : Answers R.stubs.toTables m [] (classes ++ [x]) [] (.ok place))
    (hdeep : R.resolve m [] (classes ++ [x]) ≠ .error .recursionError)
    (hothers : ∀ other ∈ listed index (m, classes ++ [x]), R.has f other = true →
      R.resolve other.1 [] other.2 = .ok place ∨ R.resolve other.1 [] other.2 = .error .objectNotFound)
    {kinds : Dict Path NodeKind} {kind : NodeKind} (hkinds : R.stubs.nodesKinds.lookup place.1 = some kinds)
    (hkind : kinds.lookup place.2 = some kind) (hnc : kind ≠ .class_) :
    toQualifiedPaths R f = .ok [place] := by
  obtain ⟨ns, via, hns, hl, hvia⟩ := home.found
  have hplace := Props.C98_own_place L libraryDepth modules index h m home.module ns hns classes x value via hl hvia
    home.parts home.names home.defined
  have hq : qualifiedPathFrom f.named = .ok (m, classes ++ [x]) := by
    rw [hf, Props.C97_named m _ x _ home.parts home.names home.defined, steps_classes]
  have hin := (supportedPaths_listed hs (indexModules_keyed h) (m, classes ++ [x]) (m, classes ++ [x])).2
    ⟨hplace, _, resolve_answers hans (supportedPaths_deep hs hplace)⟩
  have hr : resolveQualifiedPaths R f = .ok [place] :=
    resolveQualifiedPaths_to hq hne hin hhas (resolve_answers hans hdeep) fun other ho hh =>
      hothers other ((supportedPaths_listed hs (indexModules_keyed h) _ _).1 ho).1 hh
  obtain ⟨pm, po⟩ := place
  unfold toQualifiedPaths
  rw [hr]
  show (getItem R.stubs.nodesKinds pm >>= _) = _
  rw [show getItem R.stubs.nodesKinds pm = .ok kinds by simp [getItem, hkinds]]
  show (getItem kinds po >>= _) = _
  rw [show getItem kinds po = .ok kind by simp [getItem, hkind]]
  show (if (kind == NodeKind.class_) = true then _ else _) = _
  rw [if_neg (by simpa using hnc)]
  rfl

/-- A place that is found at all needs some depth. -/
theorem depth_ne_zero {R : Runtime} {m object : Path} (h : R.resolve m [] object ≠ .error .recursionError) :
    R.depth ≠ 0 := by
  intro hd
  apply h
  unfold Runtime.resolve
  rw [hd]
  rfl

/-- The signature of a callable that is found where it has been defined, if the stub leads from there to the
functions `fs` of some place. -/
theorem fromCallable_at {L : World} {libraryDepth k : Nat} {modules : List Path} {index : Index}
    (h : indexModules L libraryDepth modules = .ok index) {R : Runtime}
    (hs : supportedPaths R.stubs.toTables k index = .ok R.index)
    {m : Path} {classes : List String} {x : String} {value : Value} (home : AtHome L modules m classes x value)
    {f : Fn} (hf : f.named = L.named value) (hhas : R.has f (m, classes ++ [x]) = true) {place : QPath}
    (hne : place.1 ≠ [] ∧ place.2 ≠ [])
    (hans : Answers R.stubs.toTables m [] (classes ++ [x]) [] (.ok place))
    (hdeep : R.resolve m [] (classes ++ [x]) ≠ .error .recursionError)
    (hothers : ∀ other ∈ listed index (m, classes ++ [x]), R.has f other = true →
      R.resolve other.1 [] other.2 = .ok place ∨ R.resolve other.1 [] other.2 = .error .objectNotFound)
    {kinds : Dict Path NodeKind} {kind : NodeKind} (hkinds : R.stubs.nodesKinds.lookup place.1 = some kinds)
    (hkind : kinds.lookup place.2 = some kind) (hnc : kind ≠ .class_)
    {fs : List FunctionDef} (hfs : DefinedBy R.stubs place fs) (hfne : fs ≠ [])
    (hev : ∀ m parent e, R.ev m parent e ≠ .error .signatureNotFound)
    {callable : Callable} {raw : Except PyErr RawSig} (hcall : LookedUpAs callable f raw) (sig : Sig) :
    fromCallable R callable = .ok sig ↔ GivenBy R f place fs sig := by
  have hlooks := paths_at h hs home hf hhas hne hans hdeep hothers hkinds hkind hnc
  have hd := depth_ne_zero hdeep
  obtain ⟨hfound, hgiven⟩ := fromFn_found hd ⟨[], hlooks⟩ hfs hfne hev
  rw [hcall.fromCallable R, ← hgiven sig]
  cases hfn : fromFn R f with
  | ok s' => exact Iff.rfl
  | error e => cases e <;> first | exact Iff.rfl | exact absurd hfn hfound

end Paradigm
