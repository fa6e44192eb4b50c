import Verif.Lemmas.Aliases
import Verif.Lemmas.SpecDefined
import Verif.Props.Stubs
import Verif.Props.Specialization

/-!
# C40: what is recorded is defined, in the tables as they are used
-/

namespace Paradigm.Props

open Spec

/-- **C40.** In the tables made from stub files (specialised classes included), an object with a
definition or a kind is defined in its module. -/
theorem C40_parsed (E : StubFiles) (rep : Atom → String) (n : Nat) (modules : List Path) (T : Stubs)
    (h : parseStubs E rep n modules = .ok T) (q : QPath)
    (hq : (∃ node, StoredAt T q node) ∨ ∃ kinds kind, T.nodesKinds.lookup q.1 = some kinds ∧
      kinds.lookup q.2 = some kind) : DefinedIn T.toTables q.1 q.2 := by
  obtain ⟨s, t, h1, h2, rfl⟩ := parseStubs_ok h
  have hs : (parseAll E n modules {}).2 = s := congrArg Prod.snd h1
  have ht : (processBases ⟨E.order, E.order_perm⟩ rep n s).2 = t := congrArg Prod.snd h2
  have hrec : Recorded t q.1 q.2 := by
    rcases hq with ⟨_, nodes, stmts, a, b, -⟩ | ⟨kinds, kind, a, b⟩
    · exact .inl ⟨nodes, stmts, a, b⟩
    · exact .inr ⟨kinds, kind, a, b⟩
  show DefinedAt t q.1 q.2
  by_cases hm : q.1 = specPath
  · rw [hm] at hrec ⊢
    exact (processBases_ok h2 q.2 hrec).2
  · have hA := processBases_aside (o := ⟨E.order, E.order_perm⟩) rep n s
    rw [ht] at hA
    have : DefinedAt (parseAll E n modules {}).2 q.1 q.2 := by
      refine C40_recorded_defined E n modules q.1 q.2 ?_
      rw [hs]
      unfold Recorded at hrec ⊢
      rwa [hA.nodes _ hm, hA.kinds _ hm] at hrec
    rw [hs] at this
    unfold DefinedAt at this ⊢
    rwa [hA.definitions _ hm]

/-- `get` of the specialised class `Box[int]`. -/
example : ∃ T, parseStubs (filesOf boxFiles) sampleRep 20 [["a"]] = .ok T ∧
    StoredAt T (["__specializations"], ["Box_getitem_int", "get"]) (meth "get" (nm "int")) :=
  ⟨_, rfl, _, _, rfl, rfl, .head _⟩

/-- In tables made from stub files, aliases are defined. -/
theorem alias_defined {E : StubFiles} {rep : Atom → String} {n : Nat} {modules : List Path} {T : Stubs}
    (h : parseStubs E rep n modules = .ok T) (q : QPath) (e : Expr) (ha : aliasValue T q = some e) :
    DefinedIn T.toTables q.1 q.2 := by
  obtain ⟨nodes, kinds, kind, id, node, -, h2, h3, -⟩ := aliasValue_spec ha
  exact C40_parsed E rep n modules T h q (.inr ⟨kinds, kind, h2, h3⟩)

/-- In tables made from stub files without chained assignments, names assigned to are objects of their
own. -/
theorem own_targets {E : StubFiles} {rep : Atom → String} {n : Nat} {modules : List Path} {T : Stubs}
    (h : parseStubs E rep n modules = .ok T) (hp : PlainTargets T) {depth : Nat} (hd : 2 ≤ depth) :
    OwnTargets T depth := by
  intro m p node targets value id b q hs ha hn hr _
  obtain ⟨id', b', rfl, hl⟩ := hp (m, p) node targets value hs ha
  simp only [List.mem_singleton, Expr.name.injEq] at hn
  obtain ⟨rfl, rfl⟩ := hn
  have hpath : p.dropLast ++ [id] = p := by
    obtain ⟨l, hl⟩ := List.getLast?_eq_some_iff.1 hl
    dsimp only at hl
    subst hl
    simp
  have hdef := C40_parsed E rep n modules T h (m, p) (.inl ⟨node, hs⟩)
  obtain ⟨k, rfl⟩ : ∃ k, depth = k + 2 := ⟨depth - 2, by omega⟩
  rw [← hpath] at hdef
  rw [resolve_self hdef k, hpath] at hr
  cases hr
  rfl

end Paradigm.Props
