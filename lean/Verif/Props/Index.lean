import Verif.Lemmas.Index

/-!
# C57, C73: the index of live objects
-/

namespace Paradigm.Props

open Spec

/-- **C57**, termination: nested calls are at most as many as there are classes, plus one. -/
theorem C57_terminates (W : World) (modules : List Path) (classes : List Nat) (n : Nat)
    (hc : ∀ m ∈ modules, ∀ ns, W.importModule m = some ns → ClosedUnder W ns classes)
    (hn : classes.length < n) : indexModules W n modules ≠ .error .recursionError := by
  refine foldExcept_safe fun m hm b h => ?_
  unfold indexModule at h
  split at h
  · cases h
  · rename_i ns hns
    exact indexNamespace_terminates (hc m hm ns hns) List.nodup_nil (by simp) (by simpa using hn) h

/-- **C57**, soundness: whatever is listed under a qualified path is found at its place, and has that
qualified path, which is not empty, and names an object unless a class stands there. -/
theorem C57_sound (W : World) (hW : DistinctNames W) (n : Nat) (modules : List Path) (index : Index)
    (h : indexModules W n modules = .ok index) (q location : QPath) (hl : location ∈ listed index q) :
    location.1 ∈ modules ∧ ∃ ns v, W.importModule location.1 = some ns
      ∧ W.search ns location.2 = some v ∧ W.qualified v = .ok q
      ∧ (q.2 ≠ [] ∨ q.1 ≠ [] ∧ ∃ id, v = .cls id) := by
  refine foldExcept_inv (I := fun index => location ∈ listed index q → location.1 ∈ modules ∧
    ∃ ns v, W.importModule location.1 = some ns ∧ W.search ns location.2 = some v
      ∧ W.qualified v = .ok q ∧ (q.2 ≠ [] ∨ q.1 ≠ [] ∧ ∃ id, v = .cls id)) ?_ h (fun h => by simp [listed] at h) hl
  intro m hm b r ha hb hin
  unfold indexModule at ha
  split at ha
  · cases ha; exact hb hin
  · rename_i ns hns
    rcases indexNamespace_sound ha q location hin with h1 | ⟨rest, v, via, h1, h2, h3⟩
    · exact hb h1
    · subst h1
      exact ⟨hm, ns, v, hns, search_of_leads hW h2, h3⟩

/-- **C73**: whatever can be reached without passing through a class twice is listed. -/
theorem C73_complete (W : World) (n : Nat) (modules : List Path) (index : Index)
    (h : indexModules W n modules = .ok index) (m : Path) (hm : m ∈ modules) (ns : Nat)
    (hns : W.importModule m = some ns) (path : Path) (v : Value) (via : List Nat)
    (hl : Leads W ns path v via) (hvia : via.Nodup) (q : QPath) (hv : W.qualified v = .ok q)
    (hq : q.2 ≠ []) : (m, path) ∈ listed index q := by
  refine foldExcept_establishes (I := fun index => (m, path) ∈ listed index q) hm (fun b r ha => ?_)
    (fun x _ b r ha hb => ?_) h
  · unfold indexModule at ha
    rw [hns] at ha
    exact indexNamespace_complete (parent := []) hq hl hv ha (by simpa using hvia)
  · unfold indexModule at ha
    split at ha
    · cases ha; exact hb
    · exact indexNamespace_keeps ha _ _ hb

/-! ### Sample -/

/-- A module `m` (number 0) with a class `A` (1) that has a method `f` and refers to itself and to a
class `B` (2), which refers to `A`. -/
def sampleWorld : World where
  vars
    | 0 => [("A", .cls 1), ("__name__", .other 9)]
    | 1 => [("f", .other 3), ("Self", .cls 1), ("B", .cls 2)]
    | 2 => [("A", .cls 1)]
    | _ => []
  classes
    | 1 => (.text "m", "A")
    | _ => (.text "m", "A.B")
  others
    | 3 => .function (.text "m") "A.f"
    | _ => .other
  importModule m := if m = ["m"] then some 0 else none

/-- Three nested calls are enough. -/
example : indexModules sampleWorld 3 [["m"], ["missing"]] = .ok
    [(["m"], [(["A"], [(["m"], ["A"])]), (["A", "f"], [(["m"], ["A", "f"])]),
      (["A", "B"], [(["m"], ["A", "B"])])])] := rfl

example : ClosedUnder sampleWorld 0 [1, 2] := by
  rintro x (rfl | hx) name id h
  · simp only [sampleWorld, List.mem_cons, Prod.mk.injEq, Value.cls.injEq, List.not_mem_nil, or_false,
      reduceCtorEq, and_false] at h
    simp [h.2]
  · simp only [List.mem_cons, List.not_mem_nil, or_false] at hx
    rcases hx with rfl | rfl
    · simp only [sampleWorld, List.mem_cons, Prod.mk.injEq, Value.cls.injEq, List.not_mem_nil,
        or_false, reduceCtorEq, and_false, false_or] at h
      rcases h with h | h <;> simp [h.2]
    · simp only [sampleWorld, List.mem_cons, Prod.mk.injEq, Value.cls.injEq, List.not_mem_nil,
        or_false] at h
      simp [h.2]

example : Leads sampleWorld 0 ["A", "B"] (.cls 2) [1, 2] :=
  .inside (name := "A") (id := 1) (by simp [sampleWorld]) (.cls (by simp [sampleWorld]))

end Paradigm.Props
