import Verif.Lemmas.Terminates
import Verif.Props.Trees

/-!
# C65, C68: the recursion of the stub parser
-/

namespace Paradigm.Props

open Spec

/-! ### C65 -/

/-- **C65**, full statement: finitely many stub files can be read with a finite stack. -/
def C65_statement : Prop :=
  ∀ E : StubFiles, (∃ all : List Path, ∀ m body, E.source m = some body → m ∈ all) →
    (∀ test ns, E.condition test ns ≠ .error .recursionError) →
    ∃ N, ∀ n, N ≤ n → ∀ modules, (parseAll E n modules {}).1 ≠ .error .recursionError

/-- Two modules that star-import each other, one with an alias of a name that does not exist. -/
def loopFiles : StubFiles := filesOf [
  (["builtins"], []),
  (["a"], [.importFrom (some "b") [⟨"*", none⟩] 0, .assign [tgt "x"] (nm "missing")]),
  (["b"], [.importFrom (some "a") [⟨"*", none⟩] 0])]

/-- The tables when the lookup starts to go round in circles. -/
def loopState : ParseState := (parseScope loopFiles 2 ["b"]
  (visit loopFiles 1 ⟨["a"], []⟩ (.importFrom (some "b") [⟨"*", none⟩] 0)
    (started ["a"] (parseScope loopFiles 1 ["builtins"] {}).2)).2).2

theorem loop_forever (n : Nat) :
    (parseAll loopFiles (n + 6) [["a"]] {}).1 = .error .recursionError := by
  have inner := (star_loop loopFiles (a := ["a"]) (b := ["b"]) (head := "missing") (rest := [])
    (s := loopState) (A := .mk []) (B := .mk []) (as := []) (bs := []) (by decide) (by decide) rfl
    rfl (by rintro ⟨_, h, _⟩; cases h) (by rintro ⟨_, h, _⟩; cases h) rfl rfl (n + 2)).1
  let s1 := (visit loopFiles 1 ⟨["a"], []⟩ (.importFrom (some "b") [⟨"*", none⟩] 0)
    (started ["a"] (parseScope loopFiles 1 ["builtins"] {}).2)).2
  have hb : resolveP loopFiles (n + 3) ["b"] [] ["missing"] s1
      = (.error .recursionError, loopState) :=
    resolveP_star_error loopFiles (n + 2) (X := .mk []) (t := loopState) (xs := []) rfl
      (by rintro ⟨_, h, _⟩; cases h) rfl nofun inner
  have ha : resolveP loopFiles (n + 4) ["a"] [] ["missing"] s1
      = (.error .recursionError, loopState) :=
    resolveP_star_error loopFiles (n + 3) (X := .mk []) (t := s1) (xs := []) rfl
      (by rintro ⟨_, h, _⟩; cases h) rfl nofun hb
  have hv : visit loopFiles (n + 5) ⟨["a"], []⟩ (.assign [tgt "x"] (nm "missing")) s1
      = (.error .recursionError, loopState) := by
    rw [visit]
    show (toQualified (resolveP loopFiles (n + 4)) ⟨["a"], []⟩ ["missing"] >>= _) s1 = _
    refine bind_of_error ?_
    rw [toQualified, P.orNotFound, ha]
  unfold parseAll
  rw [bind_of_ok (t := (parseScope loopFiles 1 ["builtins"] {}).2) (a := .mk []) (by rfl)]
  have hp : parseScope loopFiles (n + 6) ["a"] (parseScope loopFiles 1 ["builtins"] {}).2
      = (.error .recursionError, loopState) := by
    rw [parse_source loopFiles (n + 5) (by decide) rfl]
    refine bind_of_error ?_
    show (visit loopFiles (n + 5) ⟨["a"], []⟩ _ >>= fun _ =>
      visit loopFiles (n + 5) ⟨["a"], []⟩ (.assign [tgt "x"] (nm "missing")) >>= fun _ =>
        pure ()) _ = _
    rw [bind_of_ok (t := s1) (a := ()) (by rfl), bind_of_error hv]
  show (((parseScope loopFiles (n + 6) ["a"] >>= fun _ => pure ()) >>= fun _ => P.each _ [])
    _).1 = _
  rw [bind_of_error (bind_of_error hp)]

/-- Modules that star-import each other are looked through forever. -/
theorem C65_refuted : ¬ C65_statement := by
  intro h
  obtain ⟨N, h⟩ := h loopFiles ⟨[["builtins"], ["a"], ["b"]], fun m body hm => by
      simp only [loopFiles, filesOf, List.lookup] at hm
      repeat' split at hm
      all_goals simp_all⟩ (fun test ns => by
      simp only [loopFiles, filesOf]
      split <;> nofun)
  exact h (N + 6) (by omega) _ (loop_forever N)

/-- **C65**, what holds (missing: modules that star-import themselves, directly or not). -/
theorem C65_terminates_partial (E : StubFiles) (h : Layered E) :
    ∃ N, ∀ n, N ≤ n → ∀ modules, (parseAll E n modules {}).1 ≠ .error .recursionError :=
  layered_terminates h

/-- Ordinary imports may be circular; here `b` star-imports `a`, which imports from `b`. -/
example : Layered cyclicFiles where
  finite := ⟨[["builtins"], ["a"], ["b"]], fun m body hm => by
    simp only [cyclicFiles, filesOf, List.lookup] at hm
    repeat' split at hm
    all_goals simp_all⟩
  acyclic := ⟨fun m => if m = ["b"] then 1 else 0, fun m sub ⟨body, hm, hs⟩ => by
    simp only [cyclicFiles, filesOf, List.lookup] at hm
    repeat' split at hm
    all_goals cases hm
    all_goals
      rename_i e
      rw [eq_of_beq e] at hs ⊢
      simp [starsAll, starsOf, toParentModulePath, defn] at hs
    subst hs
    decide⟩
  tests := fun test ns => by
    simp only [cyclicFiles, filesOf]
    split <;> nofun

/-! ### C68 -/

/-- **C68.** With a higher recursion limit a parse that stayed within the lower one ends in the same
way, with the same tables. -/
theorem C68_limit_irrelevant (E : StubFiles) (modules : List Path) (s : ParseState) (n k : Nat)
    (hk : n ≤ k) (h : (parseAll E n modules s).1 ≠ .error .recursionError) :
    parseAll E k modules s = parseAll E n modules s :=
  limit_irrelevant E modules s hk h

example : (parseAll cyclicFiles 20 [["a"], ["b"]] {}).1 ≠ .error .recursionError := by
  intro h
  cases h

end Paradigm.Props
