import Verif.Lemmas.EvaluationRelations

/-!
# Lemmas about modules that only exist in stub files
-/

namespace Paradigm

open Spec

/-! ### Modules stay and keep what was given to them -/

/-- Nothing given is taken away, and modules stay. -/
structure CachesGrown {V : Type} (s t : EvalState V) : Prop where
  given : s.given <+: t.given
  modules : ∀ m v, s.modules.lookup m = some v → t.modules.lookup m = some v

theorem cachesGrown_rel {V : Type} (T : Stubs) : EvRel T (CachesGrown (V := V)) where
  refl _ := ⟨List.prefix_refl _, fun _ _ h => h⟩
  trans h h' := ⟨h.given.trans h'.given, fun m v hm => h'.modules m v (h.modules m v hm)⟩
  spaces _ _ _ := ⟨List.prefix_refl _, fun _ _ h => h⟩
  assigned _ _ := ⟨List.prefix_refl _, fun _ _ h => h⟩
  object _ _ _ _ := ⟨List.prefix_refl _, fun _ _ h => h⟩
  given _ _ := ⟨List.prefix_append _ _, fun _ _ h => h⟩
  module s m v hl := ⟨List.prefix_refl _, fun r w h => by
    show (dictPut m v s.modules).lookup r = some w
    rw [lookup_dictPut, if_neg]
    · exact h
    · rintro rfl
      rw [h] at hl
      cases hl⟩

/-- The object does not get cached. -/
def StaysOut {V : Type} (q : QPath) (s t : EvalState V) : Prop :=
  s.objects.lookup q = none → t.objects.lookup q = none

theorem staysOut {V : Type} {T : Stubs} {q : QPath} (hq : ¬ IsStubClass T q) :
    EvRel T (StaysOut (V := V) q) where
  refl _ := id
  trans h h' := h' ∘ h
  spaces _ _ _ := id
  assigned _ _ := id
  object s r v hr := fun h => by
    show (dictPut r v s.objects).lookup q = none
    rw [lookup_dictPut, if_neg]
    · exact h
    · rintro rfl
      exact hq hr
  given _ _ := id
  module _ _ _ _ := id

section

variable {V : Type} {W : Interpreter V} {T : Stubs} {depth : Nat} {other : Atom → String}
  {look : QPath → Ev V V}

/-! ### The value of an object ending with a function -/

theorem evalNodes_last {m path : Path} {f : FunctionDef} : ∀ (nodes : List Stmt) (w : Option V)
    {s t : EvalState V} {v : V},
    evalNodes W T depth other look m path w (nodes ++ [.functionDef f]) s = (.ok v, t) →
    ∃ g env, lazyFunction other f = .ok g ∧ W.define g env = .ok v
  | [], w, s, t, v, h => by
    have : evalNodes W T depth other look m path w [.functionDef f] = (do
        let v ← evalStmt W T depth other look m path.dropLast (.functionDef f)
        putName (path.getLast?.getD "") v
        evalNodes W T depth other look m path (some v) []) := by
      cases w <;> rw [evalNodes]
    rw [List.nil_append, this] at h
    obtain ⟨x, s1, h1, h⟩ := Ev.bind_ok_inv h
    obtain ⟨_, s2, -, h⟩ := Ev.bind_ok_inv h
    rw [evalNodes] at h
    have e : x = v := Except.ok.inj (congrArg Prod.fst h)
    subst e
    rw [evalStmt] at h1
    obtain ⟨g, s3, h3, h1⟩ := Ev.bind_ok_inv h1
    obtain ⟨s4, s5, -, h1⟩ := Ev.bind_ok_inv h1
    obtain ⟨x', s6, h6, h1⟩ := Ev.bind_ok_inv h1
    obtain ⟨_, s7, -, h1⟩ := Ev.bind_ok_inv h1
    have e : x' = x := Except.ok.inj (congrArg Prod.fst h1)
    subst e
    exact ⟨g, _, congrArg Prod.fst h3, congrArg Prod.fst h6⟩
  | node :: nodes, w, s, t, v, h => by
    have : evalNodes W T depth other look m path w (node :: (nodes ++ [.functionDef f])) = (do
        let v ← evalStmt W T depth other look m path.dropLast node
        putName (path.getLast?.getD "") v
        evalNodes W T depth other look m path (some v) (nodes ++ [.functionDef f])) := by
      cases w <;> rw [evalNodes]
    rw [List.cons_append, this] at h
    obtain ⟨_, _, -, h⟩ := Ev.bind_ok_inv h
    obtain ⟨_, _, -, h⟩ := Ev.bind_ok_inv h
    exact evalNodes_last nodes _ h

theorem evalStub_function {m path : Path} {nodes : List Stmt} {f : FunctionDef} {s t : EvalState V} {v : V}
    (hs : statementsOf T (m, path) = nodes ++ [.functionDef f]) (hc : ¬ IsStubClass T (m, path))
    (ho : s.objects.lookup (m, path) = none)
    (h : evalStub W T depth other look m path s = (.ok v, t)) :
    ∃ g env, lazyFunction other f = .ok g ∧ W.define g env = .ok v := by
  unfold evalStub at h
  obtain ⟨s0, s1, h1, h⟩ := Ev.bind_ok_inv h
  have e0 : s = s0 := Except.ok.inj (congrArg Prod.fst h1)
  subst e0
  rw [ho] at h
  obtain ⟨ns, _, h2, h⟩ := Ev.bind_ok_inv h
  obtain ⟨kinds, _, h3, h⟩ := Ev.bind_ok_inv h
  obtain ⟨kind, _, h4, h⟩ := Ev.bind_ok_inv h
  have h2 := getKey_inv (congrArg Prod.fst h2)
  have h3 := getKey_inv (congrArg Prod.fst h3)
  have h4 := getKey_inv (congrArg Prod.fst h4)
  have hk : kind ≠ .class_ := by
    rintro rfl
    apply hc
    unfold IsStubClass
    rw [h3]
    exact h4
  unfold statementsOf at hs
  rw [h2, Option.bind_some] at hs
  cases hl : ns.lookup path with
  | none => rw [hl] at hs; simp at hs
  | some stmts =>
    rw [hl, Option.getD_some] at hs
    subst hs
    rw [hl] at h
    simp only [hk, ne_eq, not_false_eq_true, if_true] at h
    exact evalNodes_last nodes none h

/-! ### The names of a module -/

/-- Each name was evaluated, in a state that later ones come from, and given to the module. -/
theorem evalNames_ok (R : EvalState V → EvalState V → Prop) [hR : EvRel T R] (hlook : ∀ r, Moves R (look r))
    (hG : ∀ r, Moves CachesGrown (look r)) (hK : ∀ q o r, KeepsObject q o (look r)) (m : Path) (module : V) : ∀ (names : List String) {s t : EvalState V},
    evalNames look m module names s = (.ok (), t) → ∀ x ∈ names,
      ∃ w u u', R s u ∧ look (m, [x]) u = (.ok w, u') ∧
        (∀ q o, u'.objects.lookup q = some o → t.objects.lookup q = some o) ∧ (module, x, w) ∈ t.given
  | [], _, _, _, _, hx => by cases hx
  | name :: names, s, t, h, x, hx => by
    rw [evalNames] at h
    obtain ⟨v, s1, h1, g1⟩ := Ev.bind_ok_inv h
    obtain ⟨_, s2, h2, g2⟩ := Ev.bind_ok_inv g1
    obtain ⟨_, s3, h3, g3⟩ := Ev.bind_ok_inv g2
    have r1 := (hlook _).of_eq h1
    have r2 := (Moves.putName (R := R) name v).of_eq h2
    have e3 : { s2 with given := s2.given ++ [(module, name, v)] } = s3 := congrArg Prod.snd h3
    have r3 : R s2 s3 := e3 ▸ hR.given s2 _
    by_cases hin : x ∈ names
    · obtain ⟨w, u, u', a, b, c, d⟩ := evalNames_ok R hlook hG hK m module names g3 x hin
      exact ⟨w, u, u', hR.trans r1 (hR.trans r2 (hR.trans r3 a)), b, c, d⟩
    · rcases List.mem_cons.1 hx with rfl | hx
      · refine ⟨v, s, s1, hR.refl s, h1, fun q o ho => ?_, ?_⟩
        · have h4 := KeepsObject.putName (q := q) (v := o) x v s1 ho
          rw [h2] at h4
          have h5 : s3.objects.lookup q = some o := by rw [← e3]; exact h4
          have h6 := evalNames_keeps (hK q o) m module names s3 h5
          rw [g3] at h6
          exact h6
        have := cachesGrown_rel (V := V) T
        have hg : CachesGrown s3 t := (evalNames_moves hG m module names).of_eq g3
        refine hg.given.subset ?_
        rw [← e3]
        simp
      · exact absurd hx hin

end

end Paradigm
