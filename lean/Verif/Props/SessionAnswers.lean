import Verif.Lemmas.Legal
import Verif.Props.DeclaredOverloads

/-!
# C28, C31, C63: whatever was asked before

The claims of `Props/Lookup.lean` about `signature_from_callable` for calls in a session: the evaluator
is arbitrary and may depend on, and change, what previous calls have left in the caches.
-/

namespace Paradigm.Props

open Spec PyCall

theorem session_at {R : Runtime} {E : Evaluator} : ∀ {cs : List Callable} {i : Nat} {c : Callable}
    (s : EvalState Obj), cs[i]? = some c →
    ∃ t, (session R E cs s)[i]? = some (fromCallableS R E c t).1
  | [], i, c, s, h => by simp at h
  | d :: cs, 0, c, s, h => by
    simp only [List.getElem?_cons_zero, Option.some.injEq] at h
    subst h
    exact ⟨s, rfl⟩
  | d :: cs, i + 1, c, s, h => by
    simp only [List.getElem?_cons_succ] at h
    simp only [session, List.getElem?_cons_succ]
    exact session_at _ h

theorem session_last {R : Runtime} {E : Evaluator} : ∀ (cs : List Callable) (s : EvalState Obj),
    ∃ t, ∀ c, (session R E (cs ++ [c]) s)[cs.length]? = some (fromCallableS R E c t).1
  | [], s => ⟨s, fun c => by simp [session]⟩
  | d :: cs, s => by
    obtain ⟨t, ht⟩ := session_last cs (fromCallableS R E d s).2
    refine ⟨t, fun c => ?_⟩
    simp only [List.cons_append, session, List.length_cons, List.getElem?_cons_succ]
    exact ht c

section

variable (R : Runtime) (E : Evaluator) (cs : List Callable) (s : EvalState Obj)

/-! ### C63 -/

/-- **C63**, in sessions: every signature returned could have been built through the public
constructors. -/
theorem C63_session (i : Nat) (sig : Sig) (h : (session R E cs s)[i]? = some (.ok sig)) :
    Constructible sig := by
  obtain ⟨c, t, _, h⟩ := session_state h
  exact fromCallableS_legal R E c t sig h

/-! ### C31 -/

theorem catchNotFound_inspect {x : Ev Obj Sig} {r : Except PyErr Sig} (hr : r ≠ .error .signatureNotFound)
    (t : EvalState Obj) : (catchNotFound x (Ev.lift r) t).1 ≠ .error .signatureNotFound := by
  unfold catchNotFound
  cases h : x t with
  | mk a u =>
    cases a with
    | ok v => simp
    | error e => cases e <;> simp [Ev.lift, hr]

theorem fromInspect_found {raw : Except PyErr RawSig} (hr : raw ≠ .error .signatureNotFound) :
    fromInspect raw ≠ .error .signatureNotFound := by
  intro h
  unfold fromInspect at h
  rcases except_bind_error.1 h with h | ⟨r, _, h⟩
  · exact hr h
  · obtain ⟨tag, h⟩ := fromRawSignature_error h
    cases h

theorem fromCallableS_found : ∀ (c : Callable) (t : EvalState Obj),
    (∀ raw ∈ inspected c, raw ≠ .error .signatureNotFound) →
    (fromCallableS R E c t).1 ≠ .error .signatureNotFound
  | .builtin _ _ _ raw, t, h => by
    simp only [fromCallableS]
    exact catchNotFound_inspect (fromInspect_found (h raw (by simp [inspected]))) t
  | .function _ raw, t, h => by
    simp only [fromCallableS]
    exact catchNotFound_inspect (fromInspect_found (h raw (by simp [inspected]))) t
  | .method _ _ raw, t, h => by
    simp only [fromCallableS]
    exact catchNotFound_inspect (fromInspect_found (h raw (by simp [inspected]))) t
  | .methodWrapper none _, t, _ => by
    simp [fromCallableS, Ev.raise]
  | .methodWrapper (some _) raw, t, h => by
    simp only [fromCallableS]
    exact catchNotFound_inspect (fromInspect_found (h raw (by simp [inspected]))) t
  | .descriptor _ raw, t, h => by
    simp only [fromCallableS]
    exact catchNotFound_inspect (fromInspect_found (h raw (by simp [inspected]))) t
  | .cls _ raw, t, h => by
    simp only [fromCallableS]
    refine catchNotFound_inspect (fun g => ?_) t
    rcases except_bind_error.1 g with g | ⟨r, _, g⟩
    · exact h raw (by simp [inspected]) g
    · obtain ⟨tag, g⟩ := fromRawSignature_error g
      cases g
  | .partial_ func args keywords, t, h => by
    simp only [fromCallableS]
    have ih := fromCallableS_found func t h
    cases hf : fromCallableS R E func t with
    | mk r u =>
      rw [hf] at ih
      cases r with
      | error e =>
        rw [Ev.bind_error hf]
        intro g
        injection g with g
        exact ih (by rw [g])
      | ok sig =>
        rw [Ev.bind_ok hf]
        intro g
        have g : sig.bind args keywords = .error .signatureNotFound := g
        rcases C03_overloaded_bind_legal sig (fromCallableS_legal R E func t sig (by rw [hf])) args keywords
          with ⟨v, hv, _⟩ | ⟨tag, hv⟩ <;> rw [hv] at g <;> cases g
  | .other, t, _ => by simp [fromCallableS, Ev.raise]

/-- **C31**, in sessions: the internal condition never escapes. -/
theorem C31_session (i : Nat) (c : Callable) (hc : cs[i]? = some c)
    (hraw : ∀ raw ∈ inspected c, raw ≠ .error .signatureNotFound) :
    (session R E cs s)[i]? ≠ some (.error .signatureNotFound) := by
  obtain ⟨t, ht⟩ := session_at s hc
  rw [ht]
  intro h
  exact fromCallableS_found R E c t hraw (Option.some.inj h)

/-- **C31**, in sessions: a function, method descriptor, builtin or class none of whose candidate
locations is in the stubs gets the signature `inspect` reports (for classes: returning `Self`). -/
theorem C31_fallback_session_partial (f : Fn) (raw : RawSig) (paths : List QPath)
    (hp : candidatePaths R f = .ok paths)
    (hno : ∀ q ∈ paths, R.resolve q.1 [] q.2 = .error .objectNotFound)
    (i : Nat) (c : Callable) (hc : cs[i]? = some c) :
    (LookedUpAs c f (.ok raw) → (session R E cs s)[i]? = some (fromRawSignature raw)) ∧
    ∀ l, f = .ofClass l → c = .cls l (.ok raw) →
      (session R E cs s)[i]? = some (fromRawSignature { raw with returns := some (.form selfForm) }) := by
  obtain ⟨t, ht⟩ := session_at s hc
  have hr := resolveQualifiedPaths_none hp hno
  rw [ht]
  refine ⟨fun hl => ?_, ?_⟩
  · have he : fromCallableS R E c = catchNotFound (fromFnS R E f) (Ev.lift (fromInspect (.ok raw))) := by
      cases hl <;> rfl
    have hf : fromFnS R E f t = (.error .signatureNotFound, t) := by
      unfold fromFnS toQualifiedPaths
      rw [hr]; rfl
    rw [he, catchNotFound, hf]
    rfl
  · rintro l rfl rfl
    have hf : fromClassS R E (.ofClass l) t = (.error .signatureNotFound, t) := by
      unfold fromClassS
      rw [hr]; rfl
    rw [fromCallableS, catchNotFound, hf]
    rfl

/-! ### C28 -/

/-- **C28**, in sessions (missing as in `C28_partial_is_bind_partial`): a partial gets what its function
would get in its place, bound, or the same error; a nested partial what the flattened one would get, when
no keyword is bound twice and none repeats, in the presence of `**kwargs`, the name of a parameter filled
positionally. -/
theorem C28_session_partial (c : Callable) :
    ∃ r : Except PyErr Sig, (session R E (cs ++ [c]) s)[cs.length]? = some r ∧
    (∀ e a k, r = .error e →
      (session R E (cs ++ [.partial_ c a k]) s)[cs.length]? = some (.error e)) ∧
    ∀ sig, r = .ok sig →
      (∀ a k, (session R E (cs ++ [.partial_ c a k]) s)[cs.length]? = some (sig.bind a k)) ∧
      ∀ a r k rk u, (keys (k ++ rk)).Nodup →
        (∀ o ∈ flattenSignature sig,
          ¬ Collides o.parameters (a.length + r.length) (keys (k ++ rk))) →
        ((session R E (cs ++ [.partial_ (.partial_ c a k) r rk]) s)[cs.length]? = some (.ok u) ↔
          (session R E (cs ++ [.partial_ c (a ++ r) (merge k rk)]) s)[cs.length]? = some (.ok u)) := by
  obtain ⟨t, ht⟩ := session_last (R := R) (E := E) cs s
  have key : ∀ c a k sig, (fromCallableS R E c t).1 = .ok sig →
      (fromCallableS R E (.partial_ c a k) t).1 = sig.bind a k := by
    intro c a k sig h
    rw [fromCallableS]
    cases hf : fromCallableS R E c t with
    | mk r u =>
      rw [hf] at h
      cases h
      rw [Ev.bind_ok hf]
      rfl
  have kerr : ∀ c a k e, (fromCallableS R E c t).1 = .error e →
      (fromCallableS R E (.partial_ c a k) t).1 = .error e := by
    intro c a k e h
    rw [fromCallableS]
    cases hf : fromCallableS R E c t with
    | mk r u =>
      rw [hf] at h
      cases h
      rw [Ev.bind_error hf]
  refine ⟨_, ht c, fun e a k he => ?_, fun sig hs => ⟨fun a k => ?_, fun a r k rk u hnd hcol => ?_⟩⟩
  · rw [ht, kerr _ _ _ _ he]
  · rw [ht, key _ _ _ _ hs]
  · rw [ht, ht, key _ _ _ _ hs, merge_disjoint hnd, Option.some.injEq, Option.some.injEq,
      ← sigBind_twice (fromCallableS_legal R E c t sig hs) hnd hcol u]
    cases hb : sig.bind a k with
    | error e => rw [kerr _ _ _ e (by rw [key _ _ _ _ hs, hb])]; simp
    | ok v => rw [key _ _ _ v (by rw [key _ _ _ _ hs, hb])]; simp

end

/-! ### Samples -/

/-- A session with a partial of a method after the method itself. -/
def partialQuestions : List Callable :=
  [.method two (some (one, .ok fnRun)) (.error .keyError),
    .partial_ (.function { module_ := .text "m", qualname := "C.run" } (.error .keyError)) [one] []]

example : ∃ a b, session runsRuntime (runsRuntime.evaluator sessionPython (fun _ => "") 9) partialQuestions
    (initialEval (.form 99)) = [.ok a, .ok b] ∧ Constructible b :=
  ⟨_, _, rfl, C63_session runsRuntime (runsRuntime.evaluator sessionPython (fun _ => "") 9) partialQuestions
    (initialEval (.form 99)) 1 _ rfl⟩

/-- A function that is in no stub. -/
example : (session runtimeSample (runtimeSample.evaluator sessionPython (fun _ => "") 9)
    [.other, .function { module_ := .text "m", qualname := "missing" } (.ok rawG)]
    (initialEval (.form 99)))[1]? = some (fromRawSignature rawG) :=
  (C31_fallback_session_partial runtimeSample _ _ _ (.ofFunction { module_ := .text "m", qualname := "missing" })
    rawG [(["m"], ["missing"])] rfl (by intro q hq; cases List.mem_singleton.1 hq; rfl) 1 _ rfl).1
    (.function _ _)

end Paradigm.Props
