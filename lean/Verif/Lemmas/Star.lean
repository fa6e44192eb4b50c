import Verif.Lemmas.Scoping

/-!
# Helper lemmas about star imports and termination
-/

namespace Paradigm

open Spec

theorem mem_subs {T : Tables} {m s : Path} :
    s ∈ T.subs m ↔ ∃ ss, T.submodules.lookup m = some ss ∧ s ∈ ss := by
  rw [Tables.subs]
  cases T.submodules.lookup m <;> simp

/-- Number of known modules outside of `V`. -/
def unvisited (T : Tables) (V : List Path) : Nat :=
  ((T.definitions.map Prod.fst).filter (fun m => !V.contains m)).length

/-- Bound on the depth of nested star imports. -/
def starDepth (T : Tables) (m : Path) (V : List Path) : Nat :=
  2 * unvisited T V + if m ∈ V then 1 else 0

theorem lookup_mem_keys {α β : Type} [BEq α] [LawfulBEq α] {k : α} {v : β} :
    ∀ {d : List (α × β)}, d.lookup k = some v → k ∈ d.map Prod.fst
  | [], h => by simp at h
  | (k', v') :: d, h => by
    rw [List.lookup_cons] at h
    split at h
    · rename_i e
      simp at e
      simp [e]
    · have := lookup_mem_keys h
      simp only [List.map_cons, List.mem_cons]
      exact Or.inr this

theorem filter_length_lt {α : Type} {p q : α → Bool} (hpq : ∀ x, q x = true → p x = true)
    {a : α} (hp : p a = true) (hq : q a = false) : ∀ {l : List α}, a ∈ l →
    (l.filter q).length + 1 ≤ (l.filter p).length
  | x :: l, h => by
    have hle : ∀ l : List α, (l.filter q).length ≤ (l.filter p).length := by
      intro l
      induction l with
      | nil => simp
      | cons y l ih =>
        simp only [List.filter_cons]
        cases hqy : q y with
        | true => simp [hpq y hqy, ih]
        | false => cases hpy : p y <;> simp [ih]; omega
    simp only [List.filter_cons]
    rcases List.mem_cons.1 h with rfl | h
    · simp [hp, hq, hle]
    · have ih := filter_length_lt hpq hp hq h
      cases hqy : q x with
      | true => simpa [hpq x hqy] using ih
      | false => cases hpy : p x <;> simp <;> omega

theorem unvisited_lt {T : Tables} {m : Path} {V : List Path} (hk : Known T m) (hV : m ∉ V) :
    unvisited T (V ++ [m]) + 1 ≤ unvisited T V := by
  obtain ⟨scope, hk⟩ := hk
  refine filter_length_lt (a := m) ?_ ?_ ?_ (lookup_mem_keys hk)
  · intro x
    simp only [List.contains_eq_mem, List.mem_append, Bool.not_eq_true', decide_eq_false_iff_not]
    exact fun h h' => h (Or.inl h')
  · simpa using hV
  · simp

theorem unvisited_same {T : Tables} {m : Path} {V : List Path} (hV : m ∈ V) :
    unvisited T (V ++ [m]) = unvisited T V := by
  unfold unvisited
  congr 1
  apply List.filter_congr
  intro x _
  simp only [List.contains_eq_mem, List.mem_append, List.mem_cons, List.not_mem_nil, or_false]
  congr 1
  simp only [decide_eq_decide]
  constructor
  · rintro (h | rfl) <;> assumption
  · exact Or.inl

/-- Following a star import that was not visited decreases the depth. -/
theorem starDepth_lt {T : Tables} {m s : Path} {V : List Path} (hk : Known T m) (hs : s ∉ V) :
    starDepth T s (V ++ [m]) < starDepth T m V := by
  unfold starDepth
  by_cases hV : m ∈ V
  · rw [unvisited_same hV]
    have : s ∉ V ++ [m] := by
      simp only [List.mem_append, List.mem_cons, List.not_mem_nil, or_false, not_or]
      refine ⟨hs, ?_⟩
      rintro rfl
      exact hs hV
    simp [hV, this]
  · have := unvisited_lt hk hV
    simp only [hV, if_false]
    split <;> omega

/-- Same module, visited extended by it. -/
theorem starDepth_le_bound (T : Tables) (m : Path) (V : List Path) :
    starDepth T m V ≤ 2 * T.definitions.length + 1 := by
  unfold starDepth unvisited
  have := List.length_filter_le (fun m => !V.contains m) (T.definitions.map Prod.fst)
  rw [List.length_map] at this
  split <;> omega

/-- Paths of star imports whose modules after the first are outside of `V`. -/
inductive StarAvoid (T : Tables) (V : List Path) : Path → Path → Prop where
  | refl (m : Path) : StarAvoid T V m m
  | step {m s d : Path} : Star T m s → s ∉ V → StarAvoid T V s d → StarAvoid T V m d

theorem starReach_avoid {T : Tables} {m d : Path} (h : StarReach T m d) : StarAvoid T [] m d := by
  induction h with
  | refl m => exact .refl m
  | step hs _ ih => exact .step hs (by simp) ih

theorem StarAvoid.last {T : Tables} {V : List Path} {m a d : Path} (h : StarAvoid T V a d)
    (hd : d ≠ m) : StarAvoid T (V ++ [m]) a d ∨
      ∃ s, Star T m s ∧ s ∉ V ∧ StarAvoid T (V ++ [m]) s d := by
  induction h with
  | refl a => exact .inl (.refl a)
  | @step a s d hs hV _ ih =>
    rcases ih hd with h | h
    · by_cases hsm : s = m
      · subst hsm
        cases h with
        | refl => exact absurd rfl hd
        | step h1 h2 h3 =>
          refine .inr ⟨_, h1, ?_, h3⟩
          intro h
          exact h2 (by simp [h])
      · exact .inl (.step hs (by simp [hV, hsm]) h)
    · exact .inr h

theorem StarAvoid.next {T : Tables} {V : List Path} {m d : Path} (h : StarAvoid T V m d)
    (hd : d ≠ m) : ∃ s, Star T m s ∧ s ∉ V ∧ StarAvoid T (V ++ [m]) s d := by
  rcases h.last hd with h | h
  · cases h with
    | refl => exact absurd rfl hd
    | step h1 h2 h3 => exact ⟨_, h1, fun h => h2 (by simp [h]), h3⟩
  · exact h

/-- A call for a single name the module does not define. -/
theorem step_name {T : Tables} {f : Path → Path → List Path → Except PyErr QPath}
    {m : Path} {V : List Path} {x : String} {refs : Dict Path QPath} {bs : Scope}
    (hk : Known T m) (hx : ¬ DefinedIn T m [x])
    (hr : T.references.lookup m = some refs) (hrx : refs.lookup [x] = none)
    (hb : T.definitions.lookup builtinsPath = some bs) :
    step T f m [] [x] V =
      (tryEach (fun s => f s [x] (V ++ [m]))
        ((T.subs m).filter (fun s => !V.contains s))).getD
      (if scopeContains bs [x] then .ok (builtinsPath, [x]) else .error .objectNotFound) := by
  obtain ⟨scope, hk⟩ := hk
  have hg : scope.get? x = none := by
    cases h : scope.get? x with
    | none => rfl
    | some inner => exact absurd ⟨scope, hk, inner, h, trivial⟩ hx
  unfold step
  simp only [hk, scopeContains, Bool.not_true, List.isEmpty_nil, Bool.false_and, hg,
    Bool.false_eq_true, if_false]
  cases tryEach (fun s => f s [x] (V ++ [m]))
        ((T.subs m).filter (fun s => !V.contains s)) with
  | some r => rfl
  | none => simp [hr, longestReference, hrx, hb]

/-- Resolution of a single name through star imports only, in a family `P` of modules closed under
star imports outside of `V₀`. -/
theorem resolve_star {T : Tables} {x : String} (P : Path → Prop) (V₀ : List Path)
    (hP : ∀ m s, P m → Star T m s → s ∈ V₀ ∨ P s)
    (hrefs : ∀ m, P m → Known T m → ∃ refs, T.references.lookup m = some refs ∧
      refs.lookup [x] = none)
    (hb : Known T builtinsPath) : ∀ (n : Nat) (m : Path) (V : List Path),
    V₀ ⊆ V → P m → starDepth T m V < n →
    (∃ d, resolve T n m [] [x] V = .ok (d, [x]) ∧ DefinedIn T d [x] ∧
      (StarReach T m d ∨ d = builtinsPath) ∧ Known T m) ∨
    (resolve T n m [] [x] V = .error .objectNotFound ∧
      (∀ d, StarAvoid T V m d → ¬ DefinedIn T d [x]) ∧
      ¬ (Known T m ∧ DefinedIn T builtinsPath [x]))
  | 0, _, _, _, _, h => by omega
  | n + 1, m, V, hV, hm, h => by
    by_cases hk : Known T m
    · by_cases hx : DefinedIn T m [x]
      · exact .inl ⟨m, resolve_of_defined hx n V, hx, .inl (.refl m), hk⟩
      · obtain ⟨refs, hr, hrx⟩ := hrefs m hm hk
        obtain ⟨bs, hb'⟩ := hb
        rw [resolve_succ, step_name hk hx hr hrx hb']
        have ih : ∀ s, s ∈ (T.subs m).filter (fun s => !V.contains s) → _ := fun s hs => by
          simp only [List.contains_eq_mem, List.mem_filter, Bool.not_eq_true',
            decide_eq_false_iff_not] at hs
          have hstar : Star T m s := ⟨hk, mem_subs.1 hs.1⟩
          have hPs : P s := (hP m s hm hstar).resolve_left (fun h => hs.2 (hV h))
          have := resolve_star P V₀ hP hrefs ⟨bs, hb'⟩ n s (V ++ [m])
            (fun y hy => by simp [hV hy]) hPs
            (by have := starDepth_lt (V := V) (s := s) hk hs.2; omega)
          exact And.intro hstar this
        cases ht : tryEach (fun s => resolve T n s [] [x] (V ++ [m]))
            ((T.subs m).filter (fun s => !V.contains s)) with
        | some r =>
          obtain ⟨s, hs, hr, hne⟩ := tryEach_some ht
          obtain ⟨hstar, ih⟩ := ih s hs
          rcases ih with ⟨d, h1, h2, h3, _⟩ | ⟨h1, _⟩
          · refine .inl ⟨d, ?_, h2, ?_, hk⟩
            · simp [← hr, h1]
            · exact h3.imp (StarReach.step hstar) id
          · exact absurd (hr.symm.trans h1) hne
        | none =>
          simp only [Option.getD_none]
          rw [tryEach_none] at ht
          split
          · rename_i hc
            exact .inl ⟨builtinsPath, rfl, ⟨bs, hb', (scopeContains_iff _ _).1 hc⟩, .inr rfl, hk⟩
          · rename_i hc
            refine .inr ⟨rfl, ?_, ?_⟩
            · intro d hd hdx
              have hdm : d ≠ m := by rintro rfl; exact hx hdx
              obtain ⟨s, hs1, hs2, hs3⟩ := hd.next hdm
              have hs : s ∈ (T.subs m).filter (fun s => !V.contains s) := by
                simp [mem_subs.2 hs1.2, hs2]
              have h0 := ht s hs
              obtain ⟨_, ⟨_, h1, _⟩ | ⟨_, h2, _⟩⟩ := ih s hs
              · rw [h1] at h0; simp at h0
              · exact h2 d hs3 hdx
            · rintro ⟨_, bs', h1, h2⟩
              rw [hb', Option.some.injEq] at h1
              subst h1
              exact hc ((scopeContains_iff _ _).2 h2)
    · have : T.definitions.lookup m = none := by
        cases h : T.definitions.lookup m with
        | none => rfl
        | some s => exact absurd ⟨s, h⟩ hk
      refine .inr ⟨by rw [resolve_succ, step, this], ?_, fun h => hk h.1⟩
      intro d hd
      cases hd with
      | refl => exact fun ⟨s, h, _⟩ => hk ⟨s, h⟩
      | step h => exact absurd h.1 hk

theorem missingIndex_ge {scope : Scope} {i j : Nat} : ∀ {names : Path},
    missingIndex scope i names = some j → i ≤ j := by
  intro names
  induction names generalizing scope i with
  | nil => simp [missingIndex]
  | cons name names ih =>
    rw [missingIndex]
    split
    · intro h
      have := ih h
      omega
    · intro h
      simp only [Option.some.injEq] at h
      omega

/-- Calls from module level return within `ρ · bound + depth` nested calls. -/
theorem resolve_ranked {T : Tables} {ρ : Path → Path → Nat} (H : Ranked T ρ) :
    ∀ (n : Nat) (m object : Path) (V : List Path),
    ρ m object * (2 * T.definitions.length + 2) + starDepth T m V < n →
    resolve T n m [] object V ≠ .error .recursionError ∧
    ∀ q, resolve T n m [] object V = .ok q → ∀ rest, ρ q.1 (q.2 ++ rest) ≤ ρ m (object ++ rest)
  | 0, _, _, _, h => by omega
  | n + 1, m, object, V, h => by
    have hlt : ∀ m' o' V', ρ m' o' < ρ m object →
        ρ m' o' * (2 * T.definitions.length + 2) + starDepth T m' V' < n := by
      intro m' o' V' hlt
      have h1 := starDepth_le_bound T m' V'
      have h2 : (ρ m' o' + 1) * (2 * T.definitions.length + 2)
          ≤ ρ m object * (2 * T.definitions.length + 2) := Nat.mul_le_mul_right _ hlt
      rw [Nat.add_mul, Nat.one_mul] at h2
      omega
    rw [resolve_succ]
    unfold step
    cases hd : T.definitions.lookup m with
    | none => simp
    | some defs =>
      have hk : Known T m := ⟨defs, hd⟩
      cases object with
      | nil => simp
      | cons head rest =>
        simp only [scopeContains_nil, Bool.not_true, List.isEmpty_nil, Bool.false_and,
          Bool.false_eq_true, if_false]
        cases hg : defs.get? head with
        | some scope =>
          simp only
          cases hm : missingIndex scope 1 rest with
          | none => simp
          | some index =>
            simp only
            have hidx : 1 ≤ index := missingIndex_ge hm
            cases ht : tryEach (fun s : QPath => resolve T n s.1 []
                  (s.2 ++ (head :: rest).drop index) (V ++ [m]))
                  ((T.supers m ((head :: rest).take index)).getD []) with
            | some r =>
              obtain ⟨s, hs, hr, _⟩ := tryEach_some ht
              cases hsup : T.supers m ((head :: rest).take index) with
              | none => simp [hsup] at hs
              | some ss =>
                rw [hsup, Option.getD_some] at hs
                have hρ := fun t => H.superclass m _ ss s t hk hsup hs
                have ih := resolve_ranked H n s.1 (s.2 ++ (head :: rest).drop index) (V ++ [m])
                  (hlt _ _ _ (by
                    have := hρ ((head :: rest).drop index)
                    rwa [List.take_append_drop] at this))
                simp only [hr] at ih
                refine ⟨ih.1, fun q hq t => Nat.le_trans (ih.2 q hq t) ?_⟩
                have := hρ ((head :: rest).drop index ++ t)
                rw [← List.append_assoc, ← List.append_assoc, List.take_append_drop] at this
                omega
            | none =>
              simp only
              split
              · rename_i hobj
                obtain ⟨i, rfl⟩ : ∃ i, index = i + 1 := ⟨index - 1, by omega⟩
                have hρ := fun t => H.object m head (rest.take i) t hk hobj
                have ih := resolve_ranked H n builtinsPath
                  ("object" :: (head :: rest).drop (i + 1)) V
                  (hlt _ _ _ (by
                    have := hρ ((head :: rest).drop (i + 1))
                    simpa [List.take_append_drop] using this))
                refine ⟨ih.1, fun q hq t => Nat.le_trans (ih.2 q hq t) ?_⟩
                have := hρ ((head :: rest).drop (i + 1) ++ t)
                rw [List.drop_succ_cons, ← List.append_assoc, List.take_append_drop] at this
                simp only [List.drop_succ_cons, List.cons_append] at this ⊢
                omega
              · simp
        | none =>
          simp only
          cases ht : tryEach (fun s => resolve T n s [] (head :: rest) (V ++ [m]))
              ((T.subs m).filter (fun s => !V.contains s)) with
          | some r =>
            obtain ⟨s, hs, hr, _⟩ := tryEach_some ht
            simp only [List.contains_eq_mem, List.mem_filter, Bool.not_eq_true',
              decide_eq_false_iff_not] at hs
            have hρ := fun t => H.star m s (head :: rest ++ t) ⟨hk, mem_subs.1 hs.1⟩
            have ih := resolve_ranked H n s (head :: rest) (V ++ [m]) (by
              have h1 := starDepth_lt (V := V) (s := s) hk hs.2
              have h2 := hρ []
              rw [List.append_nil] at h2
              have h3 := Nat.mul_le_mul_right (2 * T.definitions.length + 2) h2
              omega)
            rw [hr] at ih
            exact ⟨ih.1, fun q hq t => Nat.le_trans (ih.2 q hq t) (hρ t)⟩
          | none =>
            simp only
            cases hr : T.references.lookup m with
            | none => simp
            | some refs =>
              simp only
              cases hl : longestReference refs (head :: rest) (rest.length + 1) with
              | none =>
                simp only
                cases hb : T.definitions.lookup builtinsPath with
                | none => simp
                | some bs =>
                  simp only
                  split
                  · simp only [ne_eq, reduceCtorEq, not_false_eq_true, Except.ok.injEq, true_and]
                    rintro q rfl t
                    exact H.builtin m _ hk
                  · simp
              | some kr =>
                obtain ⟨k, rm, ro⟩ := kr
                simp only
                obtain ⟨_, _, hlk, _⟩ := longestReference_some hl
                have hρ := fun t => H.reference m refs _ rm ro t hk hr hlk
                have hρ' := fun t => H.referenceModule m refs _ rm ro t hk hr hlk
                have happ : ∀ t, (head :: rest).take k ++ ((head :: rest).drop k ++ t)
                    = head :: rest ++ t := by
                  intro t
                  rw [← List.append_assoc, List.take_append_drop]
                have hmono : ρ rm ro < ρ m (head :: rest) := by
                  have h1 := hρ ((head :: rest).drop k)
                  rw [List.take_append_drop] at h1
                  have h2 := H.append rm ro ((head :: rest).drop k)
                  omega
                have ih := resolve_ranked H n rm ro (V ++ [m]) (hlt _ _ _ hmono)
                cases hf : resolve T n rm [] ro (V ++ [m]) with
                | ok q' =>
                  obtain ⟨rm', ro'⟩ := q'
                  simp only
                  have hle := ih.2 _ hf
                  have ih2 := resolve_ranked H n rm' (ro' ++ (head :: rest).drop k) (V ++ [m])
                    (hlt _ _ _ (by
                      have h1 := hρ ((head :: rest).drop k)
                      rw [List.take_append_drop] at h1
                      have := hle ((head :: rest).drop k)
                      simp only at this
                      omega))
                  refine ⟨ih2.1, fun q hq t => Nat.le_trans (ih2.2 q hq t) ?_⟩
                  have h1 := hρ ((head :: rest).drop k ++ t)
                  rw [happ] at h1
                  have := hle ((head :: rest).drop k ++ t)
                  simp only [← List.append_assoc] at this h1 ⊢
                  omega
                | error e =>
                  cases e with
                  | objectNotFound =>
                    simp only
                    split
                    · simp
                    · split
                      · simp
                      · have ih2 := resolve_ranked H n (rm ++ ro) ((head :: rest).drop k) (V ++ [m])
                          (hlt _ _ _ (by
                            have h1 := hρ' ((head :: rest).drop k)
                            rwa [List.take_append_drop] at h1))
                        refine ⟨ih2.1, fun q hq t => Nat.le_trans (ih2.2 q hq t) ?_⟩
                        have h1 := hρ' ((head :: rest).drop k ++ t)
                        rw [happ] at h1
                        omega
                  | recursionError => exact absurd hf ih.1
                  | _ => simp

theorem defines_prefix : ∀ {p : Path} {q : Path} {scope : Scope},
    Defines scope (p ++ q) → Defines scope p
  | [], _, _, _ => trivial
  | _ :: _, _, _, ⟨inner, h1, h2⟩ => ⟨inner, h1, defines_prefix h2⟩

/-- One recursion depth for finitely many answers. -/
theorem answers_uniform {α : Type} {T : Tables} {f g : α → Path} {V : List Path}
    {r : Except PyErr QPath} : ∀ {xs : List α},
    (∀ x ∈ xs, Answers T (f x) [] (g x) V r) →
    ∃ n, ∀ x ∈ xs, ∀ k, n ≤ k → resolve T k (f x) [] (g x) V = r
  | [], _ => ⟨0, by simp⟩
  | x :: xs, h => by
    obtain ⟨n, hn⟩ := h x (by simp)
    obtain ⟨n', hn'⟩ := answers_uniform (xs := xs) (fun y hy => h y (by simp [hy]))
    refine ⟨max n n', fun y hy k hk => ?_⟩
    rcases List.mem_cons.1 hy with rfl | hy
    · exact hn k (by omega)
    · exact hn' y hy k (by omega)

/-- A call for an attribute that the class does not define itself. -/
theorem resolve_class {T : Tables} {n : Nat} {m : Path} {head : String} {cls : Path} {attr : String}
    {rest : Path} {visited : List Path}
    (hc : DefinedIn T m (head :: cls)) (ha : ¬ DefinedIn T m (head :: cls ++ [attr])) :
    resolve T (n + 1) m [] (head :: cls ++ attr :: rest) visited =
      match tryEach (fun s : QPath => resolve T n s.1 [] (s.2 ++ attr :: rest) (visited ++ [m]))
          ((T.supers m (head :: cls)).getD []) with
      | some r => r
      | none =>
        if head ≠ "object" then
          resolve T n builtinsPath [] ("object" :: attr :: rest) visited
        else .error .objectNotFound := by
  obtain ⟨scope, hd, inner, h1, h2⟩ := hc
  have h3 : ¬ Defines inner (cls ++ [attr]) := fun h => ha ⟨scope, hd, inner, h1, h⟩
  have hm := missingIndex_defined cls inner 1 attr rest h2 h3
  rw [resolve_succ]
  unfold step
  have e1 : (head :: (cls ++ attr :: rest)).take (1 + cls.length) = head :: cls := by
    rw [Nat.add_comm]; simp
  have e2 : (head :: (cls ++ attr :: rest)).drop (1 + cls.length) = attr :: rest := by
    rw [Nat.add_comm]; simp
  simp only [hd, List.cons_append, scopeContains_nil, Bool.not_true, List.isEmpty_nil,
    Bool.false_and, Bool.false_eq_true, if_false, Scope.get?, h1, hm, e1, e2]
  all_goals rfl

theorem step_no_star {T : Tables} (hT : T.submodules = [])
    {f : Path → Path → List Path → Except PyErr QPath}
    (hf : ∀ m o V V', f m o V = f m o V') (m parent object : Path) (V V' : List Path) :
    step T f m parent object V = step T f m parent object V' := by
  have hs : T.subs m = [] := by simp [Tables.subs, hT]
  unfold step
  rw [hs]
  have hff : ∀ o, (fun s : QPath => f s.1 (s.2 ++ o) (V ++ [m]))
      = (fun s : QPath => f s.1 (s.2 ++ o) (V' ++ [m])) := fun o => funext fun s => hf _ _ _ _
  have h1 : ∀ rm ro, f rm ro (V ++ [m]) = f rm ro (V' ++ [m]) := fun _ _ => hf _ _ _ _
  have h2 : ∀ rm ro, f rm ro V = f rm ro V' := fun _ _ => hf _ _ _ _
  simp only [hff, h1, h2, List.filter_nil]

/-- Without star imports the visited modules do not matter. -/
theorem resolve_no_star {T : Tables} (hT : T.submodules = []) : ∀ (n : Nat) (m parent object : Path)
    (V V' : List Path), resolve T n m parent object V = resolve T n m parent object V'
  | 0, _, _, _, _, _ => rfl
  | n + 1, m, parent, object, V, V' => by
    rw [resolve_succ, resolve_succ]
    exact step_no_star hT (fun m o V V' => resolve_no_star hT n m [] o V V') m parent object V V'

/-! ### The index filter -/

/-- The location resolves. -/
def keeps (T : Tables) (n : Nat) (q : QPath) : Bool :=
  match resolve T n q.1 [] q.2 [] with
  | .ok _ => true
  | .error _ => false

theorem filterExcept_ok {α : Type} {f : α → Except PyErr Bool} {g : α → Bool} : ∀ {xs : List α},
    (∀ x ∈ xs, f x = .ok (g x)) → filterExcept f xs = .ok (xs.filter g)
  | [], _ => rfl
  | x :: xs, h => by
    rw [filterExcept, h x (by simp), filterExcept_ok (fun y hy => h y (by simp [hy]))]
    simp only [List.filter_cons]

/-- Values mapped, empty ones dropped. -/
def keepEntries {κ α β : Type} (f : α → List β) (d : Dict κ α) : Dict κ (List β) :=
  (d.map (fun e => (e.1, f e.2))).filter (fun e => !e.2.isEmpty)

theorem filterEntries_ok {κ α β : Type} {f : α → Except PyErr (List β)} {g : α → List β} :
    ∀ {d : Dict κ α}, (∀ e ∈ d, f e.2 = .ok (g e.2)) → filterEntries f d = .ok (keepEntries g d)
  | [], _ => rfl
  | (k, v) :: d, h => by
    rw [filterEntries, h (k, v) (by simp), filterEntries_ok (fun e he => h e (by simp [he]))]
    simp only [keepEntries, List.map_cons, List.filter_cons]
    cases g v <;> simp

theorem keepEntries_keys {κ α β : Type} (f : α → List β) (d : Dict κ α) :
    List.Sublist ((keepEntries f d).map Prod.fst) (d.map Prod.fst) := by
  have : List.Sublist ((keepEntries f d).map Prod.fst)
      ((d.map (fun e => (e.1, f e.2))).map Prod.fst) := List.filter_sublist.map _
  rwa [List.map_map] at this

theorem keepEntries_mem {κ α β : Type} {f : α → List β} {d : Dict κ α} {e : κ × List β}
    (h : e ∈ keepEntries f d) : ∃ v, e.2 = f v ∧ e.2 ≠ [] := by
  simp only [keepEntries, List.mem_filter, List.mem_map, Bool.not_eq_true',
    List.isEmpty_eq_false_iff] at h
  obtain ⟨⟨e', _, rfl⟩, h⟩ := h
  exact ⟨e'.2, rfl, h⟩

theorem lookup_mem {α β : Type} [BEq α] [LawfulBEq α] {k : α} {v : β} :
    ∀ {d : List (α × β)}, d.lookup k = some v → (k, v) ∈ d
  | [], h => by simp at h
  | (k', v') :: d, h => by
    rw [List.lookup_cons] at h
    split at h
    · rename_i e
      simp only [beq_iff_eq] at e
      simp_all
    · exact List.mem_cons_of_mem _ (lookup_mem h)

theorem lookup_none_of_not_mem {α β : Type} [BEq α] [LawfulBEq α] {k : α} {d : List (α × β)}
    (h : k ∉ d.map Prod.fst) : d.lookup k = none := by
  cases hl : d.lookup k with
  | none => rfl
  | some v => exact absurd (lookup_mem_keys hl) h

theorem keepEntries_lookup {κ α β : Type} [BEq κ] [LawfulBEq κ] {f : List α → List β}
    (hf : f [] = []) {k : κ} : ∀ {d : Dict κ (List α)}, (d.map Prod.fst).Nodup →
    ((keepEntries f d).lookup k).getD [] = f ((d.lookup k).getD [])
  | [], _ => by simp [keepEntries, hf]
  | (k', v) :: d, h => by
    simp only [List.map_cons, List.nodup_cons] at h
    have ih := keepEntries_lookup hf (k := k) h.2
    have hcons : keepEntries f ((k', v) :: d)
        = if (f v).isEmpty then keepEntries f d else (k', f v) :: keepEntries f d := by
      simp only [keepEntries, List.map_cons, List.filter_cons]
      cases f v <;> simp
    rw [hcons, List.lookup_cons]
    by_cases hk : k = k'
    · subst hk
      simp only [beq_self_eq_true, Option.getD_some]
      split
      · rename_i he
        have : k ∉ (keepEntries f d).map Prod.fst :=
          fun hm => h.1 ((keepEntries_keys f d).subset hm)
        rw [lookup_none_of_not_mem this]
        simpa using he.symm
      · simp
    · have hkb : (k == k') = false := by simpa using hk
      simp only [hkb]
      split
      · exact ih
      · rw [List.lookup_cons, hkb]
        exact ih

end Paradigm
