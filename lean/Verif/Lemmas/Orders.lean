import Verif.Lemmas.Processable
import Verif.Spec.Orders

/-!
# Lemmas about the order in which sets are visited
-/

namespace Paradigm

open Spec

/-! ### Resolution does not look at the references of `__specializations` -/

/-- If it is in `__specializations`, it is in one of its classes. -/
def Fine (T : Tables) (m path : Path) : Prop :=
  m = specPath → ∃ x rest scope inner, path = x :: rest ∧ T.definitions.lookup specPath = some scope
    ∧ scope.get? x = some inner

/-- `__specializations` is reached by superclasses only. -/
structure Apart (T : Tables) : Prop where
  subs : ∀ m, specPath ∉ T.subs m
  refs : ∀ m, m ≠ specPath → ∀ refs, T.references.lookup m = some refs → ∀ path q,
    refs.lookup path = some q → q.1 ≠ specPath ∧ q.1 ++ q.2 ≠ specPath
  supers : ∀ m path l, T.supers m path = some l → ∀ q ∈ l, Fine T q.1 q.2

theorem tryEach_congr {α β : Type} {f g : α → Except PyErr β} : ∀ {xs : List α},
    (∀ x ∈ xs, f x = g x) → tryEach f xs = tryEach g xs
  | [], _ => rfl
  | x :: xs, h => by
    rw [tryEach, tryEach, h x List.mem_cons_self,
      tryEach_congr fun y hy => h y (List.mem_cons_of_mem _ hy)]

theorem Fine.append {T : Tables} {m path : Path} (h : Fine T m path) (more : Path) :
    Fine T m (path ++ more) := by
  intro e
  obtain ⟨x, rest, scope, inner, rfl, h1, h2⟩ := h e
  exact ⟨x, rest ++ more, scope, inner, rfl, h1, h2⟩

theorem Fine.other {T : Tables} {m path : Path} (h : m ≠ specPath) : Fine T m path := fun e => absurd e h

theorem resolve_apart {T T' : Tables} (hT : Apart T) (hd : T'.definitions = T.definitions)
    (hsub : T'.submodules = T.submodules) (hsup : T'.superclasses = T.superclasses)
    (hr : ∀ m, m ≠ specPath → T'.references.lookup m = T.references.lookup m) :
    ∀ (n : Nat) (m parent object : Path) (visited : List Path), Fine T m object →
      (m = specPath → parent = []) →
      resolve T' n m parent object visited = resolve T n m parent object visited ∧
      ∀ q, resolve T n m parent object visited = .ok q → Fine T q.1 q.2
  | 0, _, _, _, _, _, _ => ⟨rfl, fun _ h => nomatch h⟩
  | n + 1, m, parent, object, visited, hf, hp => by
    have ih := resolve_apart hT hd hsub hsup hr n
    have hsubs : ∀ m, T'.subs m = T.subs m := fun m => by rw [Tables.subs, Tables.subs, hsub]
    have hsupers : ∀ m p, T'.supers m p = T.supers m p := fun m p => by
      rw [Tables.supers, Tables.supers, hsup]
    unfold resolve
    rw [hd]
    cases hdm : T.definitions.lookup m with
    | none => exact ⟨rfl, fun _ h => nomatch h⟩
    | some defs =>
      dsimp only
      cases object with
      | nil =>
        dsimp only
        exact ⟨rfl, fun q h => by cases h; exact hf⟩
      | cons head rest =>
        dsimp only
        split
        · exact ⟨rfl, fun _ h => nomatch h⟩
        · split
          · rename_i hc
            have hne : m ≠ specPath := by
              intro e
              rw [hp e] at hc
              exact absurd hc (by simp)
            exact ih m [] _ visited (.other hne) fun _ => rfl
          · cases hg : defs.get? head with
            | some scope =>
              dsimp only
              cases hmi : missingIndex scope 1 rest with
              | none =>
                dsimp only
                exact ⟨rfl, fun q h => by cases h; exact hf⟩
              | some index =>
                dsimp only
                rw [hsupers]
                have hfine : ∀ s ∈ (T.supers m ((head :: rest).take index)).getD [],
                    Fine T s.1 (s.2 ++ (head :: rest).drop index) := by
                  intro s hs
                  cases hl : T.supers m ((head :: rest).take index) with
                  | none => rw [hl] at hs; cases hs
                  | some l => rw [hl] at hs; exact (hT.supers _ _ _ hl s hs).append _
                rw [tryEach_congr fun s hs => (ih s.1 [] _ (visited ++ [m]) (hfine s hs) fun _ => rfl).1]
                cases ht : tryEach (fun s : QPath => resolve T n s.1 []
                    (s.2 ++ (head :: rest).drop index) (visited ++ [m]))
                    ((T.supers m ((head :: rest).take index)).getD []) with
                | some r =>
                  dsimp only
                  refine ⟨rfl, fun q hq => ?_⟩
                  obtain ⟨s, hs, h1, -⟩ := tryEach_some ht
                  exact (ih s.1 [] _ (visited ++ [m]) (hfine s hs) fun _ => rfl).2 q (h1.trans hq)
                | none =>
                  dsimp only
                  split
                  · exact ih _ _ _ _ (.other (by decide)) fun _ => rfl
                  · exact ⟨rfl, fun _ h => nomatch h⟩
            | none =>
              have hne : m ≠ specPath := by
                intro e
                obtain ⟨x, rest', scope, inner, h1, h2, h3⟩ := hf e
                rw [e, h2] at hdm
                cases hdm
                cases h1
                rw [hg] at h3
                cases h3
              dsimp only
              rw [hsubs]
              have hne' : ∀ s ∈ (T.subs m).filter (fun s => !visited.contains s), s ≠ specPath := by
                intro s hs e
                exact hT.subs m (e ▸ (List.mem_filter.1 hs).1)
              rw [tryEach_congr fun s hs =>
                (ih s [] (head :: rest) (visited ++ [m]) (.other (hne' s hs)) fun _ => rfl).1]
              cases ht : tryEach (fun s => resolve T n s [] (head :: rest) (visited ++ [m]))
                  ((T.subs m).filter (fun s => !visited.contains s)) with
              | some r =>
                dsimp only
                refine ⟨rfl, fun q hq => ?_⟩
                obtain ⟨s, hs, h1, -⟩ := tryEach_some ht
                exact (ih s [] _ (visited ++ [m]) (.other (hne' s hs)) fun _ => rfl).2 q (h1.trans hq)
              | none =>
                dsimp only
                rw [hr m hne]
                cases hrefs : T.references.lookup m with
                | none => exact ⟨rfl, fun _ h => nomatch h⟩
                | some refs =>
                  dsimp only
                  cases hl : longestReference refs (head :: rest) (rest.length + 1) with
                  | some kq =>
                    obtain ⟨k, rm, ro⟩ := kq
                    dsimp only
                    obtain ⟨-, -, hlk, -⟩ := longestReference_some hl
                    obtain ⟨hne1, hne2⟩ := hT.refs m hne refs hrefs _ _ hlk
                    have h1 := ih rm [] ro (visited ++ [m]) (.other hne1) fun _ => rfl
                    rw [h1.1]
                    cases hres : resolve T n rm [] ro (visited ++ [m]) with
                    | ok q =>
                      dsimp only
                      exact ih _ _ _ _ ((h1.2 _ hres).append _) fun _ => rfl
                    | error e =>
                      cases e
                      case objectNotFound =>
                        dsimp only
                        split
                        · exact ⟨rfl, fun _ h => nomatch h⟩
                        · split
                          · exact ⟨rfl, fun _ h => nomatch h⟩
                          · exact ih _ _ _ _ (.other hne2) fun _ => rfl
                      all_goals exact ⟨rfl, fun _ h => nomatch h⟩
                  | none =>
                    dsimp only
                    cases hb : T.definitions.lookup builtinsPath with
                    | none => exact ⟨rfl, fun _ h => nomatch h⟩
                    | some bs =>
                      dsimp only
                      split
                      · exact ⟨rfl, fun q h => by
                          cases h
                          exact .other (show builtinsPath ≠ specPath by decide)⟩
                      · exact ⟨rfl, fun _ h => nomatch h⟩

/-! ### States that differ in the order of references -/

/-- The states are equal, but the references of `__specializations` may be written in another order. -/
structure Twins (s t : ParseState) : Prop where
  rest : t = { s with references := t.references }
  others : ∀ m, m ≠ specPath → t.references.lookup m = s.references.lookup m
  modules : (t.references.lookup specPath).isSome = (s.references.lookup specPath).isSome
  own : ∀ p, ((t.references.lookup specPath).getD []).lookup p =
    ((s.references.lookup specPath).getD []).lookup p

theorem Twins.refl (s : ParseState) : Twins s s := ⟨rfl, fun _ _ => rfl, rfl, fun _ => rfl⟩

theorem Twins.trans {s t u : ParseState} (h : Twins s t) (g : Twins t u) : Twins s u :=
  ⟨by rw [g.rest, h.rest], fun m hm => (g.others m hm).trans (h.others m hm),
    g.modules.trans h.modules, fun p => (g.own p).trans (h.own p)⟩

/-- Changes that do not concern references. -/
theorem Twins.apply {s t : ParseState} (h : Twins s t) {f : ParseState → ParseState}
    (hf : ∀ s r, f { s with references := r } = { f s with references := r })
    (hr : ∀ s, (f s).references = s.references) : Twins (f s) (f t) := by
  refine ⟨?_, fun m hm => ?_, ?_, fun p => ?_⟩
  · rw [hr]
    conv => lhs; rw [h.rest, hf]
  · rw [hr, hr]; exact h.others m hm
  · rw [hr, hr]; exact h.modules
  · rw [hr, hr]; exact h.own p

theorem Twins.setSpecReference {s t : ParseState} (h : Twins s t) (path : Path) (q : QPath) :
    Twins (setSpecReference path q s) (setSpecReference path q t) := by
  refine ⟨?_, fun m hm => ?_, ?_, fun p => ?_⟩
  · show _ = ({ s with references := _ } : ParseState)
    conv => lhs; rw [Paradigm.setSpecReference, h.rest]
    rfl
  · simp only [Paradigm.setSpecReference, lookup_dictUpdate_ne _ _ _ hm]
    exact h.others m hm
  · simp only [Paradigm.setSpecReference, lookup_dictUpdate_self]; rfl
  · simp only [Paradigm.setSpecReference, lookup_dictUpdate_self, Option.getD_some, lookup_dictSet]
    rw [h.own p]

theorem twins_swap (s : ParseState) {p p' : Path} {q q' : QPath} (h : p = p' → q = q') :
    Twins (setSpecReference p q (setSpecReference p' q' s))
      (setSpecReference p' q' (setSpecReference p q s)) := by
  refine ⟨rfl, fun m hm => ?_, ?_, fun x => ?_⟩
  · simp only [setSpecReference, lookup_dictUpdate_ne _ _ _ hm]
  · simp only [setSpecReference, lookup_dictUpdate_self]; rfl
  · simp only [setSpecReference, lookup_dictUpdate_self, Option.getD_some, lookup_dictSet]
    by_cases h1 : x = p
    · by_cases h2 : x = p'
      · have := h (h1.symm.trans h2)
        simp [this, h1, h2]
      · simp [h1, show p ≠ p' from fun e => h2 (h1.trans e)]
    · by_cases h2 : x = p'
      · simp [h2, show p' ≠ p from fun e => h1 (h2.trans e)]
      · simp [h1, h2]

theorem Twins.resolve {s t : ParseState} (h : Twins s t) (hs : Apart s.tables) {n : Nat}
    {m parent object : Path} (hm : m ≠ specPath) :
    Paradigm.resolve t.tables n m parent object [] = Paradigm.resolve s.tables n m parent object [] :=
  (resolve_apart hs (by rw [h.rest]; rfl) (by rw [h.rest]; rfl) (by rw [h.rest]; rfl) h.others n m parent
    object [] (.other hm) fun e => absurd e hm).1

/-! ### Processing bases -/

/-- What holds while bases are processed. -/
structure Ordered (s : ParseState) : Prop where
  apart : Apart s.tables
  bases : ∀ path, s.classesBases.lookup (specPath, path) = none
  generics : ∀ path, s.generics.lookup (specPath, path) = none

/-- The classes of `__specializations` stay. -/
def SpecGrows (s t : ParseState) : Prop := ∀ x, HasSpec s x → HasSpec t x

/-- Both computations end in the same way (unless the first one fails), with tables that differ in the
order of references; `pre` holds before, `post` after. -/
def Concur {α : Type} (pre : ParseState → Prop) (x y : P α) (post : α → ParseState → Prop) : Prop :=
  ∀ s s' a t, Twins s s' → Ordered s → pre s → x s = (.ok a, t) →
    (∃ t', y s' = (.ok a, t') ∧ Twins t t') ∧ Ordered t ∧ SpecGrows s t ∧ post a t

/-- Nothing in particular. -/
def anyState : ParseState → Prop := fun _ => True

/-- Nothing in particular. -/
def anyResult {α : Type} : α → ParseState → Prop := fun _ _ => True

theorem hasSpec_iff {s : ParseState} {x : String} : HasSpec s x ↔ ∃ scope inner,
    s.definitions.lookup specPath = some scope ∧ scope.get? x = some inner := by
  rw [HasSpec]
  cases h : s.definitions.lookup specPath with
  | none => simp [Scope.get?, Scope.entries]
  | some scope =>
    rw [Option.getD_some, Option.isSome_iff_exists]
    exact ⟨fun ⟨i, hi⟩ => ⟨scope, i, rfl, hi⟩, fun ⟨sc, i, e, hi⟩ => ⟨i, by cases e; exact hi⟩⟩

theorem fine_iff {s : ParseState} {m path : Path} : Fine s.tables m path ↔
    (m = specPath → ∃ x rest, path = x :: rest ∧ HasSpec s x) := by
  simp only [Fine, hasSpec_iff]
  constructor
  · intro h e
    obtain ⟨x, rest, scope, inner, h1, h2, h3⟩ := h e
    exact ⟨x, rest, h1, scope, inner, h2, h3⟩
  · intro h e
    obtain ⟨x, rest, h1, scope, inner, h2, h3⟩ := h e
    exact ⟨x, rest, scope, inner, h1, h2, h3⟩

theorem Fine.grows {s t : ParseState} {m path : Path} (h : Fine s.tables m path) (hg : SpecGrows s t) :
    Fine t.tables m path := by
  rw [fine_iff] at h ⊢
  intro e
  obtain ⟨x, rest, h1, h2⟩ := h e
  exact ⟨x, rest, h1, hg x h2⟩

/-- Tables that agree outside `__specializations`. -/
theorem Ordered.step {s t : ParseState} (h : Ordered s) (hg : SpecGrows s t)
    (h1 : t.submodules = s.submodules)
    (h2 : ∀ m, m ≠ specPath → t.references.lookup m = s.references.lookup m)
    (h3 : t.superclasses = s.superclasses) (h4 : t.generics = s.generics)
    (h5 : ∀ path, t.classesBases.lookup (specPath, path) = none) : Ordered t := by
  refine ⟨⟨fun m => ?_, fun m hm refs hr => ?_, fun m path l hl q hq => ?_⟩, h5, fun path => ?_⟩
  · have := h.apart.subs m
    rw [Tables.subs] at this ⊢
    rw [show t.tables.submodules = s.tables.submodules from h1]
    exact this
  · exact h.apart.refs m hm refs ((h2 m hm).symm.trans hr)
  · have hl' : s.tables.supers m path = some l := by
      rw [Tables.supers] at hl ⊢
      rw [← hl, show t.tables.superclasses = s.tables.superclasses from h3]
    exact (h.apart.supers m path l hl' q hq).grows hg
  · rw [h4]; exact h.generics path

namespace Concur

variable {α β : Type} {pre : ParseState → Prop}

theorem bind {x y : P α} {f g : α → P β} {mid : α → ParseState → Prop} {post : β → ParseState → Prop}
    (h : Concur pre x y mid) (hf : ∀ a, Concur (mid a) (f a) (g a) post) :
    Concur pre (x >>= f) (y >>= g) post := by
  intro s s' b t hT hO hp hx
  obtain ⟨a, u, h1, h2⟩ := bind_ok hx
  obtain ⟨⟨u', h3, h4⟩, h5, h6, h7⟩ := h s s' a u hT hO hp h1
  obtain ⟨⟨t', h8, h9⟩, h10, h11, h12⟩ := hf a u u' b t h4 h5 h7 h2
  exact ⟨⟨t', (bind_of_ok h3).trans h8, h9⟩, h10, fun x hx => h11 x (h6 x hx), h12⟩

theorem mono {x y : P α} {post post' : α → ParseState → Prop} {pre' : ParseState → Prop}
    (h : Concur pre x y post) (h1 : ∀ s, pre' s → pre s) (h2 : ∀ a s, post a s → post' a s) :
    Concur pre' x y post' := by
  intro s s' a t hT hO hp hx
  obtain ⟨a1, a2, a3, a4⟩ := h s s' a t hT hO (h1 s hp) hx
  exact ⟨a1, a2, a3, h2 _ _ a4⟩

/-- What only grows may be kept. -/
theorem keep {x y : P α} {post : α → ParseState → Prop} (h : Concur pre x y post)
    {K : ParseState → Prop} (hK : ∀ s t, SpecGrows s t → K s → K t) :
    Concur (fun s => pre s ∧ K s) x y (fun a t => post a t ∧ K t) := by
  intro s s' a t hT hO hp hx
  obtain ⟨a1, a2, a3, a4⟩ := h s s' a t hT hO hp.1 hx
  exact ⟨a1, a2, a3, a4, hK s t a3 hp.2⟩

protected theorem pure (a : α) : Concur pre (pure a) (pure a) (fun b s => b = a ∧ pre s) := by
  intro s s' b t hT hO hp hx
  cases hx
  exact ⟨⟨s', rfl, hT⟩, hO, fun _ h => h, rfl, hp⟩

theorem fail (e : PyErr) (y : P α) {post : α → ParseState → Prop} : Concur pre (P.fail e) y post := by
  intro s s' b t hT hO hp hx
  cases hx

theorem lift (r : Except PyErr α) : Concur pre (P.lift r) (P.lift r) (fun a s => r = .ok a ∧ pre s) := by
  intro s s' a t hT hO hp hx
  obtain ⟨h1, h2⟩ := lift_out hx
  subst h2
  exact ⟨⟨s', lift_of_ok h1 s', hT⟩, hO, fun _ h => h, h1, hp⟩

theorem item {α β : Type} [BEq α] {d : ParseState → Dict α β}
    (hd : ∀ s r, d { s with references := r } = d s) (k : α) :
    Concur pre (P.item d k) (P.item d k) (fun v s => (d s).lookup k = some v ∧ pre s) := by
  intro s s' a t hT hO hp hx
  obtain ⟨h1, h2⟩ := item_out hx
  subst h2
  exact ⟨⟨s', item_ok (by rw [hT.rest, hd]; exact h1), hT⟩, hO, fun _ h => h, h1, hp⟩

theorem resolveNow {n : Nat} {m parent object : Path} (hm : m ≠ specPath) :
    Concur pre (Paradigm.resolveNow n m parent object) (Paradigm.resolveNow n m parent object)
      (fun q s => Fine s.tables q.1 q.2 ∧ pre s) := by
  intro s s' q t hT hO hp hx
  obtain ⟨h1, h2⟩ := resolveNow_out hx
  subst h1
  refine ⟨⟨s', ?_, hT⟩, hO, fun _ h => h, ?_, hp⟩
  · unfold Paradigm.resolveNow
    rw [hT.resolve hO.apart hm, h2]
  · exact (resolve_apart hO.apart rfl rfl rfl (fun _ _ => rfl) n m parent object [] (.other hm)
      fun e => absurd e hm).2 q h2

theorem update {f : ParseState → ParseState}
    (hf : ∀ s r, f { s with references := r } = { f s with references := r })
    (hr : ∀ s, (f s).references = s.references)
    (h : ∀ s, Ordered s → pre s → Ordered (f s) ∧ SpecGrows s (f s)) :
    Concur pre (P.update f) (P.update f) (fun _ t => ∃ s, pre s ∧ t = f s ∧ SpecGrows s t) := by
  intro s s' a t hT hO hp hx
  cases update_ok hx
  exact ⟨⟨f s', rfl, hT.apply hf hr⟩, (h s hO hp).1, (h s hO hp).2, s, hp, rfl, (h s hO hp).2⟩

theorem each {γ : Type} {K : ParseState → Prop} {f g : γ → P Unit} : ∀ (xs : List γ),
    (∀ x ∈ xs, Concur K (f x) (g x) (fun _ => K)) → Concur K (P.each f xs) (P.each g xs) (fun _ => K)
  | [], _ => (Concur.pure ()).mono (fun _ h => h) fun _ _ h => h.2
  | x :: xs, h => (h x List.mem_cons_self).bind fun _ =>
      each xs fun y hy => h y (List.mem_cons_of_mem _ hy)

end Concur

/-! ### Dependencies -/

section

variable {n : Nat} {gm sm : Path} {names : List String} (hgm : gm ≠ specPath) (hsm : sm ≠ specPath)

theorem dependency_module (hgm : gm ≠ specPath) (hsm : sm ≠ specPath) (d : String) :
    (if names.contains d then sm else gm) ≠ specPath := by
  split
  · exact hsm
  · exact hgm

theorem ordered_setSpecReference {s : ParseState} (h : Ordered s) (p : Path) (q : QPath) :
    Ordered (setSpecReference p q s) :=
  h.step (fun _ hx => hx) rfl (fun m hm => by
    simp only [setSpecReference, lookup_dictUpdate_ne _ _ _ hm]) rfl rfl h.bases

include hgm hsm in
theorem registerDependency_agree (d : String) :
    Concur anyState (registerDependency n gm sm names d) (registerDependency n gm sm names d)
      (fun _ => anyState) := by
  unfold registerDependency
  refine (Concur.resolveNow (dependency_module hgm hsm d)).bind fun q => ?_
  split
  · intro s s' a t hT hO hp hx
    cases update_ok hx
    exact ⟨⟨_, rfl, hT.setSpecReference _ _⟩, ordered_setSpecReference hO _ _, fun _ h => h, trivial⟩
  · exact (Concur.pure ()).mono (fun _ h => h) fun _ _ _ => trivial

/-- What registering a dependency changes. -/
def putDependency (d : String) (q : QPath) (s : ParseState) : ParseState :=
  if q.1 ≠ builtinsPath then setSpecReference [d] q s else s

theorem registerDependency_out {d : String} {s t : ParseState}
    (h : registerDependency n gm sm names d s = (.ok (), t)) : ∃ q,
      resolve s.tables n (if names.contains d then sm else gm) [] [d] [] = .ok q ∧
      t = putDependency d q s := by
  unfold registerDependency at h
  obtain ⟨q, u, h1, h2⟩ := bind_ok h
  obtain ⟨rfl, h3⟩ := resolveNow_out h1
  refine ⟨q, h3, ?_⟩
  unfold putDependency
  split at h2
  · rename_i hq
    rw [if_pos hq]
    exact update_ok h2
  · rename_i hq
    rw [if_neg hq]
    cases h2
    rfl

theorem registerDependency_of {d : String} {s : ParseState} {q : QPath}
    (h : resolve s.tables n (if names.contains d then sm else gm) [] [d] [] = .ok q) :
    registerDependency n gm sm names d s = (.ok (), putDependency d q s) := by
  unfold registerDependency putDependency
  have : resolveNow n (if names.contains d then sm else gm) [] [d] s = (.ok q, s) := by
    unfold resolveNow
    rw [h]
  rw [bind_of_ok this]
  split <;> rfl

include hgm hsm in
theorem registerDependency_same {d : String} {s : ParseState} (hs : Ordered s) (x : String) (q : QPath) :
    resolve (putDependency x q s).tables n (if names.contains d then sm else gm) [] [d] []
      = resolve s.tables n (if names.contains d then sm else gm) [] [d] [] := by
  unfold putDependency
  split
  · exact (resolve_apart hs.apart (T' := (setSpecReference [x] q s).tables) rfl rfl rfl (fun m hm => by
      simp only [setSpecReference, ParseState.tables, lookup_dictUpdate_ne _ _ _ hm]) n _ [] [d] []
      (.other (dependency_module hgm hsm d)) fun _ => rfl).1
  · rfl

theorem putDependency_ordered {s : ParseState} (h : Ordered s) (x : String) (q : QPath) :
    Ordered (putDependency x q s) := by
  unfold putDependency
  split
  · exact ordered_setSpecReference h _ _
  · exact h

theorem putDependency_swap (s : ParseState) {x y : String} {q r : QPath} (h : x = y → r = q) :
    Twins (putDependency x r (putDependency y q s)) (putDependency y q (putDependency x r s)) := by
  unfold putDependency
  split
  · split
    · exact twins_swap s fun e => h (by simpa using e)
    · exact .refl _
  · split
    · exact .refl _
    · exact .refl _

include hgm hsm in
theorem dependencies_agree {l l' : List String} (h : l.Perm l') :
    Concur anyState (P.each (registerDependency n gm sm names) l)
      (P.each (registerDependency n gm sm names) l') (fun _ => anyState) := by
  induction h with
  | nil => exact Concur.each [] (by simp)
  | cons d _ ih => exact (registerDependency_agree hgm hsm d).bind fun _ => ih
  | trans _ _ ih1 ih2 =>
    intro s s' a t hT hO hp hx
    obtain ⟨⟨t1, h1, h2⟩, h3, h4, -⟩ := ih1 s s a t (.refl s) hO hp hx
    obtain ⟨⟨t2, h5, h6⟩, -, -, -⟩ := ih2 s s' a t1 hT hO hp h1
    exact ⟨⟨t2, h5, h2.trans h6⟩, h3, h4, trivial⟩
  | swap x y l =>
    have hsame : ∀ l : List String, Concur anyState (P.each (registerDependency n gm sm names) l)
        (P.each (registerDependency n gm sm names) l) (fun _ => anyState) := fun l =>
      Concur.each l fun d _ => registerDependency_agree hgm hsm d
    intro s s' a t hT hO hp hx
    obtain ⟨_, h3, h4, -⟩ := hsame _ s s a t (.refl s) hO hp hx
    obtain ⟨_, u, h1, h2⟩ := bind_ok (x := registerDependency n gm sm names y) hx
    obtain ⟨_, v, h5, h6⟩ := bind_ok (x := registerDependency n gm sm names x) h2
    obtain ⟨q, hq, rfl⟩ := registerDependency_out h1
    obtain ⟨r, hr, rfl⟩ := registerDependency_out h5
    rw [registerDependency_same hgm hsm hO] at hr
    have hxy : x = y → r = q := fun e => by
      subst e
      rw [hq] at hr
      exact (Except.ok.inj hr).symm
    have e1 := registerDependency_of hr
    have e2 : registerDependency n gm sm names y (putDependency x r s)
        = (.ok (), putDependency y q (putDependency x r s)) :=
      registerDependency_of (by rw [registerDependency_same hgm hsm hO]; exact hq)
    obtain ⟨⟨t1, h7, h8⟩, -, -, -⟩ := hsame l _ _ a t (putDependency_swap s hxy)
      (putDependency_ordered (putDependency_ordered hO _ _) _ _) trivial h6
    have h9 : P.each (registerDependency n gm sm names) (x :: y :: l) s = (.ok a, t1) :=
      (bind_of_ok (f := fun _ => P.each (registerDependency n gm sm names) (y :: l)) e1).trans
        ((bind_of_ok (f := fun _ => P.each (registerDependency n gm sm names) l) e2).trans h7)
    obtain ⟨⟨t2, h10, h11⟩, -, -, -⟩ := hsame _ s s' a t1 hT hO trivial h9
    exact ⟨⟨t2, h10, h8.trans h11⟩, h3, h4, trivial⟩

end

/-! ### Classes -/

theorem hasSpec_definitions {s t : ParseState} (h : t.definitions = s.definitions) : SpecGrows s t :=
  fun x hx => by rw [HasSpec] at hx ⊢; rw [h]; exact hx

theorem setSpecScope_grows {f : Scope → Scope}
    (hf : ∀ scope x, (scope.get? x).isSome → ((f scope).get? x).isSome) (s : ParseState) :
    SpecGrows s (setSpecScope f s) := fun x hx => by
  rw [HasSpec] at hx ⊢
  rw [setSpecScope, lookup_dictUpdate_self, Option.getD_some]
  exact hf _ _ hx

theorem add_grows (name : String) (scope : Scope) (x : String) (h : (scope.get? x).isSome) :
    ((scope.add [name]).get? x).isSome := by
  show ((dictSet scope.entries name _).lookup x).isSome
  rw [lookup_dictSet]
  split
  · rfl
  · exact h

theorem mergeAt_grows (entries : List (String × Scope)) (name : String) (scope : Scope) (x : String)
    (h : (scope.get? x).isSome) : ((scope.mergeAt entries [name]).get? x).isSome := by
  show ((dictSet scope.entries name _).lookup x).isSome
  rw [lookup_dictSet]
  split
  · rfl
  · exact h

section

variable {n : Nat} {gm go sm : Path} {name : String} {o o' : SetOrder} (hgm : gm ≠ specPath)
  (hsm : sm ≠ specPath)

theorem setSpecNodes_agree (p : Path) (nodes : List Stmt) :
    Concur anyState (P.update (setSpecNodes p nodes)) (P.update (setSpecNodes p nodes))
      (fun _ => anyState) :=
  (Concur.update (pre := anyState) (f := setSpecNodes p nodes) (fun _ _ => rfl) (fun _ => rfl) fun s hs _ =>
    ⟨hs.step (fun _ h => h) rfl (fun _ _ => rfl) rfl rfl hs.bases, fun _ h => h⟩).mono (fun _ h => h)
      fun _ _ _ => trivial

theorem setSpecKind_agree (p : Path) (kind : NodeKind) :
    Concur anyState (P.update (setSpecKind p kind)) (P.update (setSpecKind p kind))
      (fun _ => anyState) :=
  (Concur.update (pre := anyState) (f := setSpecKind p kind) (fun _ _ => rfl) (fun _ => rfl) fun s hs _ =>
    ⟨hs.step (fun _ h => h) rfl (fun _ _ => rfl) rfl rfl hs.bases, fun _ h => h⟩).mono (fun _ h => h)
      fun _ _ _ => trivial

theorem setSpecScope_agree {f : Scope → Scope}
    (hf : ∀ scope x, (scope.get? x).isSome → ((f scope).get? x).isSome) :
    Concur anyState (P.update (setSpecScope f)) (P.update (setSpecScope f))
      (fun _ => anyState) :=
  (Concur.update (pre := anyState) (f := setSpecScope f) (fun _ _ => rfl) (fun _ => rfl) fun s hs _ =>
    ⟨hs.step (setSpecScope_grows hf s) rfl (fun _ _ => rfl) rfl rfl hs.bases,
      setSpecScope_grows hf s⟩).mono (fun _ h => h) fun _ _ _ => trivial

include hgm hsm in
theorem registerMember_agree {so : Path} {table : Dict Path Expr} {names : List String}
    {nodes : Dict Path (List Stmt)} {x : String} :
    Concur anyState (registerMember o n gm go sm so table names nodes x)
      (registerMember o' n gm go sm so table names nodes x) (fun _ => anyState) := by
  unfold registerMember
  refine (Concur.lift _).bind fun genericNodes => ?_
  refine (Concur.lift _).bind fun newNodes => ?_
  refine ((setSpecNodes_agree _ _).mono (fun _ _ => trivial) fun _ _ h => h).bind fun _ => ?_
  refine (Concur.lift _).bind fun defined => ?_
  refine ((dependencies_agree hgm hsm ((o.order_perm _).trans (o'.order_perm _).symm)).mono
    (fun _ _ => trivial) fun _ _ h => h).bind fun _ => ?_
  refine (Concur.item (fun _ _ => rfl) _).bind fun kinds => ?_
  refine (Concur.lift _).bind fun kind => ?_
  exact (setSpecKind_agree _ _).mono (fun _ _ => trivial) fun _ _ h => h

include hgm hsm in
theorem registerGeneric_agree {params : List Path} {args : List Expr} :
    Concur anyState (registerGeneric o n gm go sm [name] params args)
      (registerGeneric o' n gm go sm [name] params args) (fun _ s => HasSpec s name) := by
  have h : Concur anyState (registerGeneric o n gm go sm [name] params args)
      (registerGeneric o' n gm go sm [name] params args) (fun _ => anyState) := by
    unfold registerGeneric
    refine (setSpecScope_agree (add_grows name)).bind fun _ => ?_
    refine (Concur.item (fun _ _ => rfl) _).bind fun defs => ?_
    cases defs.getPath go with
    | none => exact Concur.fail _ _
    | some scope =>
      dsimp only
      refine ((setSpecScope_agree (mergeAt_grows _ name)).mono (fun _ _ => trivial)
        fun _ _ h => h).bind fun _ => ?_
      refine (Concur.item (fun _ _ => rfl) _).bind fun nodes => ?_
      refine ((setSpecKind_agree _ _).mono (fun _ _ => trivial) fun _ _ h => h).bind fun _ => ?_
      exact Concur.each _ fun x _ => registerMember_agree hgm hsm
  intro s s' a t hT hO hp hx
  obtain ⟨a1, a2, a3, -⟩ := h s s' a t hT hO hp hx
  exact ⟨a1, a2, a3, (HasSpec.registered hgm hx).1⟩

theorem isRegistered_agree : Concur anyState (isRegistered name) (isRegistered name)
    (fun b s => b = true → HasSpec s name) := by
  intro s s' b t hT hO hp hx
  obtain ⟨rfl, hb⟩ := isRegistered_out hx
  refine ⟨⟨s', ?_, hT⟩, hO, fun _ h => h, hb.1⟩
  unfold isRegistered at hx ⊢
  obtain ⟨defs, u, h1, h2⟩ := bind_ok hx
  obtain ⟨h3, rfl⟩ := item_out h1
  cases h2
  rw [bind_of_ok (item_ok (d := ParseState.definitions) (v := defs) (by rw [hT.rest]; exact h3))]
  rfl

end

section

variable {rep : Atom → String} {n : Nat} {cm : Path} {o o' : SetOrder} (hcm : cm ≠ specPath)

/-- A generic class of which the parameters are recorded is not in `__specializations`. -/
theorem Concur.generics {g : QPath} {α : Type} {f f' : List Path → P α} {post : α → ParseState → Prop}
    {pre : ParseState → Prop}
    (h : g.1 ≠ specPath → ∀ params, Concur (fun _ => True) (f params) (f' params) post) :
    Concur pre (P.item ParseState.generics g >>= f) (P.item ParseState.generics g >>= f') post := by
  intro s s' b t hT hO hp hx
  have hg : g.1 ≠ specPath := by
    obtain ⟨params, u, h1, -⟩ := bind_ok hx
    obtain ⟨h2, -⟩ := item_out h1
    intro e
    have := hO.generics g.2
    rw [show (specPath, g.2) = g from by rw [← e]] at this
    rw [this] at h2
    cases h2
  exact ((Concur.item (pre := pre) (fun _ _ => rfl) g).bind fun params =>
    (h hg params).mono (fun _ _ => trivial) fun _ _ h => h) s s' b t hT hO hp hx

theorem setBase_agree {g : QPath} (hg : g.1 ≠ specPath) (i : Nat) (e : Expr) :
    Concur anyState (P.update (setBase g i e)) (P.update (setBase g i e)) (fun _ => anyState) :=
  (Concur.update (pre := anyState) (f := setBase g i e) (fun _ _ => rfl) (fun _ => rfl) fun s hs _ =>
    ⟨hs.step (fun _ h => h) rfl (fun _ _ => rfl) rfl rfl fun path => by
      rw [setBase, lookup_dictUpdate_ne _ _ _ (fun e => hg (congrArg Prod.fst e).symm)]
      exact hs.bases path, fun _ h => h⟩).mono (fun _ h => h) fun _ _ _ => trivial

include hcm in
theorem registerSubscript_agree {generic : QPath} (hg : generic.1 ≠ specPath) {table : Dict Path Expr}
    {i : Nat} {value slice : Expr} {load : Bool} :
    Concur anyState (registerSubscript o rep n generic cm table i value slice load)
      (registerSubscript o' rep n generic cm table i value slice load)
      (fun q s => Fine s.tables q.1 q.2) := by
  unfold registerSubscript
  refine (Concur.lift _).bind fun value => ?_
  refine (Concur.lift _).bind fun slice => ?_
  refine ((setBase_agree hg _ _).mono (fun _ _ => trivial) fun _ _ h => h).bind fun _ => ?_
  refine (Concur.lift _).bind fun name => ?_
  refine (isRegistered_agree.mono (fun _ _ => trivial) fun _ _ h => h).bind fun b => ?_
  have hfine : ∀ s : ParseState, HasSpec s name → Fine s.tables specPath [name] := fun s h =>
    fine_iff.2 fun _ => ⟨name, [], rfl, h⟩
  cases b with
  | true =>
    exact (Concur.pure _).mono (fun _ h => h) fun q s h => by rw [h.1]; exact hfine s (h.2 rfl)
  | false =>
    refine (Concur.lift _).bind fun path => ?_
    refine (Concur.resolveNow hg).bind fun g => ?_
    refine Concur.generics fun hgs params => ?_
    refine ((registerGeneric_agree hgs hcm).mono (fun _ _ => trivial) fun _ _ h => h).bind fun _ => ?_
    exact (Concur.pure _).mono (fun _ h => h) fun q s h => by rw [h.1]; exact hfine s h.2

include hcm in
theorem baseBasePath_agree {generic : QPath} (hg : generic.1 ≠ specPath) {table : Dict Path Expr}
    {b : Expr × Nat} :
    Concur anyState (baseBasePath o rep n generic cm table b) (baseBasePath o' rep n generic cm table b)
      (fun q s => Fine s.tables q.1 q.2) := by
  obtain ⟨e, i⟩ := b
  cases e
  case subscript v w l => exact registerSubscript_agree hcm hg
  all_goals
    exact (Concur.lift _).bind fun path => (Concur.resolveNow hg).mono (fun _ h => h) fun _ _ h => h.1

theorem supersOf_addSuperclass {m m' child path : Path} {q : QPath} {s : ParseState} {l : List QPath}
    (h : (addSuperclass m child q s).tables.supers m' path = some l) :
    s.tables.supers m' path = some l ∨ ∃ old, (old = [] ∨ s.tables.supers m' path = some old) ∧
      l = old ++ [q] := by
  rw [Tables.supers] at h ⊢
  show _ ∨ _
  simp only [addSuperclass, ParseState.tables] at h
  by_cases hm : m' = m
  · subst hm
    rw [lookup_dictUpdate_self, Option.getD_some] at h
    by_cases hc : path = child
    · subst hc
      rw [lookup_dictUpdate_self] at h
      refine .inr ⟨_, ?_, (Option.some.inj h).symm⟩
      cases hl : List.lookup path ((List.lookup m' s.superclasses).getD []) with
      | none => exact .inl rfl
      | some old => exact .inr hl
    · rw [lookup_dictUpdate_ne _ _ _ hc] at h
      exact .inl h
  · rw [lookup_dictUpdate_ne _ _ _ hm] at h
    exact .inl h

theorem addSuperclass_agree (m child : Path) (q : QPath) :
    Concur (fun s => Fine s.tables q.1 q.2) (P.update (addSuperclass m child q))
      (P.update (addSuperclass m child q)) (fun _ => anyState) :=
  (Concur.update (pre := fun s => Fine s.tables q.1 q.2) (f := addSuperclass m child q)
    (fun _ _ => rfl) (fun _ => rfl) fun s hs hq => by
    have hg : SpecGrows s (addSuperclass m child q s) := fun _ h => h
    refine ⟨⟨⟨hs.apart.subs, hs.apart.refs, fun m' path l hl r hr => ?_⟩, hs.bases, hs.generics⟩, hg⟩
    rcases supersOf_addSuperclass hl with hl | ⟨old, hold, rfl⟩
    · exact (hs.apart.supers _ _ _ hl r hr).grows hg
    · rcases List.mem_append.1 hr with hr | hr
      · rcases hold with rfl | hold
        · cases hr
        · exact (hs.apart.supers _ _ _ hold r hr).grows hg
      · rw [List.mem_singleton] at hr
        subst hr
        exact hq.grows hg).mono (fun _ h => h) fun _ _ _ => trivial

include hcm in
theorem registerBaseBase_agree {generic : QPath} (hg : generic.1 ≠ specPath) {name : String}
    {table : Dict Path Expr} {b : Expr × Nat} :
    Concur anyState (registerBaseBase o rep n generic cm name table b)
      (registerBaseBase o' rep n generic cm name table b) (fun _ => anyState) := by
  unfold registerBaseBase
  exact (baseBasePath_agree hcm hg).bind fun q => addSuperclass_agree _ _ _

theorem Concur.state {α : Type} {x y : P α} {pre : ParseState → Prop} {post : α → ParseState → Prop}
    {c : ParseState → Bool} (hc : ∀ s r, c { s with references := r } = c s) {e : PyErr}
    (h : Concur pre x y post) :
    Concur pre (do let s ← P.get; if c s then P.fail e else x) (do let s ← P.get; if c s then P.fail e else y)
      post := by
  intro s s' a t hT hO hp hx
  have hx' : (if c s then P.fail e else x) s = (.ok a, t) := hx
  have hcs : c s' = c s := by rw [hT.rest, hc]
  show (∃ t', (if c s' then P.fail e else y) s' = (.ok a, t') ∧ Twins t t') ∧ _
  rw [hcs]
  cases hb : c s with
  | true => rw [hb] at hx'; cases hx'
  | false =>
    rw [hb] at hx'
    exact h s s' a t hT hO hp hx'

include hcm in
theorem registerNew_agree {name : String} {value slice : Expr} {co : Path} :
    Concur anyState (registerNew o rep n name value slice cm co)
      (registerNew o' rep n name value slice cm co) (fun _ s => HasSpec s name) := by
  unfold registerNew
  refine (Concur.lift _).bind fun path => ?_
  refine (Concur.resolveNow hcm).bind fun g => ?_
  refine Concur.generics fun hgs params => ?_
  refine ((registerGeneric_agree hgs hcm).mono (fun _ _ => trivial) fun _ _ h => h).bind fun _ => ?_
  refine Concur.state (fun _ _ => rfl) ?_
  refine (Concur.item (fun _ _ => rfl) _).bind fun bases => ?_
  refine Concur.mono (Concur.each (K := fun s => HasSpec s name) _ fun b _ => ?_) (fun _ h => h.2) fun _ _ h => h
  exact ((registerBaseBase_agree hcm hgs).keep (K := fun s => HasSpec s name) fun s t hg h => hg _ h).mono
    (fun _ h => ⟨trivial, h⟩) fun _ _ h => h.2

include hcm in
theorem registerBase_agree {base : Expr} {co : Path} :
    Concur anyState (registerBase o rep n base cm co) (registerBase o' rep n base cm co)
      (fun q s => Fine s.tables q.1 q.2) := by
  cases base
  case subscript v w l =>
    unfold registerBase
    refine (Concur.lift _).bind fun name => ?_
    refine (isRegistered_agree.mono (fun _ _ => trivial) fun _ _ h => h).bind fun b => ?_
    have hfine : ∀ s : ParseState, HasSpec s name → Fine s.tables specPath [name] := fun s h =>
      fine_iff.2 fun _ => ⟨name, [], rfl, h⟩
    cases b with
    | true =>
      exact (Concur.pure _).mono (fun _ h => h) fun q s h => by rw [h.1]; exact hfine s (h.2 rfl)
    | false =>
      refine ((registerNew_agree hcm).mono (fun _ _ => trivial) fun _ _ h => h).bind fun _ => ?_
      exact (Concur.pure _).mono (fun _ h => h) fun q s h => by rw [h.1]; exact hfine s h.2
  all_goals
    exact (Concur.lift _).bind fun path => (Concur.resolveNow hcm).mono (fun _ h => h) fun _ _ h => h.1

end

theorem Concur.bases {cls : QPath} {α : Type} {f f' : List Expr → P α} {post : α → ParseState → Prop}
    {pre : ParseState → Prop}
    (h : cls.1 ≠ specPath → ∀ bases, Concur (fun _ => True) (f bases) (f' bases) post) :
    Concur pre (P.item ParseState.classesBases cls >>= f) (P.item ParseState.classesBases cls >>= f') post := by
  intro s s' b t hT hO hp hx
  have hg : cls.1 ≠ specPath := by
    obtain ⟨params, u, h1, -⟩ := bind_ok hx
    obtain ⟨h2, -⟩ := item_out h1
    intro e
    have := hO.bases cls.2
    rw [show (specPath, cls.2) = cls from by rw [← e]] at this
    rw [this] at h2
    cases h2
  exact ((Concur.item (pre := pre) (fun _ _ => rfl) cls).bind fun bases =>
    (h hg bases).mono (fun _ _ => trivial) fun _ _ h => h) s s' b t hT hO hp hx

theorem processBase_agree {o o' : SetOrder} {rep : Atom → String} {n : Nat} {cls : QPath} {i : Nat} :
    Concur anyState (processBase o rep n cls i) (processBase o' rep n cls i) (fun _ => anyState) := by
  unfold processBase
  refine Concur.bases fun hc bases => ?_
  cases bases[i]? with
  | none => exact (Concur.pure _).mono (fun _ h => h) fun _ _ _ => trivial
  | some base =>
    dsimp only
    refine ((registerBase_agree hc).mono (fun _ _ => trivial) fun _ _ h => h).bind fun q => ?_
    exact addSuperclass_agree _ _ _

theorem processClass_agree {o o' : SetOrder} {rep : Atom → String} {n : Nat} {cls : QPath} :
    Concur anyState (processClass o rep n cls) (processClass o' rep n cls) (fun _ => anyState) := by
  unfold processClass
  refine Concur.bases fun hc bases => ?_
  exact (Concur.each _ fun i _ => processBase_agree).mono (fun _ _ => trivial) fun _ _ _ => trivial

theorem processBases_agree {o o' : SetOrder} {rep : Atom → String} {n : Nat} {s t : ParseState}
    (hs : NotImported s) (h : processBases o rep n s = (.ok (), t)) :
    ∃ t', processBases o' rep n s = (.ok (), t') ∧ Twins t t' := by
  unfold processBases at h
  obtain ⟨_, u, h1, h2⟩ := bind_ok h
  have hu : Ordered u := by
    unfold openSpecializations at h1
    obtain ⟨s', _, h3, h4⟩ := bind_ok h1
    cases h3
    split at h4
    · cases h4
    split at h4
    · cases h4
    split at h4
    · cases h4
    split at h4
    · cases h4
    cases h4
    refine ⟨⟨fun m hm => ?_, fun m hm refs hr => ?_, fun m path l hl q hq => ?_⟩, hs.bases, hs.generics⟩
    · rw [Tables.subs] at hm
      cases hl : s.submodules.lookup m with
      | none => simp [ParseState.tables, hl] at hm
      | some subs =>
        simp only [ParseState.tables, hl, Option.getD_some] at hm
        exact hs.submodules m subs hl hm
    · refine hs.references m refs ?_
      simp only [ParseState.tables] at hr
      rwa [lookup_dictSet_ne _ _ hm] at hr
    · refine .other ?_
      rw [Tables.supers] at hl
      cases hc : s.superclasses.lookup m with
      | none => simp [ParseState.tables, hc] at hl
      | some classes =>
        simp only [ParseState.tables, hc, Option.getD_some] at hl
        exact hs.superclasses m classes hc path l hl q hq
  have h5 : P.each (processClass o rep n) (u.classesBases.map Prod.fst) u = (.ok (), t) := h2
  obtain ⟨⟨t', h6, h7⟩, -⟩ := Concur.each (K := anyState) (f := processClass o rep n)
    (g := processClass o' rep n) (u.classesBases.map Prod.fst) (fun c _ => processClass_agree)
    u u () t (.refl u) hu trivial h5
  refine ⟨t', ?_, h7⟩
  unfold processBases
  rw [bind_of_ok h1]
  exact h6

end Paradigm
