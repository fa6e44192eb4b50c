import Verif.Lemmas.Naming
import Verif.Lemmas.Index
import Verif.Lemmas.Pipeline
import Verif.Lemmas.Superclasses
import Verif.Props.Scoping

/-!
# Lemmas about the index of the library and the places of a callable
-/

namespace Paradigm

open Spec

theorem steps_classes (name : String) : ∀ classes : List String,
    steps (classes.map .cls) name = classes ++ [name]
  | [] => rfl
  | c :: cs => by rw [List.map_cons, steps, steps_classes name cs]; rfl

/-- The keys of the index are distinct. -/
def Keyed (index : Index) : Prop :=
  (index.map Prod.fst).Nodup ∧ ∀ e ∈ index, (e.2.map Prod.fst).Nodup

theorem mem_dictSet {α β : Type} [BEq α] [LawfulBEq α] {k : α} {v : β} : ∀ {d : Dict α β} {e : α × β},
    e ∈ dictSet d k v → e ∈ d ∨ e.2 = v
  | [], e, h => by
    cases List.mem_singleton.1 h
    exact .inr rfl
  | (k', v') :: d, e, h => by
    rw [dictSet] at h
    split at h
    · rcases List.mem_cons.1 h with rfl | h
      · exact .inr rfl
      · exact .inl (List.mem_cons_of_mem _ h)
    · rcases List.mem_cons.1 h with rfl | h
      · exact .inl List.mem_cons_self
      · rcases mem_dictSet h with h | h
        · exact .inl (List.mem_cons_of_mem _ h)
        · exact .inr h

theorem addLocation_keyed {index : Index} (q location : QPath) (h : Keyed index) :
    Keyed (addLocation index q location) := by
  unfold addLocation dictUpdate
  refine ⟨nodup_dictSet _ _ _ h.1, fun e he => ?_⟩
  rcases mem_dictSet he with h1 | h1
  · exact h.2 e h1
  · rw [h1]
    refine nodup_dictSet _ _ _ ?_
    cases hl : index.lookup q.1 with
    | none => exact List.nodup_nil
    | some d => exact h.2 _ (lookup_mem hl)

theorem indexNamespace_keyed {W : World} : ∀ {n : Nat} {m : Path} {ns : Nat} {parent : Path}
    {visited : List Nat} {paths out : Index},
    indexNamespace W n m ns parent visited paths = .ok out → Keyed paths → Keyed out
  | 0, _, _, _, _, _, _, h, _ => by cases h
  | n + 1, m, ns, parent, visited, paths, out, h, hk => by
    rw [indexNamespace] at h
    refine foldExcept_inv (I := Keyed) (fun a _ b r ha hb => ?_) h hk
    unfold indexEntry at ha
    split at ha
    · split at ha
      · cases ha; exact hb
      · split at ha
        · cases ha
        · split at ha
          · cases ha
          · exact indexNamespace_keyed ha (addLocation_keyed _ _ hb)
    · split at ha
      · cases ha
      · split at ha
        · cases ha; exact hb
        · cases ha; exact addLocation_keyed _ _ hb

theorem indexModules_keyed {W : World} {n : Nat} {modules : List Path} {index : Index}
    (h : indexModules W n modules = .ok index) : Keyed index := by
  refine foldExcept_inv (I := Keyed) (fun a _ b r ha hb => ?_) h
    ⟨List.nodup_nil, fun e he => by cases he⟩
  unfold indexModule at ha
  split at ha
  · cases ha; exact hb
  · exact indexNamespace_keyed ha hb

theorem filterExcept_inv {α : Type} {f : α → Except PyErr Bool} : ∀ {xs ys : List α},
    filterExcept f xs = .ok ys → ∀ x ∈ xs, ∃ b, f x = .ok b
  | [], _, _, x, hx => by cases hx
  | y :: ys, zs, h, x, hx => by
    rw [filterExcept] at h
    cases hy : f y with
    | error e => rw [hy] at h; cases h
    | ok b =>
      rw [hy] at h
      dsimp only at h
      cases hr : filterExcept f ys with
      | error e => rw [hr] at h; cases h
      | ok l =>
        rcases List.mem_cons.1 hx with rfl | hx
        · exact ⟨b, hy⟩
        · exact filterExcept_inv hr x hx

theorem filterEntries_inv {κ α β : Type} {f : α → Except PyErr (List β)} : ∀ {d : Dict κ α}
    {out : Dict κ (List β)}, filterEntries f d = .ok out → ∀ e ∈ d, ∃ l, f e.2 = .ok l
  | [], _, _, x, hx => by cases hx
  | (k, v) :: d, out, h, x, hx => by
    rw [filterEntries] at h
    cases hv : f v with
    | error e => rw [hv] at h; cases h
    | ok l =>
      rw [hv] at h
      dsimp only at h
      cases hr : filterEntries f d with
      | error e => rw [hr] at h; cases h
      | ok l' =>
        rcases List.mem_cons.1 hx with rfl | hx
        · exact ⟨l, hv⟩
        · exact filterEntries_inv hr x hx

/-- What is left of an index that could be filtered. -/
theorem supportedPaths_listed {T : Tables} {n : Nat} {index out : Index}
    (h : supportedPaths T n index = .ok out) (hk : Keyed index) (q location : QPath) :
    location ∈ listed out q ↔ location ∈ listed index q ∧
      ∃ r, resolve T n location.1 [] location.2 [] = .ok r := by
  obtain ⟨out', h', hloc, _⟩ := Props.C38_index_filter T n index hk (by
    intro e he e' he' p hp
    obtain ⟨d, hd⟩ := filterEntries_inv h e he
    obtain ⟨l, hl⟩ := filterEntries_inv hd e' he'
    obtain ⟨b, hb⟩ := filterExcept_inv hl p hp
    unfold containsObjectPath at hb
    split at hb
    · rename_i r hr; exact .inl ⟨r, hr⟩
    · rename_i hr; exact .inr hr
    · cases hb)
  rw [h'] at h
  injection h with h
  subst h
  exact (hloc q.1 q.2).2 location

theorem sortedSet_all {l : List QPath} {q : QPath} (hq : q ∈ l) (h : ∀ x ∈ l, x = q) :
    sortedSet l = [q] := by
  have hn := nodup_sortedSet l
  have hm : q ∈ sortedSet l := mem_sortedSet.2 hq
  have ha : ∀ x ∈ sortedSet l, x = q := fun x hx => h x (mem_sortedSet.1 hx)
  match sortedSet l, hn, hm, ha with
  | [x], _, _, ha => rw [ha x (by simp)]
  | x :: y :: r, hn, _, ha =>
    rw [List.nodup_cons] at hn
    exact absurd (by rw [ha x (by simp), ← ha y (by simp)]; simp) hn.1

/-- A callable of which all places lead to one place of the stubs. -/
theorem resolveQualifiedPaths_to {R : Runtime} {f : Fn} {q r : QPath}
    (hq : qualifiedPathFrom f.named = .ok q) (hne : r.1 ≠ [] ∧ r.2 ≠ []) (hin : q ∈ listed R.index q)
    (hhas : R.has f q = true) (hself : R.resolve q.1 [] q.2 = .ok r)
    (hothers : ∀ place ∈ listed R.index q, R.has f place = true →
      R.resolve place.1 [] place.2 = .ok r ∨ R.resolve place.1 [] place.2 = .error .objectNotFound) :
    resolveQualifiedPaths R f = .ok [r] := by
  obtain ⟨places, hp, hpl⟩ : ∃ places, (R.index.lookup q.1).bind (fun objects => objects.lookup q.2) =
      some places ∧ listed R.index q = places := by
    unfold listed at hin ⊢
    cases h1 : R.index.lookup q.1 with
    | none => rw [h1] at hin; cases hin
    | some objects =>
      cases h2 : objects.lookup q.2 with
      | none => simp [h1, h2] at hin
      | some places => exact ⟨places, by simp [h2], by simp [h2]⟩
  rw [hpl] at hin hothers
  have hcand : candidatePaths R f = .ok (places.filter (R.has f)) := by
    unfold candidatePaths
    rw [hq]
    show (match (R.index.lookup q.1).bind (fun objects => objects.lookup q.2) with
      | none => _
      | some paths => _) = _
    rw [hp]
  have hres : ∀ l : List QPath, (∀ x ∈ l, tryResolve R x = .ok r ∨ tryResolve R x = .ok ([], [])) →
      ∃ rs, mapExcept (tryResolve R) l = .ok rs ∧ (∀ y ∈ rs, y = r ∨ y = ([], [])) ∧
        ((∃ x ∈ l, tryResolve R x = .ok r) → r ∈ rs) := by
    intro l
    induction l with
    | nil => exact fun _ => ⟨[], rfl, by simp, by simp⟩
    | cons a l ih =>
      intro h
      obtain ⟨rs, h1, h2, h3⟩ := ih fun x hx => h x (List.mem_cons_of_mem _ hx)
      rcases h a List.mem_cons_self with ha | ha
      · exact ⟨r :: rs, by rw [mapExcept, ha]; simp only [h1], fun y hr => by
          rcases List.mem_cons.1 hr with rfl | hr
          · exact .inl rfl
          · exact h2 y hr, fun _ => List.mem_cons_self⟩
      · refine ⟨([], []) :: rs, by rw [mapExcept, ha]; simp only [h1], fun y hr => ?_, fun hx => ?_⟩
        · rcases List.mem_cons.1 hr with rfl | hr
          · exact .inr rfl
          · exact h2 y hr
        · obtain ⟨x, hx, hxq⟩ := hx
          rcases List.mem_cons.1 hx with rfl | hx
          · rw [ha] at hxq
            injection hxq with hxq
            exact absurd (by rw [← hxq]) hne.1
          · exact List.mem_cons_of_mem _ (h3 ⟨x, hx, hxq⟩)
  obtain ⟨rs, h1, h2, h3⟩ := hres (places.filter (R.has f)) (by
    intro x hx
    obtain ⟨hx1, hx2⟩ := List.mem_filter.1 hx
    unfold tryResolve
    rcases hothers x hx1 hx2 with h | h
    · rw [h]; exact .inl rfl
    · rw [h]; exact .inr rfl)
  have hq' : r ∈ rs := h3 ⟨q, List.mem_filter.2 ⟨hin, hhas⟩, by unfold tryResolve; rw [hself]⟩
  unfold resolveQualifiedPaths
  rw [hcand]
  show (mapExcept (tryResolve R) (places.filter (R.has f)) >>= _) = _
  rw [h1]
  show Except.ok (sortedSet _) = _
  rw [sortedSet_all (q := r)]
  · exact List.mem_filter.2 ⟨hq', by simp [hne.1, hne.2]⟩
  · intro x hx
    obtain ⟨hx1, hx2⟩ := List.mem_filter.1 hx
    rcases h2 x hx1 with h | rfl
    · exact h
    · simp at hx2

/-- A callable that is found at one place of the stubs. -/
theorem resolveQualifiedPaths_one {R : Runtime} {f : Fn} {q : QPath}
    (hq : qualifiedPathFrom f.named = .ok q) (hne : q.1 ≠ [] ∧ q.2 ≠ []) (hin : q ∈ listed R.index q)
    (hhas : R.has f q = true) (hself : R.resolve q.1 [] q.2 = .ok q)
    (hothers : ∀ place ∈ listed R.index q, R.has f place = true →
      R.resolve place.1 [] place.2 = .ok q ∨ R.resolve place.1 [] place.2 = .error .objectNotFound) :
    resolveQualifiedPaths R f = .ok [q] :=
  resolveQualifiedPaths_to hq hne hin hhas hself hothers

/-- A callable that is listed at its own place, of which the stubs know. -/
theorem resolveQualifiedPaths_own {W : World} {n k : Nat} {modules : List Path} {index : Index}
    (h : indexModules W n modules = .ok index) {R : Runtime}
    (hs : supportedPaths R.stubs.toTables k index = .ok R.index) (hd : R.depth ≠ 0) (hk : k ≠ 0)
    {m path : Path} (hm : m ≠ []) {f : Fn} (hq : qualifiedPathFrom f.named = .ok (m, path))
    (hplace : (m, path) ∈ listed index (m, path)) (hhas : R.has f (m, path) = true)
    (hdef : DefinedIn R.stubs.toTables m path)
    (hothers : ∀ place ∈ listed index (m, path), R.has f place = true →
      R.resolve place.1 [] place.2 = .ok (m, path) ∨
        R.resolve place.1 [] place.2 = .error .objectNotFound) :
    resolveQualifiedPaths R f = .ok [(m, path)] := by
  have hres : ∀ j, j ≠ 0 → resolve R.stubs.toTables j m [] path [] = .ok (m, path) := by
    intro j hj
    obtain ⟨i, rfl⟩ : ∃ i, j = i + 1 := ⟨j - 1, by omega⟩
    exact resolve_of_defined hdef i []
  have hin := (supportedPaths_listed hs (indexModules_keyed h) (m, path) (m, path)).2
    ⟨hplace, _, hres k hk⟩
  refine resolveQualifiedPaths_one hq ⟨hm, qualifiedPathFrom_object hq hm⟩ hin hhas (hres _ hd) ?_
  intro place hp hh
  exact hothers place ((supportedPaths_listed hs (indexModules_keyed h) _ _).1 hp).1 hh

end Paradigm
