import Verif.Lemmas.Specialization
import Verif.Spec.Bases

/-!
# Processing bases that are plain names
-/

namespace Paradigm

open Spec

variable {o : SetOrder}

/-- State after the entries of `__specializations` were made. -/
structure Opened (s u : ParseState) : Prop where
  nodes : u.nodes = dictSet s.nodes specPath []
  kinds : u.kinds = dictSet s.kinds specPath []
  definitions : u.definitions = dictSet s.definitions specPath (.mk [])
  references : u.references = dictSet s.references specPath []
  submodules : u.submodules = s.submodules
  bases : u.classesBases = s.classesBases

theorem Opened.means {n : Nat} {s u : ParseState} {c : QPath} {e : Expr} {q : QPath}
    (h : Opened s u) (hm : BaseMeans n s c e q) :
    ∃ path, toPath e = .ok path ∧ resolve u.tables n c.1 c.2.dropLast path [] = .ok q := by
  obtain ⟨path, h1, h2⟩ := hm
  refine ⟨path, toPath_of_dotted h1, h2 u.tables (fun m (hm : m ≠ specPath) => ?_) (fun m (hm : m ≠ specPath) => ?_) h.submodules⟩
  · show u.definitions.lookup m = _
    rw [h.definitions, lookup_dictSet_ne _ _ hm]
  · show u.references.lookup m = _
    rw [h.references, lookup_dictSet_ne _ _ hm]

theorem registerBase_means (rep : Atom → String) {n : Nat} {s u : ParseState} {c : QPath} {e : Expr}
    {q : QPath} (h : Opened s u) (hm : BaseMeans n s c e q) :
    registerBase o rep n e c.1 c.2 u = (.ok q, u) := by
  obtain ⟨path, h1, h2⟩ := h.means hm
  have key : (do
      let path ← P.lift (toPath e)
      resolveNow n c.1 c.2.dropLast path : P QPath) u = (.ok q, u) := by
    rw [h1]
    show resolveNow n c.1 c.2.dropLast path u = _
    unfold resolveNow
    rw [h2]
  cases e
  case subscript => obtain ⟨p, hp, -⟩ := hm; cases hp
  all_goals exact key

theorem Opened.add {s u : ParseState} (h : Opened s u) (m child : Path) (q : QPath) :
    Opened s (addSuperclass m child q u) :=
  ⟨h.nodes, h.kinds, h.definitions, h.references, h.submodules, h.bases⟩

theorem processBase_means (rep : Atom → String) {n : Nat} {s : ParseState} {c : QPath}
    {bases : List Expr} {mean : Expr → QPath} (hb : s.classesBases.lookup c = some bases)
    (hm : ∀ e ∈ bases, BaseMeans n s c e (mean e)) {i : Nat} {e : Expr} (hi : bases[i]? = some e)
    {u : ParseState} (h : Opened s u) :
    processBase o rep n c i u = (.ok (), addSuperclass c.1 c.2 (mean e) u) := by
  unfold processBase
  rw [bind_of_ok (item_ok (d := ParseState.classesBases) (k := c) (by rw [h.bases]; exact hb))]
  rw [hi]
  show (registerBase o rep n e c.1 c.2 >>= _) u = _
  rw [bind_of_ok (registerBase_means rep h (hm e (List.mem_of_getElem? hi)))]
  rfl

theorem processRange_means (rep : Atom → String) {n : Nat} {s : ParseState} {c : QPath}
    {bases : List Expr} {mean : Expr → QPath} (hb : s.classesBases.lookup c = some bases)
    (hm : ∀ e ∈ bases, BaseMeans n s c e (mean e)) : ∀ (k i : Nat) (u : ParseState),
    i + k = bases.length → Opened s u →
    ∃ t, P.each (processBase o rep n c) (List.range' i k) u = (.ok (), t) ∧ Opened s t
      ∧ ∀ m path, supersAt t m path
        = if m = c.1 ∧ path = c.2 then supersAt u m path ++ (bases.drop i).map mean
          else supersAt u m path
  | 0, i, u, hk, h => by
    refine ⟨u, rfl, h, fun m path => ?_⟩
    rw [List.drop_eq_nil_of_le (by omega)]
    simp
  | k + 1, i, u, hk, h => by
    have hi : i < bases.length := by omega
    have hget : bases[i]? = some bases[i] := List.getElem?_eq_getElem hi
    have h1 := processBase_means (o := o) rep hb hm hget h
    obtain ⟨t, h2, h3, h4⟩ := processRange_means rep hb hm k (i + 1) _ (by omega)
      (h.add c.1 c.2 (mean bases[i]))
    refine ⟨t, ?_, h3, fun m path => ?_⟩
    · rw [List.range'_succ]
      show (processBase o rep n c i >>= fun _ => P.each (processBase o rep n c) _) u = _
      rw [bind_of_ok h1]
      exact h2
    · rw [h4, supersAt_add, List.drop_eq_getElem_cons hi, List.map_cons]
      split
      · rw [List.append_assoc]; rfl
      · rfl

theorem processClasses_means (rep : Atom → String) {n : Nat} {s : ParseState}
    {mean : QPath → Expr → QPath}
    (hm : ∀ c bases, s.classesBases.lookup c = some bases → ∀ e ∈ bases, BaseMeans n s c e (mean c e)) :
    ∀ (cs : List QPath) (u : ParseState), cs.Nodup →
    (∀ c ∈ cs, (s.classesBases.lookup c).isSome) → Opened s u →
    ∃ t, P.each (processClass o rep n) cs u = (.ok (), t) ∧ Opened s t
      ∧ (∀ c ∈ cs, supersAt t c.1 c.2
          = supersAt u c.1 c.2 ++ ((s.classesBases.lookup c).getD []).map (mean c))
      ∧ ∀ c : QPath, c ∉ cs → supersAt t c.1 c.2 = supersAt u c.1 c.2
  | [], u, _, _, h => ⟨u, rfl, h, by simp, fun _ _ => rfl⟩
  | c :: cs, u, hn, hs, h => by
    obtain ⟨bases, hb⟩ := Option.isSome_iff_exists.1 (hs c List.mem_cons_self)
    obtain ⟨v, h1, h2, h3⟩ := processRange_means (o := o) rep hb (hm c bases hb) bases.length 0 u
      (by omega) h
    obtain ⟨t, h4, h7, h5, h6⟩ := processClasses_means rep hm cs v (List.nodup_cons.1 hn).2
      (fun c hc => hs c (List.mem_cons_of_mem _ hc)) h2
    refine ⟨t, ?_, h7, fun d hd => ?_, fun d hd => ?_⟩
    · show (processClass o rep n c >>= fun _ => P.each (processClass o rep n) cs) u = _
      have : processClass o rep n c u = (.ok (), v) := by
        unfold processClass
        rw [bind_of_ok (item_ok (d := ParseState.classesBases) (k := c) (v := bases) (by
          rw [h.bases]; exact hb)), List.range_eq_range']
        exact h1
      rw [bind_of_ok this]
      exact h4
    · by_cases hd' : d ∈ cs
      · rw [h5 d hd', h3, if_neg]
        rintro ⟨e1, e2⟩
        have : d = c := Prod.ext e1 e2
        exact (List.nodup_cons.1 hn).1 (this ▸ hd')
      · rw [h6 d hd']
        obtain rfl : d = c := (List.mem_cons.1 hd).resolve_right hd'
        rw [h3, if_pos ⟨rfl, rfl⟩, hb]
        rfl
    · rw [h6 d fun hc => hd (List.mem_cons_of_mem _ hc), h3, if_neg]
      rintro ⟨e1, e2⟩
      exact hd (by rw [show d = c from Prod.ext e1 e2]; exact List.mem_cons_self)

theorem isSome_of_key {α β : Type} [BEq α] [LawfulBEq α] : ∀ {d : Dict α β} {k : α},
    k ∈ d.map Prod.fst → (d.lookup k).isSome
  | (k', v) :: d, k, h => by
    rw [List.lookup_cons]
    by_cases e : k = k'
    · simp [e]
    · have : (k == k') = false := by simpa using e
      rw [this]
      exact isSome_of_key ((List.mem_cons.1 h).resolve_left e)

theorem mem_of_lookup_some {α β : Type} [BEq α] [LawfulBEq α] : ∀ {d : Dict α β} {k : α} {v : β},
    d.lookup k = some v → (k, v) ∈ d
  | (k', v') :: d, k, v, h => by
    rw [List.lookup_cons] at h
    by_cases e : k = k'
    · subst e
      rw [beq_self_eq_true] at h
      cases h
      exact List.mem_cons_self
    · have : (k == k') = false := by simpa using e
      rw [this] at h
      exact List.mem_cons_of_mem _ (mem_of_lookup_some h)

end Paradigm
