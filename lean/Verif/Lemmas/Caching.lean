import Verif.Lemmas.ReadLocal
import Verif.Spec.Caching

/-!
# Reading a cache file that was cut
-/

namespace Paradigm

open Spec

theorem ReadsAs.rest {t : Text} {v : Data} (h : ReadsAs t v) {u q : Text} (hu : t = u ++ q) {n : Nat}
    {w : Data} {r : Text} (hr : readValue n u = some (w, r)) : r = [] := by
  match r with
  | [] => rfl
  | c :: r =>
    have h1 := (read_local q n (max n t.length) (by omega)).1 u w (c :: r) hr (.inl (.inr (by simp)))
    have h2 := h.2 (max n t.length) [] (by omega) (fun _ _ h => by cases h)
    rw [← hu] at h1
    rw [List.append_nil, h1] at h2
    simp at h2

theorem ReadsAs.whole {t : Text} {v : Data} (h : ReadsAs t v) (hn : NotNumber t) {u q : Text}
    (hu : t = u ++ q) {n : Nat} {w : Data} {r : Text} (hr : readValue n u = some (w, r)) :
    q = [] ∧ w = v := by
  have hn' : NotNumber u := by
    intro c x hx
    exact hn c (x ++ q) (by rw [hu, hx]; rfl)
  have h1 := (read_local q n (max n t.length) (by omega)).1 u w r hr (.inr hn')
  have h2 := h.2 (max n t.length) [] (by omega) (fun _ _ h => by cases h)
  rw [← hu] at h1
  rw [List.append_nil, h1] at h2
  simp only [Option.some.injEq, Prod.mk.injEq, List.append_eq_nil_iff] at h2
  exact ⟨h2.2.2, h2.1⟩

theorem takeWhile_name {name t : Text} (h : ∀ c ∈ name, isNameChar c = true)
    (ht : t = [] ∨ ∃ u, t = ' ' :: u) :
    (name ++ t).takeWhile isNameChar = name ∧ (name ++ t).dropWhile isNameChar = t := by
  induction name with
  | nil =>
    rcases ht with rfl | ⟨u, rfl⟩
    · exact ⟨rfl, rfl⟩
    · exact ⟨rfl, rfl⟩
  | cons c name ih =>
    have := ih fun d hd => h d (List.mem_cons_of_mem _ hd)
    rw [List.cons_append, List.takeWhile_cons, List.dropWhile_cons, h c List.mem_cons_self]
    simp only [if_true, this]
    exact ⟨trivial, trivial⟩

/-- A line that was read completely. -/
theorem runModule_line {harmless : Text → Bool} {name t r : Text} {v : Data} {n : Nat} (hne : name ≠ [])
    (h : ∀ c ∈ name, isNameChar c = true) (ht : ReadsAs t v) :
    runModule harmless (n + 1) (name ++ ' ' :: '=' :: ' ' :: (t ++ '\n' :: r))
      = (runModule harmless n r).map ((name, v) :: ·) := by
  obtain ⟨h1, h2⟩ := takeWhile_name (t := ' ' :: '=' :: ' ' :: (t ++ '\n' :: r)) h (.inr ⟨_, rfl⟩)
  match name, hne, h with
  | c :: name, _, h =>
    rw [List.cons_append] at h1 h2 ⊢
    rw [runModule, if_pos (h c List.mem_cons_self), h2]
    simp only [h1]
    rw [ht.2 _ ('\n' :: r) (by rw [List.length_append]; omega) (noDigit_cons (by decide) _)]
    simp only [if_true]
    cases runModule harmless n r <;> rfl

/-- A line that was cut before its end. -/
theorem runModule_cut {harmless : Text → Bool} {name t p q : Text} {v : Data} {n : Nat}
    (hne : name ≠ []) (h : ∀ c ∈ name, isNameChar c = true) (ht : ReadsAs t v)
    (hp : name ++ ' ' :: '=' :: ' ' :: t = p ++ q) (hn : p.length ≤ n) :
    runModule harmless n p = none ∨ runModule harmless n p = some []
      ∨ ∃ w, runModule harmless n p = some [(name, w)] ∧ (NotNumber t → q = [] ∧ w = v) := by
  match n, p with
  | _, [] => exact .inr (.inl (by rw [runModule]))
  | n + 1, c :: p =>
    have hc : isNameChar c = true := by
      match name, hne, hp with
      | d :: name, _, hp =>
        rw [List.cons_append, List.cons_append, List.cons.injEq] at hp
        exact h c (by rw [hp.1]; exact List.mem_cons_self)
    rw [runModule, if_pos hc]
    rcases List.append_eq_append_iff.1 hp with ⟨a, ha, hb⟩ | ⟨a, ha, hb⟩
    · -- the name is complete
      have hs : a = [] ∨ ∃ u, a = ' ' :: u := by
        cases a with
        | nil => exact .inl rfl
        | cons x a => 
          rw [List.cons_append, List.cons.injEq] at hb
          exact .inr ⟨a, by rw [hb.1]⟩
      obtain ⟨h1, h2⟩ := takeWhile_name h hs
      rw [← ha] at h1 h2
      rw [h1, h2]
      match a, hb with
      | [], _ => simp only; split <;> simp
      | [x], hb =>
        cases hb
        simp only; split <;> simp
      | [x, y], hb =>
        cases hb
        exact .inl rfl
      | x :: y :: z :: u, hb =>
        simp only [List.cons_append, List.cons.injEq] at hb
        obtain ⟨rfl, rfl, rfl, hb⟩ := hb
        simp only
        cases e : readValue u.length u with
        | none => exact .inl rfl
        | some w =>
          obtain ⟨w, r⟩ := w
          have := ht.rest hb e
          subst this
          exact .inr (.inr ⟨w, rfl, fun hnn => ht.whole hnn hb e⟩)
    · -- within the name
      have hc : ∀ x ∈ c :: p, isNameChar x = true := fun x hx => h x (by
        rw [ha]; exact List.mem_append_left _ hx)
      obtain ⟨h1, h2⟩ := takeWhile_name (t := []) hc (.inl rfl)
      rw [List.append_nil] at h1 h2
      rw [h1, h2]
      simp only
      split <;> simp

theorem isNameChar_of_isName {name : Text} (h : IsFieldName name) : ∀ c ∈ name, isNameChar c = true := by
  intro c hc
  unfold isNameChar
  rcases h.2.1 c hc with h | h <;> simp [h]

/-- Fields with the same names and equal values. -/
def SameFields (fs gs : Fields) : Prop := Rel2 (fun f g => f.1 = g.1 ∧ Equal f.2 g.2) fs gs

theorem notNumber_str (printable : Char → Bool) (s : Text) : NotNumber (strRepr printable s) := by
  intro c u h
  unfold strRepr quoteFor at h
  split at h <;> cases h <;> decide

theorem isName_version : IsFieldName versionName := by
  unfold IsFieldName versionName
  decide

/-- Every cut of a saved file: it fails, has no version, or is complete. -/
theorem runModule_take {printable : Char → Bool} {harmless : Text → Bool} {version : Text} :
    ∀ {fields : Fields} {k n : Nat}, (∀ f ∈ fields, IsFieldName f.1) → (∀ f ∈ fields, Proper f.2) →
    versionName ∉ fields.map Prod.fst →
    ((saveText printable (fields ++ [(versionName, .str version)])).take k).length ≤ n →
    runModule harmless n ((saveText printable (fields ++ [(versionName, .str version)])).take k) = none
    ∨ (∃ b, runModule harmless n ((saveText printable (fields ++ [(versionName, .str version)])).take k)
        = some b ∧ versionName ∉ b.map Prod.fst)
    ∨ (∃ b, runModule harmless n ((saveText printable (fields ++ [(versionName, .str version)])).take k)
        = some (b ++ [(versionName, .str version)]) ∧ SameFields fields b
        ∧ (saveText printable (fields ++ [(versionName, .str version)])).length ≤ k + 1)
  | [], k, n, _, _, _, hn => by
    rw [List.nil_append] at hn ⊢
    rw [saveText, saveText] at hn ⊢
    have hr := reads_str printable version
    have e : versionName ++ ' ' :: '=' :: ' ' :: (reprFrom printable 4 0 (.str version) ++ ['\n'])
        = (versionName ++ ' ' :: '=' :: ' ' :: strRepr printable version) ++ ['\n'] := by
      rw [reprFrom]; simp
    rw [e] at hn ⊢
    by_cases hk : (versionName ++ ' ' :: '=' :: ' ' :: strRepr printable version).length < k
    · rw [List.take_of_length_le (by rw [List.length_append]; exact hk)] at hn ⊢
      match n, hn with
      | n + 1, hn =>
        have := runModule_line (harmless := harmless) (n := n) (r := []) isName_version.1
          (isNameChar_of_isName isName_version) hr
        have e' : versionName ++ ' ' :: '=' :: ' ' :: (strRepr printable version ++ ['\n'])
          = (versionName ++ ' ' :: '=' :: ' ' :: strRepr printable version) ++ ['\n'] := by simp
        rw [e'] at this
        right; right
        refine ⟨[], ?_, .nil, ?_⟩
        · rw [this, runModule]; rfl
        · rw [List.length_append]; simp only [List.length_cons, List.length_nil]; omega
    · rw [List.take_append_of_le_length (by omega)] at hn ⊢
      rcases runModule_cut (harmless := harmless) isName_version.1 (isNameChar_of_isName isName_version) hr
        (List.take_append_drop k _).symm hn with h | h | ⟨w, h, hw⟩
      · exact .inl h
      · exact .inr (.inl ⟨[], h, by simp⟩)
      · obtain ⟨h1, rfl⟩ := hw (notNumber_str _ _)
        refine .inr (.inr ⟨[], h, .nil, ?_⟩)
        have := List.drop_eq_nil_iff.1 h1
        rw [List.length_append]
        simp only [List.length_cons, List.length_nil]
        omega
  | (name, v) :: fields, k, n, hN, hP, hV, hn => by
    rw [List.cons_append] at hn ⊢
    rw [saveText] at hn ⊢
    obtain ⟨v', hv, hr⟩ := reads_reprFrom printable 4 v (hP _ List.mem_cons_self) 0
    have hname := hN _ List.mem_cons_self
    have e : ∀ r : Text, name ++ ' ' :: '=' :: ' ' :: (reprFrom printable 4 0 v ++ '\n' :: r)
        = (name ++ ' ' :: '=' :: ' ' :: reprFrom printable 4 0 v) ++ '\n' :: r := by
      intro r; simp
    rw [e] at hn ⊢
    by_cases hk : (name ++ ' ' :: '=' :: ' ' :: reprFrom printable 4 0 v).length < k
    · obtain ⟨j, hj⟩ : ∃ j, k = (name ++ ' ' :: '=' :: ' ' :: reprFrom printable 4 0 v).length + (j + 1) :=
        ⟨k - (name ++ ' ' :: '=' :: ' ' :: reprFrom printable 4 0 v).length - 1, by omega⟩
      rw [hj, List.take_length_add_append, List.take_succ_cons] at hn ⊢
      match n, hn with
      | 0, hn => rw [List.length_append] at hn; simp at hn
      | n + 1, hn =>
        rw [← e, runModule_line hname.1 (isNameChar_of_isName hname) hr]
        have ih := runModule_take (printable := printable) (harmless := harmless) (version := version)
          (fields := fields) (k := j) (n := n) (fun f hf => hN f (List.mem_cons_of_mem _ hf))
          (fun f hf => hP f (List.mem_cons_of_mem _ hf))
          (fun h => hV (List.mem_cons_of_mem _ h)) (by
            rw [List.length_append, List.length_cons] at hn; omega)
        rcases ih with h | ⟨b, h, hb⟩ | ⟨b, h, hb, hl⟩
        · exact .inl (by rw [h]; rfl)
        · refine .inr (.inl ⟨(name, v') :: b, by rw [h]; rfl, ?_⟩)
          simp only [List.map_cons, List.mem_cons, not_or] at hV ⊢
          exact ⟨hV.1, hb⟩
        · refine .inr (.inr ⟨(name, v') :: b, by rw [h]; rfl, .cons ⟨rfl, hv⟩ hb, ?_⟩)
          rw [List.length_append, List.length_cons]; omega
    · rw [List.take_append_of_le_length (by omega)] at hn ⊢
      rcases runModule_cut (harmless := harmless) hname.1 (isNameChar_of_isName hname) hr
        (List.take_append_drop k _).symm hn with h | h | ⟨w, h, hw⟩
      · exact .inl h
      · exact .inr (.inl ⟨[], h, by simp⟩)
      · refine .inr (.inl ⟨_, h, ?_⟩)
        simp only [List.map_cons, List.mem_cons, not_or, List.map_nil] at hV ⊢
        exact ⟨hV.1, by simp⟩

theorem variableOf_none {name : Text} : ∀ {fields : Fields}, name ∉ fields.map Prod.fst →
    variableOf name fields = none
  | [], _ => rfl
  | (n, v) :: fields, h => by
    simp only [List.map_cons, List.mem_cons, not_or] at h
    rw [variableOf, variableOf_none h.2]
    simp only
    rw [if_neg fun e => h.1 e.symm]

theorem variableOf_mem {name : Text} {v : Data} : ∀ {fields : Fields}, (name, v) ∈ fields →
    (fields.map Prod.fst).Nodup → variableOf name fields = some v
  | (n, w) :: fields, h, hn => by
    rw [List.map_cons, List.nodup_cons] at hn
    rw [variableOf]
    rcases List.mem_cons.1 h with h | h
    · cases h
      rw [variableOf_none hn.1]
      simp
    · rw [variableOf_mem h hn.2]

theorem attributes_mem {all : Fields} (hn : (all.map Prod.fst).Nodup) : ∀ {fields : Fields},
    (∀ f ∈ fields, f ∈ all) → attributes all (fields.map Prod.fst) = some (fields.map Prod.snd)
  | [], _ => rfl
  | (n, v) :: fields, h => by
    rw [List.map_cons, attributes, variableOf_mem (h _ List.mem_cons_self) hn,
      attributes_mem hn fun f hf => h f (List.mem_cons_of_mem _ hf)]
    rfl

theorem attributes_none {fields : Fields} {name : Text} (h : variableOf name fields = none) :
    ∀ {names : List Text}, name ∈ names → attributes fields names = none
  | n :: names, hm => by
    rw [attributes]
    rcases List.mem_cons.1 hm with rfl | hm
    · rw [h]
    · rw [attributes_none h hm]
      cases variableOf n fields <;> rfl

theorem attributes_last {fields : Fields} {name : Text} {v : Data} (h : variableOf name fields = some v) :
    ∀ {names : List Text} {values : List Data}, attributes fields (names ++ [name]) = some values →
      values.getLast? = some v
  | [], values, hv => by
    rw [List.nil_append, attributes, h] at hv
    cases hv
    rfl
  | n :: names, values, hv => by
    rw [List.cons_append, attributes] at hv
    cases e : variableOf n fields with
    | none => rw [e] at hv; cases hv
    | some w =>
      rw [e] at hv
      simp only at hv
      cases e' : attributes fields (names ++ [name]) with
      | none => rw [e'] at hv; cases hv
      | some vs =>
        rw [e'] at hv
        cases hv
        have := attributes_last h e'
        rw [List.getLast?_cons, this]
        rfl

theorem variableOf_snoc (name : Text) (v : Data) : ∀ fields : Fields,
    variableOf name (fields ++ [(name, v)]) = some v
  | [] => by simp [variableOf]
  | (n, w) :: fields => by rw [List.cons_append, variableOf, variableOf_snoc name v fields]

theorem SameFields.names {fs gs : Fields} (h : SameFields fs gs) : fs.map Prod.fst = gs.map Prod.fst :=
  (Rel2.map (R := Eq) (f := Prod.fst) (g := Prod.fst) (h.mono fun _ _ _ _ h => h.1)).eq

theorem SameFields.values {fs gs : Fields} (h : SameFields fs gs) :
    Rel2 Equal (fs.map Prod.snd) (gs.map Prod.snd) :=
  Rel2.map (h.mono fun _ _ _ _ h => h.2)

theorem attributes_saved {tables b : Fields} (ht : IsTables tables) (hb : SameFields tables b)
    (v : Data) : attributes (b ++ [(versionName, v)]) (tables.map Prod.fst ++ [versionName])
      = some (b.map Prod.snd ++ [v]) := by
  have h := attributes_mem (all := b ++ [(versionName, v)]) (fields := b ++ [(versionName, v)]) (by
    rw [List.map_append, ← hb.names]
    refine List.nodup_append.2 ⟨ht.distinct, by simp, ?_⟩
    intro a ha c hc e
    simp only [List.map_cons, List.map_nil, List.mem_singleton] at hc
    rw [e, hc] at ha
    exact ht.noVersion ha) (fun _ h => h)
  rw [List.map_append, List.map_append, ← hb.names] at h
  exact h

/-- Loading a cut file. -/
theorem load_take {printable : Char → Bool} {harmless : Text → Bool} {version : Text} {tables : Fields}
    (ht : IsTables tables) (names : List Text) (k : Nat) :
    load harmless (names ++ [versionName])
      (some ((saveText printable (tables ++ [(versionName, .str version)])).take k)) = none
    ∨ ∃ b, load harmless (names ++ [versionName])
      (some ((saveText printable (tables ++ [(versionName, .str version)])).take k))
        = attributes (b ++ [(versionName, .str version)]) (names ++ [versionName])
      ∧ SameFields tables b
      ∧ (saveText printable (tables ++ [(versionName, .str version)])).length ≤ k + 1 := by
  rw [load]
  by_cases hw : withinLimits ((saveText printable (tables ++ [(versionName, .str version)])).take k) = true
  case neg => exact .inl (if_neg hw)
  rw [if_pos hw]
  rcases runModule_take (printable := printable) (harmless := harmless) (version := version) (k := k)
    ht.names ht.proper ht.noVersion (Nat.le_refl _) with h | ⟨b, h, hb⟩ | ⟨b, h, hb, hl⟩
  · exact .inl (by rw [h])
  · exact .inl (by rw [h]; exact attributes_none (variableOf_none hb) (by simp))
  · exact .inr ⟨b, by rw [h], hb, hl⟩

theorem runModule_full {printable : Char → Bool} {harmless : Text → Bool} : ∀ {fields : Fields} {n : Nat},
    (∀ f ∈ fields, IsFieldName f.1) → (∀ f ∈ fields, Proper f.2) → (saveText printable fields).length ≤ n →
    ∃ b, runModule harmless n (saveText printable fields) = some b ∧ SameFields fields b
  | [], n, _, _, _ => ⟨[], by rw [saveText, runModule], .nil⟩
  | (name, v) :: fields, n, hN, hP, hn => by
    rw [saveText] at hn ⊢
    obtain ⟨v', hv, hr⟩ := reads_reprFrom printable 4 v (hP _ List.mem_cons_self) 0
    have hname := hN _ List.mem_cons_self
    match n, hn with
    | 0, hn => rw [List.length_append] at hn; simp at hn
    | n + 1, hn =>
      obtain ⟨b, h1, h2⟩ := runModule_full (printable := printable) (harmless := harmless)
        (fields := fields) (n := n) (fun f hf => hN f (List.mem_cons_of_mem _ hf))
        (fun f hf => hP f (List.mem_cons_of_mem _ hf)) (by
          simp only [List.length_append, List.length_cons] at hn; omega)
      refine ⟨(name, v') :: b, ?_, .cons ⟨rfl, hv⟩ h2⟩
      rw [runModule_line hname.1 (isNameChar_of_isName hname) hr, h1]
      rfl

theorem isVersion_str {version s : Text} (h : isVersion version (.str s) = true) : s = version := by
  unfold isVersion at h
  exact eq_of_beq h

/-- Cached tables that are used come from the same version. -/
theorem cachedTables_take {printable : Char → Bool} {harmless : Text → Bool} {compute : Compute}
    (hc : ∀ v, IsTables (compute v)) {version other : Text} {k : Nat} {tables : List Data}
    (h : cachedTables harmless ((compute version).map Prod.fst) version
      (some ((saveText printable (compute other ++ [(versionName, .str other)])).take k)) = some tables) :
    other = version ∧ Rel2 Equal ((compute version).map Prod.snd) tables := by
  unfold cachedTables at h
  rcases load_take (printable := printable) (harmless := harmless) (version := other) (hc other)
    ((compute version).map Prod.fst) k with h' | ⟨b, h', hb, _⟩
  · rw [h'] at h; cases h
  · rw [h'] at h
    cases e : attributes (b ++ [(versionName, .str other)])
        ((compute version).map Prod.fst ++ [versionName]) with
    | none => rw [e] at h; cases h
    | some values =>
      rw [e] at h
      simp only at h
      rw [attributes_last (variableOf_snoc _ _ _) e] at h
      simp only at h
      split at h
      · rename_i hv
        have := isVersion_str hv
        subst this
        rw [attributes_saved (hc other) hb] at e
        cases e
        cases h
        rw [List.dropLast_concat]
        exact ⟨rfl, hb.values⟩
      · cases h

/-- What the cache file can be. -/
def WrittenBefore (printable : Char → Bool) (compute : Compute) (file : Option Text) : Prop :=
  file = none ∨ ∃ version k,
    file = some ((saveText printable (compute version ++ [(versionName, .str version)])).take k)

theorem written_startUp {printable : Char → Bool} {harmless : Text → Bool} {compute : Compute}
    {file : Option Text} (h : WrittenBefore printable compute file) (main : Bool) (version : Text)
    (stop : SaveEnd) :
    WrittenBefore printable compute (startUp printable harmless compute main version stop file).2 := by
  unfold startUp
  split
  · exact h
  · split
    · cases stop with
      | unopened => exact h
      | written k => exact .inr ⟨version, k, rfl⟩
    · exact h

theorem written_fileAfter {printable : Char → Bool} {harmless : Text → Bool} {compute : Compute} :
    ∀ {starts : List Start} {file : Option Text}, WrittenBefore printable compute file →
      WrittenBefore printable compute (fileAfter printable harmless compute starts file)
  | [], _, h => h
  | s :: _, _, h => by
    rw [fileAfter]
    exact written_fileAfter (written_startUp h s.main s.version s.stop)

theorem cachedTables_written {printable : Char → Bool} {harmless : Text → Bool} {compute : Compute}
    (hc : ∀ v, IsTables (compute v)) {file : Option Text} (hf : WrittenBefore printable compute file)
    {version : Text} {tables : List Data}
    (h : cachedTables harmless ((compute version).map Prod.fst) version file = some tables) :
    Rel2 Equal ((compute version).map Prod.snd) tables := by
  rcases hf with rfl | ⟨other, k, rfl⟩
  · cases h
  · exact (cachedTables_take hc h).2

theorem Spec.Rel2.refl {α : Type} {R : α → α → Prop} : ∀ {xs : List α}, (∀ x ∈ xs, R x x) → Rel2 R xs xs
  | [], _ => .nil
  | x :: _, h => .cons (h x List.mem_cons_self) (Rel2.refl fun y hy => h y (List.mem_cons_of_mem _ hy))

theorem equal_refl : ∀ v : Data, Equal v v :=
  Data.ind (fun _ => .int) (fun _ => .str) (fun _ ih => .tuple (.refl ih)) (fun _ ih => .list (.refl ih))
    (fun _ ih => .set (List.Perm.refl _) (.refl ih))
    (fun es ih => .dict (List.Perm.refl _)
      (.refl fun x hx => by obtain ⟨e, he, rfl⟩ := List.mem_map.1 hx; exact (ih e he).1)
      (.refl fun x hx => by obtain ⟨e, he, rfl⟩ := List.mem_map.1 hx; exact (ih e he).2))

end Paradigm
