import Verif.Spec.Text
import Verif.Lemmas.Binding

namespace Paradigm

open Spec Spec.Read

/-! ### Scanning -/

theorem scan_append (s : Scan) (t u : Text) :
    scan s (t ++ u) = (scan s t).bind (fun s' => scan s' u) := by
  induction t generalizing s with
  | nil => rfl
  | cons c t ih =>
    simp only [List.cons_append, scan]
    split
    · rfl
    · exact ih _

theorem parts_scan (s s' : Scan) (cur t r : Text) (h : scan s t = some s') :
    parts s cur (t ++ r) = parts s' (cur ++ t) r := by
  induction t generalizing s cur with
  | nil => simp [scan] at h; simp [h]
  | cons c t ih =>
    rw [scan] at h
    split at h
    · cases h
    · rename_i hc
      have h1 : ¬ (top s && c == ')') = true := by
        intro h1
        apply hc
        simp only [Bool.and_eq_true, beq_iff_eq] at h1
        simp [h1.1, h1.2, isClosing]
      have h2 : ¬ (top s && c == ',') = true := by
        intro h1
        apply hc
        simp only [Bool.and_eq_true, beq_iff_eq] at h1
        simp [h1.1, h1.2]
      rw [List.cons_append, parts, if_neg h1, if_neg h2, ih _ _ h]
      simp

theorem Closed.append {t u : Text} (ht : Closed t) (hu : Closed u) : Closed (t ++ u) := by
  unfold Closed at *
  rw [scan_append, ht]
  exact hu

theorem Closed.nil : Closed [] := rfl

/-- Characters that mean nothing to the scanner. -/
def inert (c : Char) : Bool :=
  !(c == ',' || isClosing c || isOpening c || isQuote c)

theorem closed_of_inert (t : Text) (h : ∀ c ∈ t, inert c = true) : Closed t := by
  unfold Closed
  induction t with
  | nil => rfl
  | cons c t ih =>
    have hc := h c (by simp)
    simp only [inert, Bool.not_eq_true', Bool.or_eq_false_iff] at hc
    rw [scan, if_neg (by simp [hc])]
    have : step start c = start := by simp [step, start, hc]
    rw [this]
    exact ih fun c hc => h c (by simp [hc])

/-- `n` brackets deeper. -/
def deeper (n : Nat) (s : Scan) : Scan := { s with depth := s.depth + n }

theorem scan_deeper (n : Nat) (s s' : Scan) (t : Text) (h : scan s t = some s') :
    scan (deeper n s) t = some (deeper n s') := by
  induction t generalizing s with
  | nil => simp [scan] at h ⊢; simp [h]
  | cons c t ih =>
    rw [scan] at h
    split at h
    · cases h
    · rename_i hc
      rw [scan, if_neg ?_]
      · have : step (deeper n s) c = deeper n (step s c) := by
          unfold step deeper
          cases hq : s.quote with
          | some q => simp only; (repeat' split) <;> simp [hq]
          | none =>
            simp only
            split
            · rfl
            · split
              · simp only [Scan.mk.injEq, and_true, and_self]; omega
              · split
                · rename_i hcl
                  have : ¬ s.depth = 0 := by
                    intro h0
                    apply hc
                    simp [top, hq, h0, hcl]
                  simp only [Scan.mk.injEq, and_true, and_self]; omega
                · simp [hq]
        rw [this]
        exact ih _ h
      · intro h1
        apply hc
        simp only [Bool.and_eq_true, top, deeper, beq_iff_eq, Nat.add_eq_zero_iff] at h1 ⊢
        exact ⟨⟨h1.1.1.1, h1.1.2⟩, h1.2⟩

theorem scan_join_deeper (ts : List Text) (h : ∀ t ∈ ts, Closed t) (n : Nat) :
    scan (deeper (n + 1) start) (join commaSep ts) = some (deeper (n + 1) start) := by
  match ts with
  | [] => rfl
  | [t] => exact scan_deeper _ _ _ _ (h t (by simp))
  | t :: u :: ts =>
    rw [join, scan_append, scan_append, scan_deeper _ _ _ _ (h t (by simp))]
    simp only [Option.bind_some]
    have : scan (deeper (n + 1) start) commaSep = some (deeper (n + 1) start) := by
      simp [scan, commaSep, top, deeper, start, step, isQuote, isOpening, isClosing]
    rw [this]
    exact scan_join_deeper (u :: ts) (fun t ht => h t (by simp [ht])) n
    · intro h; cases h

/-- Bracketed, comma separated closed texts are closed. -/
theorem Closed.bracketed (o c : Char) (ho : isOpening o = true) (hc : isClosing c = true)
    {inner : Text} (h : scan (deeper 1 start) inner = some (deeper 1 start)) :
    Closed (o :: (inner ++ [c])) := by
  unfold Closed
  have hn : (o == ',' || isClosing o) = false ∧ isQuote o = false := by
    unfold isOpening at ho
    simp only [Bool.or_eq_true, beq_iff_eq] at ho
    rcases ho with (rfl | rfl) | rfl <;> decide
  have hn' : isQuote c = false ∧ isOpening c = false := by
    unfold isClosing at hc
    simp only [Bool.or_eq_true, beq_iff_eq] at hc
    rcases hc with (rfl | rfl) | rfl <;> decide
  rw [scan, if_neg (by simp [hn.1])]
  have : step start o = deeper 1 start := by simp [step, start, hn.2, ho, deeper]
  rw [this, scan_append, h]
  simp [scan, top, deeper, start, step, hn', hc]

/-! ### `to_repr` produces closed texts -/

theorem toReprs_eq (rt : Reprs) (xs : List Obj) : toReprs rt xs = xs.map (toRepr rt) := by
  induction xs with
  | nil => simp [toReprs]
  | cons x xs ih => simp [toReprs, ih]

theorem lit_closed (t : String) (h : t.toList.all inert = true) : Closed t.toList :=
  closed_of_inert _ (by simpa using h)

theorem Closed.brackets (o c : Char) (ho : isOpening o = true) (hc : isClosing c = true)
    (ts : List Text) (h : ∀ t ∈ ts, Closed t) : Closed ([o] ++ join commaSep ts ++ [c]) :=
  Closed.bracketed o c ho hc (scan_join_deeper ts h 0)

theorem subscripted_closed (head : Text) (ts : List Text) (hh : Closed head)
    (h : ∀ t ∈ ts, Closed t) : Closed (subscripted head ts) := by
  unfold subscripted
  split
  · exact Closed.append hh (by unfold Closed; decide)
  · have := Closed.append hh (Closed.brackets '[' ']' rfl rfl ts h)
    simpa using this

mutual
/-- Names of `typing` aliases are plain names. -/
def aliasNames : Obj → Bool
  | .alias n _ as => (match n with
      | some n => n.toList.all inert
      | none => true) && aliasNamess as
  | .typeVar _ _ b _ _ cs => aliasNames b && aliasNamess cs
  | .list xs => aliasNamess xs
  | .tuple xs => aliasNamess xs
  | _ => true

def aliasNamess : List Obj → Bool
  | [] => true
  | x :: xs => aliasNames x && aliasNamess xs
end

theorem aliasNamess_iff (l : List Obj) :
    aliasNamess l = true ↔ ∀ x ∈ l, aliasNames x = true := by
  induction l with
  | nil => simp [aliasNamess]
  | cons a l ih => simp [aliasNamess, ih]

theorem clsRepr_closed {rt : Reprs} (h : ReprsOk rt) (i : Ident) : Closed (clsRepr rt i) := by
  unfold clsRepr
  split
  · unfold Closed; decide
  · split
    · unfold Closed; decide
    · split
      · unfold Closed; decide
      · exact h.cls i

theorem originRepr_closed {rt : Reprs} (h : ReprsOk rt) (o : Origin) : Closed (originRepr rt o) := by
  cases o with
  | cls i => exact clsRepr_closed h i
  | form i => exact h.form i

theorem aliasRepr_closed {rt : Reprs} (h : ReprsOk rt) (nm : Option String) (o : Origin)
    (as : List Obj) (texts : List Text)
    (hn : (match nm with
      | some n => n.toList.all inert
      | none => true) = true)
    (hts : ∀ t ∈ texts, Closed t) : Closed (aliasRepr rt nm o as texts) := by
  unfold aliasRepr
  split
  · exact h.other _
  · split
    · split
      · have hg : ∀ i, Closed ((texts).getD i []) := by
          intro i
          rw [List.getD_eq_getElem?_getD]
          cases hi : (texts)[i]? with
          | none => exact Closed.nil
          | some t => exact hts t (List.mem_of_getElem? hi)
        have := Closed.append (lit_closed "typing.Optional" (by simp [inert, isClosing, isOpening, isQuote]))
          (Closed.brackets '[' ']' rfl rfl
            [(texts).getD (if (as.head?.map isNoneType) = some true then 1 else 0) []]
            (by simpa using hg _))
        simpa [join] using this
      · have := Closed.append (originRepr_closed h o) (Closed.brackets '[' ']' rfl rfl _ hts)
        simpa using this
    · split
      · exact subscripted_closed _ _ (originRepr_closed h o) hts
      · refine subscripted_closed _ _ (Closed.append (lit_closed "typing." (by simp [inert, isClosing, isOpening, isQuote]))
          (closed_of_inert _ ?_)) hts
        simpa using hn

theorem typeVar_wrap (L : List Text) (h : ∀ t ∈ L, Closed t) :
    Closed ("typing.TypeVar(".toList ++ join commaSep L ++ [')']) := by
  have := Closed.append (lit_closed "typing.TypeVar"
    (by simp [inert, isClosing, isOpening, isQuote])) (Closed.brackets '(' ')' rfl rfl L h)
  simpa using this

theorem typeVarRepr_closed {rt : Reprs} (h : ReprsOk rt) (nm : String) (b : Obj) (bt : Text)
    (c v : Bool) (cs : List Text) (hb : Closed bt) (hts : ∀ t ∈ cs, Closed t) :
    Closed (typeVarRepr rt nm b bt c v cs) := by
  unfold typeVarRepr
  refine typeVar_wrap _ ?_
  · intro t ht
    simp only [List.mem_append, List.mem_singleton] at ht
    rcases ht with (((ht | ht) | ht) | ht) | ht
    · rw [ht]; exact h.atom _
    · exact hts t ht
    · split at ht
      · simp at ht
      · rw [List.mem_singleton] at ht
        rw [ht]
        exact Closed.append (lit_closed "bound=" (by simp [inert, isClosing, isOpening, isQuote])) hb
    · split at ht
      · rw [List.mem_singleton] at ht
        rw [ht]; exact lit_closed "contravariant=True" (by simp [inert, isClosing, isOpening, isQuote])
      · simp at ht
    · split at ht
      · rw [List.mem_singleton] at ht
        rw [ht]; exact lit_closed "covariant=True" (by simp [inert, isClosing, isOpening, isQuote])
      · simp at ht

/-- `to_repr` produces closed texts when the runtime does. -/
theorem toRepr_closed {rt : Reprs} (h : ReprsOk rt) : ∀ a : Obj, aliasNames a = true →
    Closed (toRepr rt a) := by
  intro a
  induction hs : sizeOf a using Nat.strongRecOn generalizing a with
  | ind n ih =>
    subst hs
    intro ha
    have ihl : ∀ {as : List Obj}, (∀ x ∈ as, sizeOf x < sizeOf a) → aliasNamess as = true →
        ∀ t ∈ toReprs rt as, Closed t := by
      intro as h1 h2 t ht
      rw [toReprs_eq] at ht
      obtain ⟨x, hx, rfl⟩ := List.mem_map.1 ht
      exact ih _ (h1 x hx) x rfl ((aliasNamess_iff _).1 h2 x hx)
    cases a with
    | atom x => rw [toRepr]; exact h.atom _
    | cls i => rw [toRepr]; exact clsRepr_closed h i
    | form i => rw [toRepr]; exact h.form _
    | special i o => rw [toRepr]; exact h.other _
    | pep585 o as => rw [toRepr]; exact h.other _
    | paramSpec => rw [toRepr]; exact h.other _
    | paramArgs => rw [toRepr]; exact h.other _
    | paramKwargs => rw [toRepr]; exact h.other _
    | newType => rw [toRepr]; exact h.other _
    | alias nm o as =>
      simp only [aliasNames, Bool.and_eq_true] at ha
      have hts := ihl (as := as) (fun x hx => by
        have := List.sizeOf_lt_of_mem hx; simp only [Obj.alias.sizeOf_spec]; omega) ha.2
      rw [toRepr]
      exact aliasRepr_closed h nm o as _ ha.1 hts
    | typeVar i nm b c v cs =>
      simp only [aliasNames, Bool.and_eq_true] at ha
      have hts := ihl (as := cs) (fun x hx => by
        have := List.sizeOf_lt_of_mem hx; simp only [Obj.typeVar.sizeOf_spec]; omega) ha.2
      have hb := ih _ (by simp only [Obj.typeVar.sizeOf_spec]; omega) b rfl ha.1
      rw [toRepr]
      exact typeVarRepr_closed h nm b _ c v _ hb hts
    | list xs =>
      have hts := ihl (as := xs) (fun x hx => by
        have := List.sizeOf_lt_of_mem hx; simp only [Obj.list.sizeOf_spec]; omega)
        (by simpa [aliasNames] using ha)
      rw [toRepr]
      exact Closed.brackets '[' ']' rfl rfl _ hts
    | tuple xs =>
      have hts := ihl (as := xs) (fun x hx => by
        have := List.sizeOf_lt_of_mem hx; simp only [Obj.tuple.sizeOf_spec]; omega)
        (by simpa [aliasNames] using ha)
      rw [toRepr]
      unfold tupleRepr
      split
      · rename_i t ht
        have hc : Closed t := hts t (by simp [ht])
        have : scan (deeper 1 start) (t ++ [',']) = some (deeper 1 start) := by
          rw [scan_append, scan_deeper 1 _ _ _ hc]
          rfl
        have := Closed.bracketed '(' ')' rfl rfl this
        simpa using this
      · exact Closed.brackets '(' ')' rfl rfl _ hts

/-! ### Splitting the printed parameters -/

theorem parts_join (ts : List Text) (t cur r : Text) (ht : Closed t) (h : ∀ t ∈ ts, Closed t) :
    parts start cur (join commaSep (t :: ts) ++ ')' :: r)
      = some ((cur ++ t) :: ts.map (fun t => ' ' :: t)) := by
  induction ts generalizing t cur with
  | nil =>
    rw [join, parts_scan _ _ _ _ _ ht]
    simp [parts, top, start]
  | cons u ts ih =>
    rw [join, List.append_assoc, List.append_assoc, parts_scan _ _ _ _ _ ht]
    · rw [show ∀ x, commaSep ++ x = ',' :: ' ' :: x from fun _ => rfl, parts, if_neg (by decide), if_pos (by decide), parts,
        if_neg (by decide), if_neg (by decide)]
      have : step start ' ' = start := by decide
      rw [this, List.nil_append, ih u [' '] (h u (by simp)) (fun t ht => h t (by simp [ht]))]
      simp
    · intro h; cases h

theorem name_inert {n : String} (h : IsName n) : ∀ c ∈ n.toList, inert c = true := by
  intro c hc
  have := h.2 c hc
  simp at this
  simp [inert, isClosing, isOpening, isQuote, this]

/-- The prefix of stars of a printed parameter. -/
def stars (k : Kind) : Text :=
  if k = .variadicPositional then ['*'] else if k = .variadicKeyword then ['*', '*'] else []

/-- What follows the name of a printed parameter. -/
def tailText (rt : Reprs) (p : Param) : Text :=
  ": ".toList ++ toRepr rt p.annotation
    ++ (match p.default? with
        | some d => " = ".toList ++ toRepr rt d
        | none => [])

theorem param_str_eq (rt : Reprs) (p : Param) (hp : ValidParam p) :
    p.str rt = stars p.kind ++ p.name.toList ++ tailText rt p := by
  cases p with
  | required a k n =>
    have : stars k = [] := by unfold stars; rw [if_neg hp.1, if_neg hp.2]
    simp [Param.str, Param.kind, Param.name, Param.annotation, Param.default?, tailText, this]
  | optional a d k n =>
    simp [Param.str, Param.kind, Param.name, Param.annotation, Param.default?, tailText, stars]
    cases d <;> rfl

theorem stars_inert (k : Kind) : ∀ c ∈ stars k, inert c = true := by
  cases k <;> simp [stars] <;> decide

theorem param_str_closed (rt : Reprs) (p : Param) (hp : ValidParam p) (hn : IsName p.name)
    (h : PrintsClosed rt p) : Closed (p.str rt) := by
  rw [param_str_eq rt p hp]
  refine Closed.append (Closed.append (closed_of_inert _ (stars_inert _))
    (closed_of_inert _ (name_inert hn))) ?_
  unfold tailText
  refine Closed.append (Closed.append (lit_closed ": " (by simp [inert, isClosing, isOpening, isQuote])) h.1) ?_
  cases hd : p.default? with
  | none => exact Closed.nil
  | some d => exact Closed.append (lit_closed " = " (by simp [inert, isClosing, isOpening, isQuote])) (h.2 d hd)

/-! ### Reading one part -/

/-- The entry a parameter should be read as. -/
def entryOf (p : Param) : TextEntry :=
  match p.kind with
  | .variadicPositional => .varPositional p.name.toList
  | .variadicKeyword => .varKeyword p.name.toList
  | _ => .plain p.name.toList

theorem nameOf_append (n : String) (h : IsName n) (t : Text) :
    nameOf (n.toList ++ ':' :: t) = n.toList := by
  unfold nameOf
  have hc : ∀ c ∈ n.toList, (c != ':') = true := by
    intro c hc
    have := h.2 c hc
    simp at this
    simp [this]
  rw [List.takeWhile_append_of_pos hc]
  simp

theorem tailText_eq (rt : Reprs) (p : Param) : ∃ t, tailText rt p = ':' :: t := ⟨_, rfl⟩

theorem entry_blank (t : Text) : entry (' ' :: t) = entry t := by
  unfold entry
  rw [List.dropWhile_cons_of_pos (by rfl)]

theorem entry_param (rt : Reprs) (p : Param) (hp : ValidParam p) (hn : IsName p.name) :
    entry (p.str rt) = entryOf p := by
  rw [param_str_eq rt p hp]
  obtain ⟨t, ht⟩ := tailText_eq rt p
  rw [ht]
  obtain ⟨c, n, hcn⟩ : ∃ c n, p.name.toList = c :: n := by
    cases h : p.name.toList with
    | nil => exact absurd h hn.1
    | cons c n => exact ⟨c, n, rfl⟩
  have hname := nameOf_append p.name hn t
  have hc := hn.2 c (by simp [hcn])
  simp at hc
  unfold entryOf
  rw [hcn] at hname ⊢
  have hplain : ∀ k, stars k = [] → entry (stars k ++ (c :: n) ++ ':' :: t) = .plain (c :: n) := by
    intro k hk
    rw [hk]
    unfold entry
    simp only [List.nil_append, List.cons_append]
    rw [List.dropWhile_cons_of_neg (by simp [hc])]
    split
    · rename_i h; simp at h
    · rename_i h; simp at h
    · rename_i h; simp at h; simp [h.1] at hc
    · rename_i h; simp at h; simp [h.1] at hc
    · rw [← hname]; rfl
  cases hk : p.kind with
  | variadicPositional =>
    simp only [stars, if_pos, List.cons_append, List.nil_append]
    unfold entry
    rw [List.dropWhile_cons_of_neg (by decide)]
    split
    · rename_i h; simp at h
    · rename_i h; simp at h
    · rename_i h; simp at h; simp [h.1] at hc
    · rename_i h; simp at h; rw [← h, ← hname]; rfl
    · rename_i h; exact (h _ rfl).elim
  | variadicKeyword =>
    simp only [stars, if_pos, List.cons_append, List.nil_append]
    unfold entry
    simp only [reduceCtorEq, if_false, List.cons_append, List.nil_append]
    rw [List.dropWhile_cons_of_neg (by decide)]
    simp only
    rw [← hname]
    rfl
  | positionalOnly => exact hplain _ rfl
  | positionalOrKeyword => exact hplain _ rfl
  | keywordOnly => exact hplain _ rfl

/-! ### Reading the kinds -/

theorem byKind_concat (ps : List Param) (h : Sorted ps) :
    ps = byKind ps .positionalOnly ++ byKind ps .positionalOrKeyword
      ++ byKind ps .variadicPositional ++ byKind ps .keywordOnly ++ byKind ps .variadicKeyword := by
  induction ps with
  | nil => rfl
  | cons p ps ih =>
    rw [Sorted, List.pairwise_cons] at h
    have ih := ih h.2
    have nil : ∀ k, rank k < rank p.kind → byKind ps k = [] := by
      intro k hk
      unfold byKind
      rw [List.filter_eq_nil_iff]
      intro q hq hqk
      simp only [beq_iff_eq] at hqk
      have := h.1 q hq
      rw [hqk] at this
      omega
    have cons : ∀ k, byKind (p :: ps) k = if p.kind = k then p :: byKind ps k else byKind ps k := by
      intro k
      unfold byKind
      rw [List.filter_cons]
      simp
    simp only [cons]
    cases hk : p.kind
    all_goals
      rw [hk] at nil
      simp only [reduceCtorEq, if_true, if_false]
      conv => lhs; rw [ih]
    · rfl
    · rw [nil .positionalOnly (by decide)]; rfl
    · rw [nil .positionalOnly (by decide), nil .positionalOrKeyword (by decide)]; rfl
    · rw [nil .positionalOnly (by decide), nil .positionalOrKeyword (by decide),
        nil .variadicPositional (by decide)]; rfl
    · rw [nil .positionalOnly (by decide), nil .positionalOrKeyword (by decide),
        nil .variadicPositional (by decide), nil .keywordOnly (by decide)]; rfl

theorem kindsFrom_plain (k : Kind) (ps : List Param) (es : List TextEntry)
    (h : ∀ p ∈ ps, entryOf p = .plain p.name.toList) :
    kindsFrom k (ps.map entryOf ++ es)
      = ps.map (fun p => (p.name.toList, k)) ++ kindsFrom k es := by
  induction ps with
  | nil => rfl
  | cons p ps ih =>
    simp only [List.map_cons, List.cons_append, h p (by simp), kindsFrom]
    rw [ih fun p hp => h p (by simp [hp])]

theorem kindsFrom_varPos (k : Kind) (ps : List Param) (es : List TextEntry)
    (h : ∀ p ∈ ps, p.kind = .variadicPositional) :
    kindsFrom k (ps.map entryOf ++ es)
      = ps.map (fun p => (p.name.toList, p.kind))
        ++ kindsFrom (if ps.isEmpty then k else .keywordOnly) es := by
  induction ps generalizing k with
  | nil => rfl
  | cons p ps ih =>
    have hp := h p (by simp)
    have he : entryOf p = .varPositional p.name.toList := by simp [entryOf, hp]
    simp only [List.map_cons, List.cons_append, he, kindsFrom, hp]
    rw [ih _ fun p hp => h p (by simp [hp])]
    cases ps <;> simp

theorem kindsFrom_varKw (k : Kind) (ps : List Param) (h : ∀ p ∈ ps, p.kind = .variadicKeyword) :
    kindsFrom k (ps.map entryOf) = ps.map (fun p => (p.name.toList, p.kind)) := by
  induction ps with
  | nil => rfl
  | cons p ps ih =>
    have hp := h p (by simp)
    have he : entryOf p = .varKeyword p.name.toList := by simp [entryOf, hp]
    simp only [List.map_cons, he, kindsFrom, hp]
    rw [ih fun p hp => h p (by simp [hp])]

theorem mem_byKind {ps : List Param} {k : Kind} {p : Param} (h : p ∈ byKind ps k) :
    p ∈ ps ∧ p.kind = k := by
  unfold byKind at h
  rw [List.mem_filter] at h
  exact ⟨h.1, by simpa using h.2⟩

theorem map_kind (l : List Param) (k : Kind) (h : ∀ p ∈ l, p.kind = k) :
    l.map (fun p => (p.name.toList, k)) = l.map (fun p => (p.name.toList, p.kind)) :=
  List.map_congr_left fun p hp => by rw [h p hp]

/-- The entries a signature should be read as. -/
def entriesOf (s : PlainSig) : List TextEntry :=
  (byKind s.parameters .positionalOnly).map entryOf
    ++ (if (byKind s.parameters .positionalOnly).isEmpty then [] else [.slash])
    ++ (byKind s.parameters .positionalOrKeyword).map entryOf
    ++ (byKind s.parameters .variadicPositional).map entryOf
    ++ (if !(byKind s.parameters .keywordOnly).isEmpty
          && (byKind s.parameters .variadicPositional).isEmpty then [.star] else [])
    ++ (byKind s.parameters .keywordOnly).map entryOf
    ++ (byKind s.parameters .variadicKeyword).map entryOf

theorem entryOf_not_slash (l : List Param) : ∀ e ∈ l.map entryOf, e.isSlash = false := by
  intro e he
  obtain ⟨p, _, rfl⟩ := List.mem_map.1 he
  unfold entryOf
  split <;> rfl

theorem kindsFrom_rest (s : PlainSig) :
    kindsFrom .positionalOrKeyword ((byKind s.parameters .positionalOrKeyword).map entryOf
      ++ ((byKind s.parameters .variadicPositional).map entryOf
      ++ ((if !(byKind s.parameters .keywordOnly).isEmpty
            && (byKind s.parameters .variadicPositional).isEmpty then [TextEntry.star] else [])
      ++ ((byKind s.parameters .keywordOnly).map entryOf
      ++ (byKind s.parameters .variadicKeyword).map entryOf))))
    = (byKind s.parameters .positionalOrKeyword
        ++ byKind s.parameters .variadicPositional ++ byKind s.parameters .keywordOnly
        ++ byKind s.parameters .variadicKeyword).map (fun p => (p.name.toList, p.kind)) := by
  have hk : ∀ k, ∀ p ∈ byKind s.parameters k, p.kind = k := fun k p hp => (mem_byKind hp).2
  have e1 : ∀ p ∈ byKind s.parameters .positionalOrKeyword, entryOf p = .plain p.name.toList :=
    fun p hp => by simp [entryOf, hk _ p hp]
  have e2 : ∀ p ∈ byKind s.parameters .keywordOnly, entryOf p = .plain p.name.toList :=
    fun p hp => by simp [entryOf, hk _ p hp]
  rw [kindsFrom_plain _ _ _ e1, kindsFrom_varPos _ _ _ (hk _), map_kind _ _ (hk _)]
  simp only [List.map_append, List.append_assoc]
  congr 2
  cases hv : (byKind s.parameters .variadicPositional).isEmpty <;>
    cases ho : (byKind s.parameters .keywordOnly).isEmpty
  · simp only [Bool.not_false, Bool.and_false, Bool.false_eq_true, if_false, List.nil_append]
    rw [kindsFrom_plain _ _ _ e2, kindsFrom_varKw _ _ (hk _), map_kind _ _ (hk _)]
  · simp only [Bool.not_true, Bool.and_false, Bool.false_eq_true, if_false, List.nil_append]
    rw [kindsFrom_plain _ _ _ e2, kindsFrom_varKw _ _ (hk _), map_kind _ _ (hk _)]
  · simp only [Bool.not_false, Bool.and_true, if_true, List.cons_append, List.nil_append,
      kindsFrom]
    rw [kindsFrom_plain _ _ _ e2, kindsFrom_varKw _ _ (hk _), map_kind _ _ (hk _)]
  · simp only [Bool.not_true, Bool.and_true, Bool.false_eq_true, if_false, if_true,
      List.nil_append]
    rw [List.isEmpty_iff.1 ho]
    simp only [List.map_nil, List.nil_append]
    rw [kindsFrom_varKw _ _ (hk _)]

theorem kinds_entriesOf (s : PlainSig) (h : Sorted s.parameters) :
    kinds (entriesOf s) = s.parameters.map (fun p => (p.name.toList, p.kind)) := by
  have hk : ∀ k, ∀ p ∈ byKind s.parameters k, p.kind = k := fun k p hp => (mem_byKind hp).2
  conv => rhs; rw [byKind_concat s.parameters h]
  unfold kinds entriesOf
  simp only [List.append_assoc]
  cases hp : (byKind s.parameters .positionalOnly).isEmpty
  · have hany : ∀ r, ((byKind s.parameters .positionalOnly).map entryOf
        ++ ((if false = true then [] else [TextEntry.slash]) ++ r)).any TextEntry.isSlash = true := by
      intro r
      simp [TextEntry.isSlash]
    rw [if_pos (hany _)]
    have hns : ∀ e ∈ (byKind s.parameters .positionalOnly).map entryOf,
        (fun e : TextEntry => !e.isSlash) e = true := by
      intro e he
      simp [entryOf_not_slash _ e he]
    rw [List.takeWhile_append_of_pos hns, List.dropWhile_append_of_pos hns]
    simp only [Bool.false_eq_true, if_false, List.cons_append, List.nil_append]
    rw [List.takeWhile_cons_of_neg (by simp [TextEntry.isSlash]),
      List.dropWhile_cons_of_neg (by simp [TextEntry.isSlash])]
    have e1 : ∀ p ∈ byKind s.parameters .positionalOnly, entryOf p = .plain p.name.toList :=
      fun p hp => by simp [entryOf, hk _ p hp]
    rw [kindsFrom_plain _ _ _ e1, map_kind _ _ (hk _), kindsFrom, kindsFrom, kindsFrom_rest]
    simp
  · rw [List.isEmpty_iff.1 hp]
    simp only [List.map_nil, List.nil_append, if_true]
    rw [if_neg]
    · rw [kindsFrom_rest]
      simp
    · rw [Bool.not_eq_true, List.any_eq_false]
      intro e he
      simp only [List.mem_append] at he
      have hs := entryOf_not_slash
      rcases he with he | he | he | he | he
      · simp [hs _ e he]
      · simp [hs _ e he]
      · split at he
        · simp at he; simp [he, TextEntry.isSlash]
        · simp at he
      · simp [hs _ e he]
      · simp [hs _ e he]

/-! ### Embedding -/

theorem embeds_weaken (ps : List Text) (pre t : Text) (h : EmbedsInOrder ps t) :
    EmbedsInOrder ps (pre ++ t) := by
  cases ps with
  | nil => trivial
  | cons p ps =>
    obtain ⟨a, b, hab, h⟩ := h
    exact ⟨pre ++ a, b, by simp [hab], h⟩

theorem embeds_suffix (ps : List Text) (t post : Text) (h : EmbedsInOrder ps t) :
    EmbedsInOrder ps (t ++ post) := by
  induction ps generalizing t with
  | nil => trivial
  | cons p ps ih =>
    obtain ⟨a, b, hab, h⟩ := h
    exact ⟨a, b ++ post, by simp [hab], ih _ h⟩

theorem embeds_join (sep : Text) (ps : List Text) : EmbedsInOrder ps (join sep ps) := by
  match ps with
  | [] => trivial
  | [p] => exact ⟨[], [], by simp [join], trivial⟩
  | p :: q :: ps =>
    refine ⟨[], sep ++ join sep (q :: ps), ?_, embeds_weaken _ _ _ (embeds_join sep (q :: ps))⟩
    rw [join]
    · simp
    · intro h; cases h

theorem embeds_sublist (ps qs : List Text) (t : Text) (hs : ps.Sublist qs)
    (h : EmbedsInOrder qs t) : EmbedsInOrder ps t := by
  induction hs generalizing t with
  | slnil => trivial
  | cons q _ ih =>
    obtain ⟨a, b, rfl, h⟩ := h
    exact embeds_weaken _ _ _ (ih _ h)
  | cons_cons q _ ih =>
    obtain ⟨a, b, hab, h⟩ := h
    exact ⟨a, b, hab, ih _ h⟩

end Paradigm
