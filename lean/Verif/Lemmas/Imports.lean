import Verif.Lemmas.Declared
import Verif.Spec.Imports

/-!
# Lemmas about import statements, dotted names and type arguments
-/

namespace Paradigm

open Spec

/-! ### Dotted names -/

theorem splitDots_ne_nil : ∀ cs : List Char, splitDots cs ≠ []
  | [] => by simp [splitDots]
  | c :: cs => by
    rw [splitDots]
    split
    · simp
    · split <;> simp

theorem splitDots_plain : ∀ part : List Char, '.' ∉ part → splitDots part = [part]
  | [], _ => rfl
  | c :: cs, h => by
    rw [List.mem_cons, not_or] at h
    have : (c == '.') = false := by
      simpa using fun e => h.1 e.symm
    rw [splitDots, this, splitDots_plain cs h.2]
    rfl

theorem splitDots_append : ∀ (part rest : List Char), '.' ∉ part →
    splitDots (part ++ '.' :: rest) = part :: splitDots rest
  | [], rest, _ => by rw [List.nil_append, splitDots]; rfl
  | c :: cs, rest, h => by
    rw [List.mem_cons, not_or] at h
    have : (c == '.') = false := by
      simpa using fun e => h.1 e.symm
    rw [List.cons_append, splitDots, this, splitDots_append cs rest h.2]
    rfl

theorem splitDots_join : ∀ parts : List (List Char), parts ≠ [] → (∀ p ∈ parts, '.' ∉ p) →
    splitDots (['.'].intercalate parts) = parts
  | [], h, _ => absurd rfl h
  | [p], _, h => by
    have : ['.'].intercalate [p] = p := by simp [List.intercalate]
    rw [this, splitDots_plain p (h p List.mem_cons_self)]
  | p :: q :: ps, _, h => by
    have : ['.'].intercalate (p :: q :: ps) = p ++ '.' :: ['.'].intercalate (q :: ps) := by
      simp [List.intercalate]
    rw [this, splitDots_append p _ (h p List.mem_cons_self),
      splitDots_join (q :: ps) (by simp) fun x hx => h x (List.mem_cons_of_mem _ hx)]

theorem join_splitDots : ∀ cs : List Char, ['.'].intercalate (splitDots cs) = cs
  | [] => rfl
  | c :: cs => by
    have ih := join_splitDots cs
    rw [splitDots]
    by_cases h : (c == '.') = true
    · rw [if_pos h]
      have : c = '.' := by simpa using h
      subst this
      cases hs : splitDots cs with
      | nil => exact absurd hs (splitDots_ne_nil cs)
      | cons p ps =>
        rw [hs] at ih
        have : ['.'].intercalate ([] :: p :: ps) = '.' :: ['.'].intercalate (p :: ps) := by
          simp [List.intercalate]
        rw [this, ih]
    · rw [if_neg h]
      cases hs : splitDots cs with
      | nil => exact absurd hs (splitDots_ne_nil cs)
      | cons p ps =>
        rw [hs] at ih
        simp only []
        cases ps with
        | nil => simp [List.intercalate] at ih ⊢; exact ih
        | cons q qs => simp [List.intercalate] at ih ⊢; exact ih

theorem splitDots_parts : ∀ cs : List Char, ∀ p ∈ splitDots cs, '.' ∉ p
  | [], p, hp => by simp [splitDots] at hp; simp [hp]
  | c :: cs, p, hp => by
    have ih := splitDots_parts cs
    rw [splitDots] at hp
    by_cases h : (c == '.') = true
    · rw [if_pos h] at hp
      rcases List.mem_cons.1 hp with rfl | hp
      · simp
      · exact ih p hp
    · rw [if_neg h] at hp
      have hc : '.' ≠ c := fun e => h (by simp [← e])
      cases hs : splitDots cs with
      | nil => exact absurd hs (splitDots_ne_nil cs)
      | cons q qs =>
        rw [hs] at hp ih
        simp only [] at hp
        rcases List.mem_cons.1 hp with rfl | hp
        · rw [List.mem_cons, not_or]
          exact ⟨hc, ih q List.mem_cons_self⟩
        · exact ih p (List.mem_cons_of_mem _ hp)

theorem pathFromString_eq {name : String} {parts : Path} (h : Names name parts) :
    pathFromString name = parts := by
  obtain ⟨hne, hdots, hname⟩ := h
  unfold pathFromString
  rw [hname, splitDots_join _ (by simpa using hne)
    (by intro p hp; obtain ⟨x, hx, rfl⟩ := List.mem_map.1 hp; exact hdots x hx), List.map_map]
  have : (String.ofList ∘ String.toList) = id := by
    funext x; simp
  rw [this, List.map_id]

theorem names_pathFromString (name : String) : Names name (pathFromString name) := by
  unfold pathFromString
  refine ⟨by simpa using splitDots_ne_nil name.toList, ?_, ?_⟩
  · intro p hp
    obtain ⟨x, hx, rfl⟩ := List.mem_map.1 hp
    rw [String.toList_ofList]
    exact splitDots_parts _ x hx
  · rw [List.map_map]
    have : (String.toList ∘ String.ofList) = id := by
      funext x; simp
    rw [this, List.map_id, join_splitDots]

/-! ### References -/

theorem referenceAt_addReference (c : Place) (path : Path) (q : QPath) (s : ParseState) (p : Path) :
    referenceAt (addReference c path q s) c.module p
      = if p = path then some q else referenceAt s c.module p := by
  unfold referenceAt
  simp only [addReference, lookup_dictUpdate_self, Option.getD_some]
  rw [lookup_dictSet]
  by_cases e : p = path <;> simp [e]

theorem each_references (c : Place) : ∀ (bs : List (Path × QPath)) (s : ParseState) (p : Path),
    referenceAt (P.each (fun b : Path × QPath => P.update (addReference c b.1 b.2)) bs s).2 c.module p
      = ((bs.filter (fun b => b.1 == p)).getLast?.map Prod.snd).or (referenceAt s c.module p)
  | [], _, _ => rfl
  | b :: bs, s, p => by
    show referenceAt (P.each _ bs (addReference c b.1 b.2 s)).2 c.module p = _
    rw [each_references c bs, referenceAt_addReference]
    by_cases e : p = b.1
    · subst e
      have : ((b :: bs).filter (fun x => x.1 == b.1)) = b :: bs.filter (fun x => x.1 == b.1) := by
        simp
      rw [this, List.getLast?_cons, if_pos rfl]
      cases (bs.filter (fun x => x.1 == b.1)).getLast? <;> rfl
    · have : ((b :: bs).filter (fun x => x.1 == p)) = bs.filter (fun x => x.1 == p) := by
        have : (b.1 == p) = false := by simpa using fun h => e h.symm
        simp [this]
      rw [this, if_neg e]

theorem filter_range_take (parts p : Path) :
    ((((List.range parts.length).map (fun i => (parts.take (i + 1), parts.take (i + 1), ([] : Path)))).filter
      (fun b : Path × QPath => b.1 == p)).getLast?.map Prod.snd)
      = if p ≠ [] ∧ p <+: parts then some (p, []) else none := by
  have mem : ∀ b : Path × QPath, b ∈ ((List.range parts.length).map
      (fun i => (parts.take (i + 1), parts.take (i + 1), ([] : Path)))).filter (fun b => b.1 == p) →
      b = (p, p, []) ∧ p ≠ [] ∧ p <+: parts := by
    intro b hb
    obtain ⟨hb, he⟩ := List.mem_filter.1 hb
    obtain ⟨i, hi, rfl⟩ := List.mem_map.1 hb
    have hi : i < parts.length := List.mem_range.1 hi
    have he : parts.take (i + 1) = p := by simpa using he
    subst he
    refine ⟨rfl, ?_, List.take_prefix _ _⟩
    intro h
    have := congrArg List.length h
    rw [List.length_take, List.length_nil] at this
    omega
  by_cases h : p ≠ [] ∧ p <+: parts
  · rw [if_pos h]
    have hlen : 0 < p.length := List.length_pos_iff.2 h.1
    have hle := h.2.length_le
    have hin : (p, p, ([] : Path)) ∈ ((List.range parts.length).map
        (fun i => (parts.take (i + 1), parts.take (i + 1), ([] : Path)))).filter
        (fun b => b.1 == p) := by
      rw [List.mem_filter]
      refine ⟨List.mem_map.2 ⟨p.length - 1, List.mem_range.2 (by omega), ?_⟩, by simp⟩
      have : p.length - 1 + 1 = p.length := by omega
      rw [this, ← List.prefix_iff_eq_take.1 h.2]
    cases hl : (((List.range parts.length).map
        (fun i => (parts.take (i + 1), parts.take (i + 1), ([] : Path)))).filter
        (fun b : Path × QPath => b.1 == p)).getLast? with
    | none => rw [List.getLast?_eq_none_iff] at hl; rw [hl] at hin; cases hin
    | some b =>
      rw [(mem b (List.mem_of_getLast? hl)).1]
      rfl
  · rw [if_neg h]
    cases hl : (((List.range parts.length).map
        (fun i => (parts.take (i + 1), parts.take (i + 1), ([] : Path)))).filter
        (fun b : Path × QPath => b.1 == p)).getLast? with
    | none => rfl
    | some b => exact absurd (mem b (List.mem_of_getLast? hl)).2 h

theorem importBindings_last {name : String} {asname : Option String} {parts : Path}
    (h : Names name parts) (p : Path) :
    (((importBindings pathFromString ⟨name, asname⟩).filter (fun b => b.1 == p)).getLast?.map
      Prod.snd) = importBinds parts asname p := by
  unfold importBindings importBinds
  rw [pathFromString_eq h]
  cases asname with
  | none => exact filter_range_take parts p
  | some n =>
    by_cases e : p = [n]
    · subst e; simp
    · have : ([n] == p) = false := by simpa using fun h => e h.symm
      simp [e, this]

theorem each_ref_last {α : Type} (c : Place) (p : Path) {f : α → P Unit} {binds : α → Option QPath} :
    ∀ (as : List α), (∀ a ∈ as, ∀ s, referenceAt (f a s).2 c.module p
        = (binds a).or (referenceAt s c.module p)) →
    ∀ s t, P.each f as s = (.ok (), t) →
      referenceAt t c.module p = (lastBinding binds as).or (referenceAt s c.module p)
  | [], _, s, t, h => by
    cases congrArg Prod.snd h
    rfl
  | a :: as, hf, s, t, h => by
    obtain ⟨u, h1, h2⟩ := each_cons_ok h
    rw [each_ref_last c p as (fun x hx => hf x (List.mem_cons_of_mem _ hx)) u t h2]
    have := hf a List.mem_cons_self s
    rw [h1] at this
    simp only at this
    rw [this, lastBinding, Option.or_assoc]

/-! ### Relative imports -/

theorem parentPath_legal (isPackage : Path → Bool) (name m : Path) (level : Nat) (hl : level ≠ 0)
    (r : Path) (h : resolveName (isPackage m) m level name = some r) :
    toParentModulePath isPackage (some name) level m = .ok r := by
  unfold resolveName at h
  unfold toParentModulePath
  rw [if_neg hl]
  cases hp : isPackage m with
  | true =>
    rw [hp] at h
    simp only [if_true] at h ⊢
    split at h
    · cases h
    · rename_i hlt
      have hr : r = m.take (m.length - (level - 1)) ++ name := by injection h with h; exact h.symm
      have h1 : ¬ ((m.length : Int) + 1 - level = 0) := by omega
      have h2 : (0 : Int) < (m.length : Int) + 1 - level := by omega
      have h3 : ((m.length : Int) + 1 - level).toNat = m.length - (level - 1) := by omega
      simp only [h1, if_false, h2, if_true, h3, hr]
      rfl
  | false =>
    rw [hp] at h
    simp only [Bool.false_eq_true, if_false] at h ⊢
    split at h
    · cases h
    · rename_i hlt
      rw [List.length_dropLast] at hlt h
      have hr : r = m.dropLast.take (m.length - 1 - (level - 1)) ++ name := by
        injection h with h; exact h.symm
      have h1 : ¬ ((m.length : Int) + 0 - level = 0) := by omega
      have h2 : (0 : Int) < (m.length : Int) + 0 - level := by omega
      have h3 : ((m.length : Int) + 0 - level).toNat = m.length - level := by omega
      have h4 : m.dropLast.take (m.length - 1 - (level - 1)) = m.take (m.length - level) := by
        rw [List.dropLast_eq_take, List.take_take]
        congr 1
        omega
      simp only [h1, if_false, h2, if_true, h3, hr, h4]
      rfl

theorem parentPath_none (isPackage : Path → Bool) (m : Path) (level : Nat) (hl : level ≠ 0) :
    toParentModulePath isPackage none level m = toParentModulePath isPackage (some []) level m := by
  simp [toParentModulePath, hl]

/-! ### Type arguments -/

/-- The leaves of what is between brackets. -/
def sliceLeaves (slice : Expr) : List Expr := argLeavesAll (bracketed slice)

theorem argLeaves_subscript (value slice : Expr) (load : Bool) :
    argLeaves (.subscript value slice load) = sliceLeaves slice := by
  cases slice <;> simp [argLeaves, sliceLeaves, bracketed, argLeavesAll]

theorem argLeavesAll_append : ∀ xs ys : List Expr,
    argLeavesAll (xs ++ ys) = argLeavesAll xs ++ argLeavesAll ys
  | [], _ => rfl
  | x :: xs, ys => by
    rw [List.cons_append, argLeavesAll, argLeavesAll, argLeavesAll_append xs ys,
      List.append_assoc]

theorem argLeavesAll_reverse : ∀ xs : List Expr,
    (argLeavesAll xs.reverse).Perm (argLeavesAll xs)
  | [] => .refl _
  | x :: xs => by
    rw [List.reverse_cons, argLeavesAll_append, argLeavesAll, argLeavesAll, argLeavesAll,
      List.append_nil]
    exact List.perm_append_comm.trans ((argLeavesAll_reverse xs).append_left _)

/-- Is the expression a subscript? -/
def Expr.isSubscript : Expr → Bool
  | .subscript .. => true
  | _ => false

theorem argLeaves_other {e : Expr} (h : e.isSubscript = false) : argLeaves e = [e] := by
  cases e
  case subscript => cases h
  all_goals simp [argLeaves]

theorem collectStep_other {e : Expr} (h : e.isSubscript = false) (cs queue args : List Expr) :
    collectStep (e :: cs) queue args = collectStep cs queue (args ++ [e]) := by
  cases e
  case subscript => cases h
  all_goals rw [collectStep]; simp

theorem collectStep_perm : ∀ cs queue args : List Expr,
    ((collectStep cs queue args).2 ++ (collectStep cs queue args).1.flatMap sliceLeaves).Perm
      (args ++ queue.flatMap sliceLeaves ++ argLeavesAll cs)
  | [], queue, args => by simp [collectStep, argLeavesAll]
  | c :: cs, queue, args => by
    cases h : c.isSubscript with
    | true =>
      cases c <;> try cases h
      rename_i value slice load
      rw [collectStep, argLeavesAll, argLeaves_subscript]
      refine (collectStep_perm cs (slice :: queue) args).trans ?_
      rw [List.flatMap_cons]
      simp only [List.append_assoc]
      refine List.Perm.append_left _ ?_
      rw [← List.append_assoc, ← List.append_assoc]
      exact List.Perm.append_right _ List.perm_append_comm
    | false =>
      rw [collectStep_other h, argLeavesAll, argLeaves_other h]
      refine (collectStep_perm cs queue (args ++ [c])).trans ?_
      simp only [List.append_assoc]
      refine List.Perm.append_left _ ?_
      rw [← List.append_assoc, ← List.append_assoc]
      exact List.Perm.append_right _ List.perm_append_comm

theorem sizes_append : ∀ xs ys : List Expr, Expr.sizes (xs ++ ys) = Expr.sizes xs + Expr.sizes ys
  | [], _ => by simp [Expr.sizes]
  | x :: xs, ys => by rw [List.cons_append, Expr.sizes, Expr.sizes, sizes_append xs ys]; omega

theorem sizes_reverse : ∀ xs : List Expr, Expr.sizes xs.reverse = Expr.sizes xs
  | [] => rfl
  | x :: xs => by
    rw [List.reverse_cons, sizes_append, sizes_reverse xs, Expr.sizes, Expr.sizes, Expr.sizes]
    omega

theorem size_pos (e : Expr) : 0 < e.size := by
  cases e <;> simp only [Expr.size] <;> omega

theorem collectStep_size : ∀ cs queue args : List Expr,
    Expr.sizes (collectStep cs queue args).1 + (if cs = [] then 0 else 1)
      ≤ Expr.sizes queue + Expr.sizes cs
  | [], queue, args => by simp [collectStep, Expr.sizes]
  | c :: cs, queue, args => by
    rw [if_neg (by simp), Expr.sizes]
    cases h : c.isSubscript with
    | true =>
      cases c <;> try cases h
      rename_i value slice load
      rw [collectStep]
      have := collectStep_size cs (slice :: queue) args
      rw [Expr.sizes] at this
      rw [Expr.size]
      omega
    | false =>
      rw [collectStep_other h]
      have := collectStep_size cs queue (args ++ [c])
      have := size_pos c
      omega

theorem unpack_size (e : Expr) : Expr.sizes (unpack e) ≤ e.size ∧
    (unpack e = [] → 1 ≤ e.size - Expr.sizes (unpack e)) := by
  cases e <;> simp [unpack, Expr.size, Expr.sizes]

theorem unpack_eq (e : Expr) : unpack e = bracketed e := by
  cases e <;> rfl

theorem collectLoop_perm : ∀ (n : Nat) (queue args : List Expr), Expr.sizes queue ≤ n →
    (collectLoop n queue args).Perm (args ++ queue.flatMap sliceLeaves)
  | 0, [], args, _ => by simp [collectLoop]
  | 0, e :: queue, args, h => by
    rw [Expr.sizes] at h
    have := size_pos e
    omega
  | n + 1, [], args, _ => by simp [collectLoop]
  | n + 1, e :: queue, args, h => by
    rw [collectLoop]
    have hs := collectStep_size (unpack e).reverse queue args
    have hu := unpack_size e
    rw [Expr.sizes] at h
    rw [sizes_reverse] at hs
    have hle : Expr.sizes (collectStep (unpack e).reverse queue args).1 ≤ n := by
      by_cases hn : unpack e = []
      · have := hu.2 hn
        rw [hn] at hs this ⊢
        simp only [List.reverse_nil, if_true] at hs ⊢
        omega
      · rw [if_neg (by simpa using hn)] at hs
        omega
    refine (collectLoop_perm n _ _ hle).trans ((collectStep_perm _ _ _).trans ?_)
    rw [List.flatMap_cons, List.append_assoc]
    refine List.Perm.append_left _ (List.perm_append_comm.trans (List.Perm.append_right _ ?_))
    rw [unpack_eq]
    exact argLeavesAll_reverse _

theorem collectTypeArgs_perm (value slice : Expr) (load : Bool) :
    (collectTypeArgs (.subscript value slice load)).Perm
      (argLeaves (.subscript value slice load)) := by
  rw [collectTypeArgs, argLeaves_subscript]
  refine (List.reverse_perm _).trans ((collectLoop_perm _ _ _ ?_).trans ?_)
  · simp only [Expr.sizes, Expr.size]; omega
  · simp

theorem collectStep_flat : ∀ cs queue args : List Expr, (∀ c ∈ cs, c.isSubscript = false) →
    collectStep cs queue args = (queue, args ++ cs)
  | [], _, _, _ => by simp [collectStep]
  | c :: cs, queue, args, h => by
    rw [collectStep_other (h c List.mem_cons_self),
      collectStep_flat cs queue _ fun x hx => h x (List.mem_cons_of_mem _ hx)]
    simp

theorem collectTypeArgs_flat (value slice : Expr) (load : Bool)
    (h : ∀ c ∈ bracketed slice, c.isSubscript = false) :
    collectTypeArgs (.subscript value slice load) = bracketed slice := by
  rw [collectTypeArgs]
  obtain ⟨k, hk⟩ : ∃ k, (Expr.subscript value slice load).size = k + 2 := by
    refine ⟨value.size + slice.size - 1, ?_⟩
    have := size_pos value
    rw [Expr.size]
    omega
  rw [hk, collectLoop, unpack_eq,
    collectStep_flat _ _ _ fun c hc => h c (List.mem_reverse.1 hc)]
  simp [collectLoop]

/-! ### Tree iteration -/

theorem iterateQueue_append {α : Type} (children : α → List α) : ∀ (xs ys : List α) (n : Nat),
    xs.length ≤ n → iterateQueue children n (xs ++ ys)
      = xs ++ iterateQueue children (n - xs.length) (ys ++ xs.flatMap children)
  | [], ys, n, _ => by simp
  | x :: xs, ys, n, h => by
    cases n with
    | zero => simp at h
    | succ n =>
      rw [List.cons_append, iterateQueue, List.append_assoc,
        iterateQueue_append children xs (ys ++ children x) n (by simpa using h)]
      simp

theorem iterateQueue_levels {α : Type} (children : α → List α) : ∀ (d n : Nat) (level : List α),
    (levels children d level).length ≤ n → levels children (d + 1) level = levels children d level →
    iterateQueue children n level = levels children d level
  | 0, n, level, _, h => by
    have : level = [] := by simpa [levels] using h
    subst this
    cases n <;> rfl
  | d + 1, n, level, hn, h => by
    rw [levels, List.length_append] at hn
    have h' : levels children (d + 1) (level.flatMap children)
        = levels children d (level.flatMap children) := by
      rw [levels, levels] at h
      exact List.append_cancel_left h
    have := iterateQueue_append children level [] n (by omega)
    rw [List.append_nil, List.nil_append] at this
    rw [this, levels, iterateQueue_levels children d (n - level.length) _ (by omega) h']

theorem sizes_eq : ∀ es : List Expr, Expr.sizes es = (es.map Expr.size).sum
  | [] => rfl
  | e :: es => by rw [Expr.sizes, sizes_eq es, List.map_cons, List.sum_cons]

theorem kwSizes_eq : ∀ ks : List (Option String × Expr),
    Expr.kwSizes ks = Expr.sizes (ks.map Prod.snd)
  | [] => rfl
  | (k, e) :: ks => by rw [Expr.kwSizes, kwSizes_eq ks, List.map_cons, Expr.sizes]

theorem size_children (e : Expr) : e.size = Expr.sizes e.children + 1 := by
  cases e <;> simp only [Expr.size, Expr.children, Expr.sizes, List.cons_append, sizes_append,
    kwSizes_eq] <;> omega

theorem sizes_flatMap_children : ∀ es : List Expr,
    Expr.sizes (es.flatMap Expr.children) + es.length = Expr.sizes es
  | [] => rfl
  | e :: es => by
    rw [List.flatMap_cons, sizes_append, Expr.sizes, List.length_cons, size_children e,
      ← sizes_flatMap_children es]
    omega

theorem length_levels : ∀ (d : Nat) (es : List Expr), Expr.sizes es ≤ d →
    (levels Expr.children d es).length = Expr.sizes es
  | 0, es, h => by
    have : Expr.sizes es = 0 := by omega
    rw [this]; rfl
  | d + 1, es, h => by
    have := sizes_flatMap_children es
    rw [levels, List.length_append]
    cases es with
    | nil => rw [length_levels d _ (by simp [Expr.sizes])]; simp [Expr.sizes]
    | cons e es =>
      rw [List.length_cons] at this
      rw [length_levels d _ (by omega), List.length_cons]
      omega

theorem levels_stable : ∀ (d : Nat) (es : List Expr), Expr.sizes es ≤ d →
    levels Expr.children (d + 1) es = levels Expr.children d es
  | 0, es, h => by
    have : es = [] := by
      cases es with
      | nil => rfl
      | cons e es => rw [Expr.sizes] at h; have := size_pos e; omega
    subst this
    rfl
  | d + 1, es, h => by
    rw [levels, levels]
    congr 1
    cases es with
    | nil => exact levels_stable d [] (by simp [Expr.sizes])
    | cons e es =>
      have := sizes_flatMap_children (e :: es)
      rw [List.length_cons] at this
      exact levels_stable d _ (by omega)

theorem descendants_levels (e : Expr) :
    e.descendants = levels Expr.children e.size e.children := by
  have h : Expr.sizes e.children ≤ e.size := by rw [size_children e]; omega
  exact iterateQueue_levels _ _ _ _ (by rw [length_levels _ _ h]; exact h) (levels_stable _ _ h)

theorem flatMap_cons_perm {α β : Type} (f : α → β) (g : α → List β) : ∀ xs : List α,
    (xs.flatMap (fun x => f x :: g x)).Perm (xs.map f ++ xs.flatMap g)
  | [] => .refl _
  | x :: xs => by
    rw [List.flatMap_cons, List.flatMap_cons, List.map_cons, List.cons_append, List.cons_append]
    refine List.Perm.cons _ ?_
    refine ((flatMap_cons_perm f g xs).append_left _).trans ?_
    rw [← List.append_assoc, ← List.append_assoc]
    exact List.Perm.append_right _ List.perm_append_comm

theorem subtreesAll_eq : ∀ es : List Expr, subtreesAll es = es.flatMap subtrees
  | [] => rfl
  | e :: es => by rw [subtreesAll, subtreesAll_eq es, List.flatMap_cons]

theorem subtreesKw_eq : ∀ ks : List (Option String × Expr),
    subtreesKw ks = (ks.map Prod.snd).flatMap subtrees
  | [] => rfl
  | (k, e) :: ks => by rw [subtreesKw, subtreesKw_eq ks, List.map_cons, List.flatMap_cons]

theorem subtrees_eq (e : Expr) : subtrees e = e :: e.children.flatMap subtrees := by
  cases e <;> simp [subtrees, Expr.children, subtreesAll_eq, subtreesKw_eq]

theorem levels_perm : ∀ (d : Nat) (es : List Expr), Expr.sizes es ≤ d →
    (levels Expr.children d es).Perm (es.flatMap subtrees)
  | 0, es, h => by
    have : es = [] := by
      cases es with
      | nil => rfl
      | cons e es => rw [Expr.sizes] at h; have := size_pos e; omega
    subst this
    exact .refl _
  | d + 1, es, h => by
    rw [levels]
    have hs : Expr.sizes (es.flatMap Expr.children) ≤ d := by
      cases es with
      | nil => simp [Expr.sizes]
      | cons e es =>
        have := sizes_flatMap_children (e :: es)
        rw [List.length_cons] at this
        omega
    refine ((levels_perm d _ hs).append_left _).trans ?_
    have h1 : es.flatMap subtrees = es.flatMap (fun e => id e :: e.children.flatMap subtrees) := by
      congr 1
      funext e
      exact subtrees_eq e
    rw [h1, List.flatMap_assoc]
    have := (flatMap_cons_perm id (fun e : Expr => e.children.flatMap subtrees) es).symm
    rwa [List.map_id] at this

end Paradigm
