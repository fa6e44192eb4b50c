import Verif.Lemmas.Resolving
import Verif.Spec.Stars

/-!
# Lemmas about the recursion of the stub parser
-/

namespace Paradigm

open Spec

/-! ### Computations that stay within the recursion limit -/

/-- From tables of `I` the computation does not run into the recursion limit, and leads to `I`. -/
def Safe (I : ParseState → Prop) {α : Type} (x : P α) : Prop :=
  ∀ s, I s → (x s).1 ≠ .error .recursionError ∧ I (x s).2

namespace Safe

variable {I : ParseState → Prop} {α β : Type}

theorem pure' (a : α) : Safe I (pure a : P α) := fun _ h => ⟨nofun, h⟩

theorem fail {e : PyErr} (h : e ≠ .recursionError) : Safe I (P.fail e : P α) :=
  fun _ hs => ⟨fun e' => h (Except.error.inj e'), hs⟩

theorem lift {r : Except PyErr α} (h : r ≠ .error .recursionError) : Safe I (P.lift r) :=
  fun _ hs => ⟨h, hs⟩

theorem item [BEq α] (d : ParseState → Dict α β) (k : α) : Safe I (P.item d k) := by
  intro s hs
  unfold P.item
  split
  · exact ⟨nofun, hs⟩
  · exact ⟨nofun, hs⟩

theorem update {f : ParseState → ParseState} (h : ∀ s, I s → I (f s)) : Safe I (P.update f) :=
  fun s hs => ⟨nofun, h s hs⟩

theorem bind {x : P α} {f : α → P β} (hx : Safe I x) (hf : ∀ a, Safe I (f a)) :
    Safe I (x >>= f) := by
  intro s hs
  have h := hx s hs
  show (P.bind x f s).1 ≠ _ ∧ I (P.bind x f s).2
  unfold P.bind
  cases hxs : x s with
  | mk r s' =>
    rw [hxs] at h
    cases r with
    | error e => exact ⟨fun e' => h.1 (by rw [Except.error.inj e']), h.2⟩
    | ok a => exact hf a s' h.2

theorem get_bind {f : ParseState → P β} (hf : ∀ s, I s → Safe I (f s)) :
    Safe I (P.get >>= f) := fun s hs => hf s hs s hs

theorem orNotFound {x y : P α} (hx : Safe I x) (hy : Safe I y) : Safe I (P.orNotFound x y) := by
  intro s hs
  have h := hx s hs
  unfold P.orNotFound
  cases hxs : x s with
  | mk r s' =>
    rw [hxs] at h
    cases r with
    | ok a => exact ⟨nofun, h.2⟩
    | error e =>
      cases e
      case objectNotFound => exact hy s' h.2
      all_goals exact h

theorem each {f : α → P Unit} : ∀ xs : List α, (∀ x ∈ xs, Safe I (f x)) → Safe I (P.each f xs)
  | [], _ => pure' ()
  | x :: xs, h =>
    bind (h x List.mem_cons_self) fun _ => each xs fun y hy => h y (List.mem_cons_of_mem _ hy)

theorem map {f : α → P β} : ∀ xs : List α, (∀ x ∈ xs, Safe I (f x)) → Safe I (P.map f xs)
  | [], _ => pure' []
  | x :: xs, h =>
    bind (h x List.mem_cons_self) fun _ =>
      bind (map xs fun y hy => h y (List.mem_cons_of_mem _ hy)) fun _ => pure' _

theorem filter {f : α → P Bool} : ∀ xs : List α, (∀ x ∈ xs, Safe I (f x)) → Safe I (P.filter f xs)
  | [], _ => pure' []
  | x :: xs, h =>
    bind (h x List.mem_cons_self) fun _ =>
      bind (filter xs fun y hy => h y (List.mem_cons_of_mem _ hy)) fun _ => pure' _

theorem firstFound {f : α → P β} {y : P β} (hy : Safe I y) : ∀ xs : List α,
    (∀ x ∈ xs, Safe I (f x)) → Safe I (P.firstFound f y xs)
  | [], _ => hy
  | x :: xs, h =>
    orNotFound (h x List.mem_cons_self)
      (firstFound hy xs fun y hy => h y (List.mem_cons_of_mem _ hy))

end Safe

/-! ### The invariant -/

/-- The modules that have not been visited yet. -/
def unreadOf (all : List Path) (s : ParseState) : List Path :=
  all.filter fun m => !s.visited.contains m

/-- Star imports lead down, and at most `u` sources are still to be read. -/
def WithinRank (rank : Path → Nat) (all : List Path) (u : Nat) (s : ParseState) : Prop :=
  (∀ m, ∀ sub ∈ (s.submodules.lookup m).getD [], rank sub < rank m) ∧
  (unreadOf all s).length ≤ u

theorem filterCount_le {α : Type} {p q : α → Bool} : ∀ {l : List α},
    (∀ x ∈ l, p x = true → q x = true) → (l.filter p).length ≤ (l.filter q).length
  | [], _ => Nat.le_refl _
  | x :: l, h => by
    have ih := filterCount_le (p := p) (q := q) (l := l) fun y hy => h y (List.mem_cons_of_mem _ hy)
    have hx := h x List.mem_cons_self
    simp only [List.filter_cons]
    cases hp : p x <;> cases hq : q x <;> simp_all <;> omega

theorem filterCount_lt {α : Type} {p q : α → Bool} : ∀ {l : List α},
    (∀ x ∈ l, p x = true → q x = true) → (∃ x ∈ l, p x = false ∧ q x = true) →
    (l.filter p).length < (l.filter q).length
  | x :: l, h, hex => by
    have hl : ∀ y ∈ l, p y = true → q y = true := fun y hy => h y (List.mem_cons_of_mem _ hy)
    have hx := h x List.mem_cons_self
    simp only [List.filter_cons]
    by_cases he : p x = false ∧ q x = true
    · have := filterCount_le hl
      rw [he.1, he.2]
      simp only [Bool.false_eq_true, if_false, if_true, List.length_cons]
      omega
    · obtain ⟨y, hy, hy'⟩ := hex
      have hy : y ∈ l := (List.mem_cons.1 hy).resolve_left fun e => he (e ▸ hy')
      have := filterCount_lt hl ⟨y, hy, hy'⟩
      cases hp : p x <;> cases hq : q x <;> simp_all

theorem unread_asked {all : List Path} {m : Path} {s : ParseState} :
    (unreadOf all (asked m s)).length ≤ (unreadOf all s).length := by
  refine filterCount_le fun x _ h => ?_
  simp only [asked, Bool.not_eq_true', List.contains_eq_mem, decide_eq_false_iff_not] at h ⊢
  exact fun hx => h (List.mem_cons_of_mem _ hx)

theorem unread_asked_lt {all : List Path} {m : Path} {s : ParseState} (hm : m ∈ all)
    (hv : m ∉ s.visited) : (unreadOf all (asked m s)).length < (unreadOf all s).length := by
  refine filterCount_lt (fun x _ h => ?_) ⟨m, hm, ?_, ?_⟩
  · simp only [asked, Bool.not_eq_true', List.contains_eq_mem, decide_eq_false_iff_not] at h ⊢
    exact fun hx => h (List.mem_cons_of_mem _ hx)
  · simp [asked]
  · simpa using hv

/-! ### The visitors -/

section blocks

variable {rank : Path → Nat} {all : List Path} {u : Nat}
  {parse : Path → P Scope} {resolve : Path → Path → Path → P QPath}
  (hp : ∀ m, Safe (WithinRank rank all u) (parse m))
  (hr : ∀ m p o, Safe (WithinRank rank all u) (resolve m p o))

theorem toPath_safe (e : Expr) : toPath e ≠ .error .recursionError := by
  induction e using toPath.induct <;> unfold toPath <;> simp_all

theorem fieldArg_safe (f : Expr × Expr × Option Expr) : fieldArg f ≠ .error .recursionError := by
  unfold fieldArg
  split <;> nofun

theorem mapExcept_safe {α β : Type} {f : α → Except PyErr β}
    (hf : ∀ x, f x ≠ .error .recursionError) : ∀ xs, mapExcept f xs ≠ .error .recursionError
  | [] => nofun
  | x :: xs => by
    have ih := mapExcept_safe hf xs
    have := hf x
    unfold mapExcept
    cases hx : f x with
    | error e => rw [hx] at this; exact fun h => this (by rw [Except.error.inj h])
    | ok y =>
      cases hxs : mapExcept f xs with
      | error e => rw [hxs] at ih; exact fun h => ih (by rw [Except.error.inj h])
      | ok ys => nofun

theorem namedTupleConstructor_safe (name : String) (body : List Stmt) :
    namedTupleConstructor name body ≠ .error .recursionError := by
  have := mapExcept_safe fieldArg_safe (annotatedFields body)
  unfold namedTupleConstructor
  cases h : mapExcept fieldArg (annotatedFields body) with
  | error e => rw [h] at this; exact fun h => this (by rw [Except.error.inj h])
  | ok args => nofun

include hr in
theorem toQualified_safe (c : Place) (object : Path) :
    Safe (WithinRank rank all u) (toQualified resolve c object) :=
  Safe.orNotFound (hr _ _ _) (Safe.bind (Safe.update fun _ h => h) fun _ => Safe.pure' _)

include hr hp in
theorem isTypeVar_safe (c : Place) (object : Path) :
    Safe (WithinRank rank all u) (isTypeVar parse resolve c object) := by
  unfold isTypeVar
  refine Safe.bind (toQualified_safe hr _ _) fun q => Safe.bind (hp _) fun _ =>
    Safe.bind (Safe.item _ _) fun nodes => ?_
  split
  · split
    · exact Safe.pure' _
    · exact Safe.bind (hr _ _ _) fun _ => Safe.pure' _
  · exact Safe.pure' _

include hr hp in
theorem visitBase_safe (c : Place) (name : String) (body : List Stmt) (base : Expr) :
    Safe (WithinRank rank all u) (visitBase parse resolve c name body base) := by
  have other : ∀ e, Safe (WithinRank rank all u) (do
      let path ← P.lift (toPath e)
      let q ← toQualified resolve c path
      if q == namedTuplePath then
        let constructor ← P.lift (namedTupleConstructor name body)
        P.update (addNode c [name] (.functionDef constructor))
        P.update (addSuperclass c.module (c.parent ++ [name]) q)
        pure []
      else if q == protocolPath then pure []
      else if q == genericPath then P.fail .assertionError
      else
        P.update (addBase (c.module, c.parent ++ [name]) e)
        pure [] : P (List Path)) := by
    intro e
    refine Safe.bind (Safe.lift (toPath_safe _)) fun path => Safe.bind (toQualified_safe hr _ _)
      fun q => ?_
    split
    · exact Safe.bind (Safe.lift (namedTupleConstructor_safe _ _)) fun f =>
        Safe.bind (Safe.update fun _ h => h) fun _ => Safe.bind (Safe.update fun _ h => h) fun _ =>
          Safe.pure' _
    · split
      · exact Safe.pure' _
      · split
        · exact Safe.fail nofun
        · exact Safe.bind (Safe.update fun _ h => h) fun _ => Safe.pure' _
  cases base
  case subscript value slice load =>
    simp only [visitBase]
    refine Safe.bind (Safe.filter _ fun x _ => isTypeVar_safe hp hr _ _) fun tv => ?_
    split
    · exact Safe.bind (Safe.update fun _ h => h) fun _ => Safe.pure' _
    · refine Safe.bind (hr _ _ _) fun q => ?_
      split
      · exact Safe.pure' _
      · exact Safe.bind (Safe.update fun _ h => h) fun _ => Safe.pure' _
  all_goals exact other _

include hr hp in
theorem visitClassHead_safe (c : Place) (name : String) (bases : List Expr) (body : List Stmt) :
    Safe (WithinRank rank all u) (visitClassHead parse resolve c name bases body) := by
  unfold visitClassHead
  refine Safe.bind (Safe.update fun _ h => h) fun _ => Safe.bind (Safe.update fun _ h => h) fun _ =>
    Safe.bind (Safe.update fun _ h => h) fun _ => Safe.bind (Safe.map _ fun base _ =>
      visitBase_safe hp hr c name body base) fun tv => ?_
  dsimp only
  split
  · exact Safe.pure' _
  · exact Safe.update fun _ h => h

include hr in
theorem visitAnnAssign_safe (c : Place) (node : Stmt) (target : Expr) (value : Option Expr) :
    Safe (WithinRank rank all u) (visitAnnAssign resolve c node target value) := by
  unfold visitAnnAssign
  refine Safe.bind (Safe.lift (toPath_safe _)) fun path => ?_
  split
  · exact Safe.bind (Safe.update fun _ h => h) fun _ => Safe.bind (Safe.update fun _ h => h)
      fun _ => Safe.update fun _ h => h
  · exact Safe.bind (toQualified_safe hr _ _) fun q => Safe.update fun _ h => h

include hr in
theorem visitAssign_safe (c : Place) (node : Stmt) (targets : List Expr) (value : Expr) :
    Safe (WithinRank rank all u) (visitAssign resolve c node targets value) := by
  unfold visitAssign
  split
  · exact Safe.each _ fun t _ => Safe.bind (Safe.lift (toPath_safe _)) fun path =>
      Safe.bind (Safe.update fun _ h => h) fun _ => Safe.bind (Safe.update fun _ h => h)
        fun _ => Safe.update fun _ h => h
  · exact Safe.bind (toQualified_safe hr _ _) fun q => Safe.each _ fun t _ =>
      Safe.bind (Safe.lift (toPath_safe _)) fun path => Safe.update fun _ h => h

include hr in
theorem evaluateTest_safe {E : StubFiles}
    (hE : ∀ test ns, E.condition test ns ≠ .error .recursionError) (c : Place) (test : Expr) :
    Safe (WithinRank rank all u) (evaluateTest E resolve c test) := by
  unfold evaluateTest
  exact Safe.bind (Safe.map _ fun n _ => Safe.bind (hr _ _ _) fun q => Safe.pure' _)
    fun ns => Safe.lift (hE _ _)

theorem visitImportFrom_safe (E : StubFiles) (c : Place) (m : Option String) (names : List Alias)
    (level : Nat)
    (h : ∀ sub ∈ starsOf E.isPackage c.module (.importFrom m names level), rank sub < rank c.module) :
    Safe (WithinRank rank all u) (visitImportFrom E c m names level) := by
  unfold visitImportFrom
  have hl : toParentModulePath E.isPackage (m.map pathFromString) level c.module
      ≠ .error .recursionError := by
    unfold toParentModulePath
    split
    · split <;> nofun
    · nofun
  intro s hs
  cases ht : toParentModulePath E.isPackage (m.map pathFromString) level c.module with
  | error e =>
    rw [ht] at hl
    rw [bind_of_error (x := P.lift _) (t := s) (e := e) rfl]
    exact ⟨fun e' => hl (by rw [Except.error.inj e']), hs⟩
  | ok target =>
    rw [bind_of_ok (x := P.lift _) (t := s) (a := target) rfl]
    refine Safe.each names (fun alias ha => ?_) s hs
    by_cases hn : alias.name = "*"
    · rw [if_pos hn]
      refine Safe.update fun s hs => ⟨fun x sub hsub => ?_, hs.2⟩
      have hrank : rank target < rank c.module := by
        refine h target ?_
        simp only [starsOf, ht]
        rw [if_pos (List.any_eq_true.2 ⟨alias, ha, by simp [hn]⟩)]
        exact List.mem_singleton_self _
      simp only [addSubmodule] at hsub
      by_cases hx : x = c.module
      · subst hx
        rw [lookup_dictUpdate_self, Option.getD_some, List.mem_append, List.mem_singleton] at hsub
        rcases hsub with hsub | rfl
        · exact hs.1 _ _ hsub
        · exact hrank
      · rw [lookup_dictUpdate_ne _ _ _ hx] at hsub
        exact hs.1 _ _ hsub
    · rw [if_neg hn]
      exact Safe.update fun _ h => h

end blocks

/-! ### The recursion -/

mutual

/-- How deep statements are nested. -/
def stmtDepth : Stmt → Nat
  | .classDef _ _ _ body => stmtDepths body + 1
  | .ifStmt _ body orelse => max (stmtDepths body) (stmtDepths orelse) + 1
  | .other _ body => stmtDepths body + 1
  | _ => 0

def stmtDepths : List Stmt → Nat
  | [] => 0
  | node :: nodes => max (stmtDepth node) (stmtDepths nodes)

end

theorem stmtDepth_le : ∀ {nodes : List Stmt} {node : Stmt}, node ∈ nodes →
    stmtDepth node ≤ stmtDepths nodes
  | x :: xs, node, h => by
    rw [stmtDepths]
    rcases List.mem_cons.1 h with rfl | h
    · omega
    · have := stmtDepth_le h; omega

theorem starsOf_sub (isPackage : Path → Bool) (m : Path) : ∀ {nodes : List Stmt} {node : Stmt},
    node ∈ nodes → ∀ sub ∈ starsOf isPackage m node, sub ∈ starsAll isPackage m nodes
  | x :: xs, node, h, sub, hs => by
    rw [starsAll, List.mem_append]
    rcases List.mem_cons.1 h with rfl | h
    · exact .inl hs
    · exact .inr (starsOf_sub isPackage m h sub hs)

/-- The nested calls needed to read a module when `u` sources are left. -/
def fuelFor (D S : Nat) : Nat → Nat
  | 0 => 1
  | u + 1 => fuelFor D S u + D + S + 4

section recursion

variable {E : StubFiles} {rank : Path → Nat} {all : List Path} {D S : Nat}

theorem resolve_safe {u : Nat} (hD : ∀ m, rank m ≤ D)
    (hp : ∀ n m, fuelFor D S u ≤ n → Safe (WithinRank rank all u) (parseScope E n m)) :
    ∀ (n r : Nat) (m p o : Path), rank m ≤ r → fuelFor D S u + r + 1 ≤ n →
      Safe (WithinRank rank all u) (resolveP E n m p o)
  | 0, r, m, p, o, _, h => by omega
  | n + 1, r, m, p, o, hm, h => by
    cases o with
    | nil => simp only [resolveP]; exact Safe.fail nofun
    | cons head rest =>
      simp only [resolveP]
      refine Safe.bind (hp n m (by omega)) fun defs => ?_
      unfold resolveIn
      split
      · exact Safe.pure' _
      · split
        · exact Safe.pure' _
        · refine Safe.get_bind fun s hs => Safe.firstFound ?_ _ fun sub hsub => ?_
          · refine Safe.bind (Safe.item _ _) fun refs => ?_
            split
            · exact Safe.pure' _
            · refine Safe.bind (Safe.item _ _) fun bs => ?_
              split
              · exact Safe.pure' _
              · exact Safe.fail nofun
          · have := hs.1 m sub hsub
            exact resolve_safe hD hp n (r - 1) sub [] (head :: rest) (by omega) (by omega)

theorem visit_safe {u : Nat} (hE : ∀ test ns, E.condition test ns ≠ .error .recursionError)
    (hD : ∀ m, rank m ≤ D)
    (hp : ∀ n m, fuelFor D S u ≤ n → Safe (WithinRank rank all u) (parseScope E n m)) :
    ∀ (n d : Nat) (c : Place) (node : Stmt), stmtDepth node ≤ d →
      fuelFor D S u + D + d + 2 ≤ n →
      (∀ sub ∈ starsOf E.isPackage c.module node, rank sub < rank c.module) →
      Safe (WithinRank rank all u) (visit E n c node)
  | 0, d, c, node, _, h, _ => by omega
  | n + 1, d, c, node, hd, h, hs => by
    have hr : ∀ m p o, Safe (WithinRank rank all u) (resolveP E n m p o) := fun m p o =>
      resolve_safe hD hp n D m p o (hD m) (by omega)
    have hp' : ∀ m, Safe (WithinRank rank all u) (parseScope E n m) := fun m => hp n m (by omega)
    have below : ∀ (c' : Place) (body : List Stmt), c'.module = c.module →
        stmtDepths body + 1 ≤ d →
        (∀ sub ∈ starsAll E.isPackage c.module body, rank sub < rank c.module) →
        Safe (WithinRank rank all u) (P.each (visit E n c') body) := by
      intro c' body hc hb hss
      refine Safe.each _ fun child hchild => visit_safe hE hD hp n (d - 1) c' child ?_ (by omega) ?_
      · have := stmtDepth_le hchild; omega
      · rw [hc]
        exact fun sub hsub => hss sub (starsOf_sub _ _ hchild sub hsub)
    cases node <;> simp only [visit]
    case annAssign => exact visitAnnAssign_safe hr _ _ _ _
    case assign => exact visitAssign_safe hr _ _ _ _
    case functionDef f =>
      exact Safe.bind (Safe.update fun _ h => h) fun _ => Safe.bind (Safe.update fun _ h => h)
        fun _ => Safe.update fun _ h => h
    case classDef name bases decorators body =>
      rw [stmtDepth] at hd
      rw [starsOf] at hs
      exact Safe.bind (visitClassHead_safe hp' hr _ _ _ _) fun _ => below _ _ rfl hd hs
    case ifStmt test body orelse =>
      rw [stmtDepth] at hd
      rw [starsOf] at hs
      refine Safe.bind (evaluateTest_safe hr hE _ _) fun b => ?_
      cases b
      · exact below c orelse rfl (by omega) fun sub h => hs sub (List.mem_append_right _ h)
      · exact below c body rfl (by omega) fun sub h => hs sub (List.mem_append_left _ h)
    case import_ =>
      exact Safe.each _ fun _ _ => Safe.each _ fun _ _ => Safe.update fun _ h => h
    case importFrom => exact visitImportFrom_safe E c _ _ _ hs
    case other tag body =>
      rw [stmtDepth] at hd
      rw [starsOf] at hs
      exact below c _ rfl hd hs

theorem parse_safe (hE : ∀ test ns, E.condition test ns ≠ .error .recursionError)
    (hD : ∀ m, rank m ≤ D) (hall : ∀ m body, E.source m = some body → m ∈ all)
    (hS : ∀ m body, E.source m = some body → stmtDepths body ≤ S)
    (hstar : ∀ m sub, StarImports E m sub → rank sub < rank m) :
    ∀ (u n : Nat) (m : Path), fuelFor D S u ≤ n → Safe (WithinRank rank all u) (parseScope E n m) := by
  intro u
  induction u with
  | zero =>
    intro n m h s hs
    cases n with
    | zero => rw [fuelFor] at h; omega
    | succ n =>
      by_cases hm : m ∈ s.visited
      · rw [parse_visited E n hm]; exact Safe.item _ _ s hs
      · cases hsrc : E.source m with
        | none =>
          rw [parse_missing E n hm hsrc]
          exact ⟨nofun, hs.1, Nat.le_trans unread_asked hs.2⟩
        | some body =>
          have := unread_asked_lt (hall m body hsrc) hm
          have := hs.2
          omega
  | succ u ih =>
    intro n m h s hs
    rw [fuelFor] at h
    cases n with
    | zero => omega
    | succ n =>
      by_cases hm : m ∈ s.visited
      · rw [parse_visited E n hm]; exact Safe.item _ _ s hs
      · cases hsrc : E.source m with
        | none =>
          rw [parse_missing E n hm hsrc]
          exact ⟨nofun, hs.1, Nat.le_trans unread_asked hs.2⟩
        | some body =>
          rw [parse_source E n hm hsrc]
          have hlt := unread_asked_lt (hall m body hsrc) hm
          have hstart : WithinRank rank all u (started m s) := ⟨hs.1, by
            have := hs.2
            show (unreadOf all (asked m s)).length ≤ u
            omega⟩
          have := (Safe.bind (Safe.each body fun child hchild =>
              visit_safe hE hD ih n S ⟨m, []⟩ child
                (Nat.le_trans (stmtDepth_le hchild) (hS m body hsrc)) (by omega)
                fun sub hsub => hstar m sub ⟨body, hsrc, starsOf_sub _ _ hchild sub hsub⟩)
              fun _ => Safe.item ParseState.definitions m) (started m s) hstart
          exact ⟨this.1, this.2.1, Nat.le_succ_of_le this.2.2⟩

end recursion

/-- A bound for a function on a list. -/
theorem le_sum_of_mem {f : Path → Nat} : ∀ {l : List Path} {x : Path}, x ∈ l →
    f x ≤ (l.map f).sum
  | y :: l, x, h => by
    rw [List.map_cons, List.sum_cons]
    rcases List.mem_cons.1 h with rfl | h
    · omega
    · have := le_sum_of_mem (f := f) h; omega

theorem layered_terminates {E : StubFiles} (h : Layered E) :
    ∃ N, ∀ n, N ≤ n → ∀ modules, (parseAll E n modules {}).1 ≠ .error .recursionError := by
  obtain ⟨⟨all, hall⟩, ⟨rank, hrank⟩, hE⟩ := h
  let rank' : Path → Nat := fun m => if m ∈ all then rank m else 0
  let depth : Path → Nat := fun m => stmtDepths ((E.source m).getD [])
  have hD : ∀ m, rank' m ≤ (all.map rank).sum := by
    intro m
    show (if m ∈ all then rank m else 0) ≤ _
    split
    · rename_i h; exact le_sum_of_mem h
    · omega
  have hS : ∀ m body, E.source m = some body → stmtDepths body ≤ (all.map depth).sum := by
    intro m body hm
    have := le_sum_of_mem (f := depth) (hall m body hm)
    have e : depth m = stmtDepths body := by show stmtDepths ((E.source m).getD []) = _; rw [hm]; rfl
    omega
  have hstar : ∀ m sub, StarImports E m sub → rank' sub < rank' m := by
    intro m sub hms
    have h1 := hrank m sub hms
    obtain ⟨body, hb, _⟩ := hms
    have h2 := hall m body hb
    show (if sub ∈ all then rank sub else 0) < (if m ∈ all then rank m else 0)
    rw [if_pos h2]
    split <;> omega
  refine ⟨fuelFor (all.map rank).sum (all.map depth).sum all.length, fun n hn modules => ?_⟩
  have hp : ∀ m, Safe (WithinRank rank' all all.length) (parseScope E n m) := fun m =>
    parse_safe hE hD hall hS hstar all.length n m hn
  have := (Safe.bind (hp builtinsPath) fun _ => Safe.each modules fun m _ =>
    Safe.bind (hp m) fun _ => Safe.pure' ()) {} ⟨(fun _ _ h => nomatch h), List.length_filter_le ..⟩
  exact this.1

/-! ### A higher recursion limit changes no answer -/

/-- Wherever `x` stays within the recursion limit, `y` does the same. -/
def Agrees {α : Type} (x y : P α) : Prop := ∀ s, (x s).1 ≠ .error .recursionError → y s = x s

namespace Agrees

variable {α β : Type}

theorem refl (x : P α) : Agrees x x := fun _ _ => rfl

theorem bind {x y : P α} {f g : α → P β} (hx : Agrees x y) (hf : ∀ a, Agrees (f a) (g a)) :
    Agrees (x >>= f) (y >>= g) := by
  intro s h
  cases hxs : x s with
  | mk r t =>
    cases r with
    | error e =>
      have e1 : (x >>= f) s = (.error e, t) := bind_of_error hxs
      rw [e1] at h
      have : y s = (.error e, t) := by
        rw [← hxs]
        exact hx s (by rw [hxs]; exact fun e' => h (by rw [Except.error.inj e']))
      rw [e1, bind_of_error this]
    | ok a =>
      have e1 : (x >>= f) s = f a t := bind_of_ok hxs
      rw [e1] at h
      have : y s = (.ok a, t) := by
        rw [← hxs]
        exact hx s (by rw [hxs]; nofun)
      rw [e1, bind_of_ok this]
      exact hf a t h

theorem orNotFound {x y x' y' : P α} (hx : Agrees x x') (hy : Agrees y y') :
    Agrees (P.orNotFound x y) (P.orNotFound x' y') := by
  intro s h
  unfold P.orNotFound at h ⊢
  by_cases hr : (x s).1 = .error .recursionError
  · exfalso
    cases hxs : x s with
    | mk r t =>
      rw [hxs] at h hr
      cases hr
      exact h rfl
  · rw [hx s hr]
    cases hxs : x s with
    | mk r t =>
      rw [hxs] at h
      cases r with
      | ok a => rfl
      | error e =>
        cases e
        case objectNotFound => exact hy t h
        all_goals rfl

theorem each {f g : α → P Unit} (h : ∀ x, Agrees (f x) (g x)) : ∀ xs : List α,
    Agrees (P.each f xs) (P.each g xs)
  | [] => refl _
  | x :: xs => bind (h x) fun _ => each h xs

theorem map {f g : α → P β} (h : ∀ x, Agrees (f x) (g x)) : ∀ xs : List α,
    Agrees (P.map f xs) (P.map g xs)
  | [] => refl _
  | x :: xs => bind (h x) fun _ => bind (map h xs) fun _ => refl _

theorem filter {f g : α → P Bool} (h : ∀ x, Agrees (f x) (g x)) : ∀ xs : List α,
    Agrees (P.filter f xs) (P.filter g xs)
  | [] => refl _
  | x :: xs => bind (h x) fun _ => bind (filter h xs) fun _ => refl _

theorem firstFound {f g : α → P β} (h : ∀ x, Agrees (f x) (g x)) {y y' : P β} (hy : Agrees y y') :
    ∀ xs : List α, Agrees (P.firstFound f y xs) (P.firstFound g y' xs)
  | [] => hy
  | x :: xs => orNotFound (h x) (firstFound h hy xs)

end Agrees

section agrees

variable {parse parse' : Path → P Scope} {resolve resolve' : Path → Path → Path → P QPath}
  (hp : ∀ m, Agrees (parse m) (parse' m))
  (hr : ∀ m p o, Agrees (resolve m p o) (resolve' m p o))

include hr in
theorem toQualified_agrees (c : Place) (object : Path) :
    Agrees (toQualified resolve c object) (toQualified resolve' c object) :=
  Agrees.orNotFound (hr _ _ _) (Agrees.refl _)

include hr hp in
theorem isTypeVar_agrees (c : Place) (object : Path) :
    Agrees (isTypeVar parse resolve c object) (isTypeVar parse' resolve' c object) := by
  unfold isTypeVar
  refine Agrees.bind (toQualified_agrees hr _ _) fun q => Agrees.bind (hp _) fun _ =>
    Agrees.bind (Agrees.refl _) fun nodes => ?_
  split
  · split
    · exact Agrees.refl _
    · exact Agrees.bind (hr _ _ _) fun _ => Agrees.refl _
  · exact Agrees.refl _

include hr hp in
theorem visitBase_agrees (c : Place) (name : String) (body : List Stmt) (base : Expr) :
    Agrees (visitBase parse resolve c name body base) (visitBase parse' resolve' c name body base) := by
  cases base
  case subscript value slice load =>
    simp only [visitBase]
    refine Agrees.bind (Agrees.filter (fun x => isTypeVar_agrees hp hr _ _) _) fun tv => ?_
    split
    · exact Agrees.refl _
    · exact Agrees.bind (hr _ _ _) fun q => Agrees.refl _
  all_goals exact Agrees.bind (Agrees.refl _) fun path =>
    Agrees.bind (toQualified_agrees hr _ _) fun q => Agrees.refl _

include hr hp in
theorem visitClassHead_agrees (c : Place) (name : String) (bases : List Expr) (body : List Stmt) :
    Agrees (visitClassHead parse resolve c name bases body)
      (visitClassHead parse' resolve' c name bases body) :=
  Agrees.bind (Agrees.refl _) fun _ => Agrees.bind (Agrees.refl _) fun _ =>
    Agrees.bind (Agrees.refl _) fun _ => Agrees.bind
      (Agrees.map (fun base => visitBase_agrees hp hr c name body base) _) fun _ => Agrees.refl _

include hr in
theorem visitAnnAssign_agrees (c : Place) (node : Stmt) (target : Expr) (value : Option Expr) :
    Agrees (visitAnnAssign resolve c node target value)
      (visitAnnAssign resolve' c node target value) := by
  unfold visitAnnAssign
  refine Agrees.bind (Agrees.refl _) fun path => ?_
  split
  · exact Agrees.refl _
  · exact Agrees.bind (toQualified_agrees hr _ _) fun _ => Agrees.refl _

include hr in
theorem visitAssign_agrees (c : Place) (node : Stmt) (targets : List Expr) (value : Expr) :
    Agrees (visitAssign resolve c node targets value)
      (visitAssign resolve' c node targets value) := by
  unfold visitAssign
  split
  · exact Agrees.refl _
  · exact Agrees.bind (toQualified_agrees hr _ _) fun _ => Agrees.refl _

include hr in
theorem resolveIn_agrees (defs : Scope) (m parent : Path) (head : String) (rest : Path) :
    Agrees (resolveIn resolve defs m parent head rest)
      (resolveIn resolve' defs m parent head rest) := by
  unfold resolveIn
  split
  · exact Agrees.refl _
  · split
    · exact Agrees.refl _
    · exact Agrees.bind (Agrees.refl _) fun _ =>
        Agrees.firstFound (fun sub => hr _ _ _) (Agrees.refl _) _

end agrees

theorem limit_step (E : StubFiles) : ∀ n,
    (∀ c node, Agrees (visit E n c node) (visit E (n + 1) c node)) ∧
    (∀ m p o, Agrees (resolveP E n m p o) (resolveP E (n + 1) m p o)) ∧
    (∀ m, Agrees (parseScope E n m) (parseScope E (n + 1) m))
  | 0 => by
    refine ⟨fun c node s h => ?_, fun m p o s h => ?_, fun m s h => ?_⟩
    · simp only [visit] at h; exact absurd rfl h
    · simp only [resolveP] at h; exact absurd rfl h
    · simp only [parseScope] at h; exact absurd rfl h
  | n + 1 => by
    obtain ⟨hv, hr, hp⟩ := limit_step E n
    refine ⟨fun c node => ?_, fun m p o => ?_, fun m => ?_⟩
    · cases node
      case annAssign => rw [visit, visit]; exact visitAnnAssign_agrees hr _ _ _ _
      case assign => rw [visit, visit]; exact visitAssign_agrees hr _ _ _ _
      case functionDef => rw [visit, visit]; exact Agrees.refl _
      case classDef =>
        rw [visit, visit]
        exact Agrees.bind (visitClassHead_agrees hp hr _ _ _ _) fun _ => Agrees.each (hv _) _
      case ifStmt =>
        rw [visit, visit]
        exact Agrees.bind (Agrees.bind (Agrees.map (fun name =>
          Agrees.bind (hr _ _ _) fun _ => Agrees.refl _) _) fun _ => Agrees.refl _)
          fun _ => Agrees.each (hv _) _
      case import_ => rw [visit, visit]; exact Agrees.refl _
      case importFrom => rw [visit, visit]; exact Agrees.refl _
      case other => rw [visit, visit]; exact Agrees.each (hv _) _
    · cases o
      · rw [resolveP, resolveP]; exact Agrees.refl _
      · rw [resolveP, resolveP]
        exact Agrees.bind (hp _) fun _ => resolveIn_agrees hr _ _ _ _ _
    · intro s h
      by_cases hm : m ∈ s.visited
      · rw [parse_visited E n hm, parse_visited E (n + 1) hm]
      · cases hsrc : E.source m with
        | none => rw [parse_missing E n hm hsrc, parse_missing E (n + 1) hm hsrc]
        | some body =>
          rw [parse_source E n hm hsrc] at h
          rw [parse_source E n hm hsrc, parse_source E (n + 1) hm hsrc]
          exact Agrees.bind (Agrees.each (hv _) _) (fun _ => Agrees.refl _) _ h

theorem limit_irrelevant (E : StubFiles) (modules : List Path) (s : ParseState) {n k : Nat}
    (hk : n ≤ k) (h : (parseAll E n modules s).1 ≠ .error .recursionError) :
    parseAll E k modules s = parseAll E n modules s := by
  induction k with
  | zero => rw [Nat.le_zero.1 hk]
  | succ k ih =>
    by_cases e : n = k + 1
    · rw [e]
    · have ih := ih (by omega)
      have hp := (limit_step E k).2.2
      rw [← ih]
      exact (Agrees.bind (hp _) fun _ => Agrees.each (fun m => Agrees.bind (hp m) fun _ =>
        Agrees.refl _) modules) s (by rw [← ih] at h; exact h)

end Paradigm
