import Verif.Spec.Assignments
import Verif.Spec.Session
import Verif.Lemmas.Parsing
import Verif.Lemmas.Superclasses
import Verif.Lemmas.Aliases
import Verif.Lemmas.Bases
import Verif.Lemmas.Pointwise

/-!
# Lemmas about the assignments in tables made from stub files
-/

namespace Paradigm

open Spec

theorem assigning_mem : ∀ {nodes : List Stmt}, AllPlainlyAssigning nodes → ∀ node ∈ nodes, PlainlyAssigning node
  | _ :: _, h, _, .head _ => h.1
  | _ :: _, h, _, .tail _ hm => assigning_mem h.2 _ hm

/-- A node may be stored for a path: if it is an assignment, it is a plain one to the last name of the path. -/
def Storable (p : Path) (node : Stmt) : Prop :=
  ∀ targets value, assignmentOf node = some (targets, value) →
    (∃ id, targets = [.name id false] ∧ p.getLast? = some id) ∧ ∀ e, value = some e → BitOps e

/-- Everything stored may be. -/
def AllStorable (s : ParseState) : Prop :=
  ∀ m d, s.nodes.lookup m = some d → ∀ p l, d.lookup p = some l → ∀ node ∈ l, Storable p node

/-- Kept. -/
def KeepsStorable (s t : ParseState) : Prop := AllStorable s → AllStorable t

theorem storable_preorder : Preorder' KeepsStorable := ⟨fun _ h => h, fun h h' x => h' (h x)⟩

theorem AllStorable.same {s t : ParseState} (h : AllStorable s) (he : t.nodes = s.nodes) : AllStorable t := by
  intro m d hm
  rw [he] at hm
  exact h m d hm

theorem storable_function (p : Path) (f : FunctionDef) : Storable p (.functionDef f) := fun _ _ h => nomatch h

theorem storable_node {c : Place} {path : Path} {node : Stmt} {s : ParseState}
    (hn : Storable (c.parent ++ path) node) (h : AllStorable s) : AllStorable (addNode c path node s) := by
  intro m d hm p l hp
  have hm : (dictSet s.nodes c.module (dictUpdate ((s.nodes.lookup c.module).getD []) (c.parent ++ path) []
      (· ++ [node]))).lookup m = some d := hm
  by_cases he : m = c.module
  · subst he
    rw [lookup_dictSet_self] at hm
    cases hm
    by_cases hpe : p = c.parent ++ path
    · subst hpe
      rw [lookup_dictUpdate_self] at hp
      cases hp
      intro x hx
      rcases List.mem_append.1 hx with hx | hx
      · cases hl : s.nodes.lookup c.module with
        | none => rw [hl] at hx; cases hx
        | some d' =>
          rw [hl] at hx
          cases hl' : d'.lookup (c.parent ++ path) with
          | none => simp [hl'] at hx
          | some l' =>
            simp only [Option.getD_some, hl'] at hx
            exact h _ _ hl _ _ hl' x hx
      · cases List.mem_singleton.1 hx
        exact hn
    · rw [lookup_dictUpdate_ne _ _ _ hpe] at hp
      cases hl : s.nodes.lookup c.module with
      | none => rw [hl] at hp; cases hp
      | some d' => rw [hl] at hp; exact h _ _ hl p l hp
  · rw [lookup_dictSet_ne _ _ he] at hm
    exact h m d hm p l hp

theorem storable_target {c : Place} {id : String} {node : Stmt} {value : Option Expr}
    (ha : assignmentOf node = some ([.name id false], value)) (hv : ∀ e, value = some e → BitOps e) :
    Storable (c.parent ++ [id]) node := by
  intro targets v h
  rw [ha] at h
  cases h
  exact ⟨⟨id, rfl, by simp⟩, hv⟩

theorem storable_baseUpdates (c : Place) (name : String) : BaseUpdates KeepsStorable c name where
  base _ _ h := h.same rfl
  tuple _ _ _ h := (storable_node (storable_function _ _) h).same rfl
  clear _ h := h.same rfl
  generics _ _ h := h.same rfl

theorem Pres.lift_bind {R : ParseState → ParseState → Prop} (hR : Preorder' R) {α β : Type} {r : Except PyErr α}
    {f : α → P β} (h : ∀ a, r = .ok a → Pres R (f a)) : Pres R (P.lift r >>= f) := by
  cases r with
  | error e => exact fun s => hR.refl s
  | ok a => exact fun s => h a rfl s

section

variable {resolve : Path → Path → Path → P QPath} (hr : ∀ m p o, Pres KeepsStorable (resolve m p o))

include hr in
theorem visitAnnAssign_storable (c : Place) (target annotation : Expr) (value : Option Expr)
    (h : PlainAssignment [target] value) :
    Pres KeepsStorable (visitAnnAssign resolve c (.annAssign target annotation value) target value) := by
  obtain ⟨⟨id, ht⟩, hv⟩ := h
  cases ht
  unfold visitAnnAssign
  refine Pres.lift_bind storable_preorder fun path hpath => ?_
  cases hpath
  split
  · exact fun s h => ((storable_node (storable_target (c := c) rfl hv) h).same rfl : AllStorable _)
  · exact Pres.bind storable_preorder (toQualified_pres storable_preorder hr (fun _ _ h => h.same rfl) _) fun q =>
      Pres.update fun _ h => h.same rfl

include hr in
theorem visitAssign_storable (c : Place) (targets : List Expr) (value : Expr)
    (h : PlainAssignment targets (some value)) :
    Pres KeepsStorable (visitAssign resolve c (.assign targets value) targets value) := by
  obtain ⟨⟨id, ht⟩, hv⟩ := h
  cases ht
  unfold visitAssign
  split
  · refine Pres.each storable_preorder _ fun t ht => ?_
    cases List.mem_singleton.1 ht
    exact fun s h => ((storable_node (storable_target (c := c) rfl hv) h).same rfl : AllStorable _)
  · refine Pres.bind storable_preorder (toQualified_pres storable_preorder hr (fun _ _ h => h.same rfl) _) fun q =>
      Pres.each storable_preorder _ fun t _ => Pres.bind storable_preorder (Pres.lift storable_preorder _) fun path =>
        Pres.update fun _ h => h.same rfl

end

theorem parsing_storable {E : StubFiles} (hE : PlainFiles E) : ∀ n,
    (∀ c node, PlainlyAssigning node → Pres KeepsStorable (visit E n c node)) ∧
    (∀ m p o, Pres KeepsStorable (resolveP E n m p o)) ∧
    (∀ m, Pres KeepsStorable (parseScope E n m))
  | 0 => by
    refine ⟨fun c node _ => ?_, fun m p o => ?_, fun m => ?_⟩
    · simp only [visit]; exact Pres.fail storable_preorder _
    · simp only [resolveP]; exact Pres.fail storable_preorder _
    · simp only [parseScope]; exact Pres.fail storable_preorder _
  | n + 1 => by
    obtain ⟨hv, hr, hp⟩ := parsing_storable hE n
    have hR := storable_preorder
    refine ⟨fun c node h => ?_, fun m p o => ?_, fun m => ?_⟩
    · cases node <;> simp only [visit] <;> simp only [PlainlyAssigning] at h
      case annAssign => exact visitAnnAssign_storable hr _ _ _ _ h
      case assign => exact visitAssign_storable hr _ _ _ h
      case functionDef f =>
        exact fun s h => ((storable_node (storable_function _ _) h).same rfl : AllStorable _)
      case classDef name bases decorators body =>
        refine Pres.bind hR (fun s => ?_) fun _ => Pres.each hR _ fun child hc => hv _ child (assigning_mem h _ hc)
        rw [visitClassHead_eq]
        exact fun hs => classTail_pres hR hp hr (fun _ _ h => h.same rfl) name bases body
          (storable_baseUpdates c name) _ (hs.same rfl)
      case ifStmt test body orelse =>
        refine Pres.bind hR (evaluateTest_pres hR hr E c test) fun b => Pres.each hR _ fun child hc => hv c child ?_
        cases b
        · exact assigning_mem h.2 _ hc
        · exact assigning_mem h.1 _ hc
      case import_ =>
        exact Pres.each hR _ fun _ _ => Pres.each hR _ fun _ _ => Pres.update fun _ h => h.same rfl
      case importFrom =>
        unfold visitImportFrom
        refine Pres.bind hR (Pres.lift hR _) fun m => Pres.each hR _ fun a _ => ?_
        split
        · exact Pres.update fun _ h => h.same rfl
        · exact Pres.update fun _ h => h.same rfl
      case other => exact Pres.each hR _ fun child hc => hv c child (assigning_mem h _ hc)
    · cases o <;> simp only [resolveP]
      · exact Pres.fail hR _
      · exact Pres.bind hR (hp _) fun defs => resolveIn_pres hR hr _ _ _ _ _
    · refine parse_pres E n m hR.refl (fun s _ _ h => h.same rfl) fun s body hm hs h => ?_
      refine Pres.each hR body (fun child hc => hv _ child (assigning_mem (hE m body hs) _ hc)) _ ?_
      intro m' d hm' p l hp
      have hm' : (dictSet s.nodes m []).lookup m' = some d := hm'
      by_cases he : m' = m
      · subst he
        rw [lookup_dictSet_self] at hm'
        cases hm'
        cases hp
      · rw [lookup_dictSet_ne _ _ he] at hm'
        exact h m' d hm' p l hp

theorem parseAll_storable {E : StubFiles} (hE : PlainFiles E) {n : Nat} {modules : List Path} {r : Except PyErr Unit}
    {s : ParseState} (h : parseAll E n modules {} = (r, s)) : AllStorable s :=
  (parseAll_pres storable_preorder (parsing_storable hE n).2.2 modules).of_eq h (fun _ _ h => nomatch h)

/-! ### Specialisations -/

mutual

/-- Expressions that have an identifier use no other operators. -/
theorem bitOps_of_identifier {rep : Atom → String} : ∀ {e : Expr} {name : String},
    toIdentifier rep e = .ok name → BitOps e
  | .name .., _, _ => trivial
  | .constant _, _, _ => trivial
  | .attribute value attr load, name, h => by
    unfold toIdentifier at h
    split at h
    · cases h
    · cases hv : toIdentifier rep value with
      | error e => rw [hv] at h; cases h
      | ok v => exact (bitOps_of_identifier hv : BitOps value)
  | .subscript value slice load, name, h => by
    unfold toIdentifier at h
    split at h
    · cases h
    · cases hv : toIdentifier rep value with
      | error e => rw [hv] at h; cases h
      | ok v =>
        rw [hv] at h
        cases hs : toIdentifier rep slice with
        | error e => rw [hs] at h; cases h
        | ok w => exact ⟨bitOps_of_identifier hv, bitOps_of_identifier hs⟩
  | .tuple elts load, name, h => by
    unfold toIdentifier at h
    split at h
    · cases h
    · cases hv : toIdentifiers rep elts with
      | error e => rw [hv] at h; cases h
      | ok v => exact bitOps_of_identifiers hv
  | .list elts, name, h => by cases h
  | .call .., name, h => by cases h
  | .other .., name, h => by cases h
  | .binOp left op right, name, h => by
    unfold toIdentifier at h
    cases hv : toIdentifier rep left with
    | error e => rw [hv] at h; cases h
    | ok v =>
      rw [hv] at h
      cases ho : opIdentifier op with
      | error e => rw [ho] at h; cases h
      | ok o =>
        rw [ho] at h
        cases hs : toIdentifier rep right with
        | error e => rw [hs] at h; cases h
        | ok w =>
          refine ⟨?_, bitOps_of_identifier hv, bitOps_of_identifier hs⟩
          unfold opIdentifier at ho
          by_cases h1 : op = "BitAnd"
          · exact .inr (.inl h1)
          · by_cases h2 : op = "BitOr"
            · exact .inl h2
            · by_cases h3 : op = "BitXor"
              · exact .inr (.inr h3)
              · rw [if_neg h1, if_neg h2, if_neg h3] at ho
                cases ho

theorem bitOps_of_identifiers {rep : Atom → String} : ∀ {es : List Expr} {names : List String},
    toIdentifiers rep es = .ok names → BitOpsAll es
  | [], _, _ => trivial
  | e :: es, names, h => by
    unfold toIdentifiers at h
    cases hv : toIdentifier rep e with
    | error e => rw [hv] at h; cases h
    | ok v =>
      rw [hv] at h
      cases hs : toIdentifiers rep es with
      | error e => rw [hs] at h; cases h
      | ok w => exact ⟨bitOps_of_identifier hv, bitOps_of_identifiers hs⟩

end

theorem bitOps_mem : ∀ {es : List Expr}, BitOpsAll es → ∀ e ∈ es, BitOps e
  | _ :: _, h, _, .head _ => h.1
  | _ :: _, h, _, .tail _ hm => bitOps_mem h.2 _ hm

theorem bitOps_unpack {e : Expr} (h : BitOps e) : ∀ x ∈ unpack e, BitOps x := by
  cases e <;> simp only [unpack, List.mem_singleton, forall_eq]
  case tuple elts load => exact bitOps_mem h
  all_goals exact h

mutual

/-- The replacement of type parameters brings in no other operators. -/
theorem bitOps_specialize {table : Dict Path Expr} (ht : ∀ p x, table.lookup p = some x → BitOps x) :
    ∀ {e e' : Expr}, specialize table e = .ok e' → BitOps e → BitOps e'
  | .name id load, e', h, hb => by
    unfold specialize at h
    split at h
    · cases h; trivial
    · split at h
      · cases h; trivial
      · rename_i c hc
        cases h
        exact ht _ _ hc
  | .constant value, e', h, hb => by
    cases h
    trivial
  | .attribute value attr load, e', h, hb => by
    unfold specialize at h
    split at h
    · cases h; exact hb
    · split at h
      · cases h
      · split at h
        · cases h; exact hb
        · rename_i c hc
          cases h
          exact ht _ _ hc
  | .subscript value slice load, e', h, hb => by
    unfold specialize at h
    cases hv : specialize table value with
    | error e => rw [hv] at h; cases h
    | ok v =>
      rw [hv] at h
      cases hs : specialize table slice with
      | error e => rw [hs] at h; cases h
      | ok w =>
        rw [hs] at h
        cases h
        exact ⟨bitOps_specialize ht hv hb.1, bitOps_specialize ht hs hb.2⟩
  | .tuple elts load, e', h, hb => by
    unfold specialize at h
    cases hv : specializeAll table elts with
    | error e => rw [hv] at h; cases h
    | ok v =>
      rw [hv] at h
      cases h
      exact bitOps_specializeAll ht hv hb
  | .list elts, e', h, hb => by
    unfold specialize at h
    cases hv : specializeAll table elts with
    | error e => rw [hv] at h; cases h
    | ok v =>
      rw [hv] at h
      cases h
      exact bitOps_specializeAll ht hv hb
  | .other tag elts, e', h, hb => by
    unfold specialize at h
    cases hv : specializeAll table elts with
    | error e => rw [hv] at h; cases h
    | ok v =>
      rw [hv] at h
      cases h
      exact bitOps_specializeAll ht hv hb
  | .binOp left op right, e', h, hb => by
    unfold specialize at h
    cases hv : specialize table left with
    | error e => rw [hv] at h; cases h
    | ok v =>
      rw [hv] at h
      cases hs : specialize table right with
      | error e => rw [hs] at h; cases h
      | ok w =>
        rw [hs] at h
        cases h
        exact ⟨hb.1, bitOps_specialize ht hv hb.2.1, bitOps_specialize ht hs hb.2.2⟩
  | .call func args keywords, e', h, hb => by
    unfold specialize at h
    cases hv : specialize table func with
    | error e => rw [hv] at h; cases h
    | ok v =>
      rw [hv] at h
      cases hs : specializeAll table args with
      | error e => rw [hs] at h; cases h
      | ok w =>
        rw [hs] at h
        cases hk : specializeKeywords table keywords with
        | error e => rw [hk] at h; cases h
        | ok k =>
          rw [hk] at h
          cases h
          exact ⟨bitOps_specialize ht hv hb.1, bitOps_specializeAll ht hs hb.2.1,
            bitOps_specializeKeywords ht hk hb.2.2⟩

theorem bitOps_specializeAll {table : Dict Path Expr} (ht : ∀ p x, table.lookup p = some x → BitOps x) :
    ∀ {es es' : List Expr}, specializeAll table es = .ok es' → BitOpsAll es → BitOpsAll es'
  | [], _, h, _ => by
    cases h
    trivial
  | e :: es, _, h, hb => by
    unfold specializeAll at h
    cases hv : specialize table e with
    | error e => rw [hv] at h; cases h
    | ok v =>
      rw [hv] at h
      cases hs : specializeAll table es with
      | error e => rw [hs] at h; cases h
      | ok w =>
        rw [hs] at h
        cases h
        exact ⟨bitOps_specialize ht hv hb.1, bitOps_specializeAll ht hs hb.2⟩

theorem bitOps_specializeKeywords {table : Dict Path Expr} (ht : ∀ p x, table.lookup p = some x → BitOps x) :
    ∀ {es es' : List (Option String × Expr)}, specializeKeywords table es = .ok es' → BitOpsKw es → BitOpsKw es'
  | [], _, h, _ => by
    cases h
    trivial
  | (name, e) :: es, _, h, hb => by
    unfold specializeKeywords at h
    cases hv : specialize table e with
    | error e => rw [hv] at h; cases h
    | ok v =>
      rw [hv] at h
      cases hs : specializeKeywords table es with
      | error e => rw [hs] at h; cases h
      | ok w =>
        rw [hs] at h
        cases h
        exact ⟨bitOps_specialize ht hv hb.1, bitOps_specializeKeywords ht hs hb.2⟩

end

theorem storable_specialize {table : Dict Path Expr} (ht : ∀ p x, table.lookup p = some x → BitOps x) {p p' : Path}
    (hp : p'.getLast? = p.getLast?) {node node' : Stmt} (h : specializeStmt table node = .ok node')
    (hs : Storable p node) : Storable p' node' := by
  cases node
  case functionDef f =>
    simp only [specializeStmt] at h
    cases hv : specializeFunction table f with
    | error e => rw [hv] at h; cases h
    | ok v =>
      rw [hv] at h
      cases h
      exact storable_function _ _
  case assign targets value =>
    obtain ⟨⟨id, rfl, hid⟩, hv⟩ := hs _ _ rfl
    simp only [specializeStmt] at h
    have h1 : specializeAll table [.name id false] = .ok [.name id false] := rfl
    rw [h1] at h
    cases hw : specialize table value with
    | error e => rw [hw] at h; cases h
    | ok v =>
      rw [hw] at h
      cases h
      intro targets' value' ha
      cases ha
      refine ⟨⟨id, rfl, hp.trans hid⟩, fun e he => ?_⟩
      cases he
      exact bitOps_specialize ht hw (hv _ rfl)
  case annAssign target annotation value =>
    obtain ⟨⟨id, hid', hid⟩, hv⟩ := hs _ _ rfl
    cases hid'
    simp only [specializeStmt] at h
    have h1 : specialize table (.name id false) = .ok (.name id false) := rfl
    rw [h1] at h
    cases ha : specialize table annotation with
    | error e => rw [ha] at h; cases h
    | ok a =>
      rw [ha] at h
      cases value with
      | none =>
        cases h
        intro targets' value' ha
        cases ha
        exact ⟨⟨id, rfl, hp.trans hid⟩, fun _ he => nomatch he⟩
      | some value =>
        cases hw : specialize table value with
        | error e =>
          have h2 : specializeOption table (some value) = .error e := by simp only [specializeOption, hw]; rfl
          rw [h2] at h; cases h
        | ok v =>
          have h2 : specializeOption table (some value) = .ok (some v) := by simp only [specializeOption, hw]; rfl
          rw [h2] at h
          cases h
          intro targets' value' ha
          cases ha
          refine ⟨⟨id, rfl, hp.trans hid⟩, fun e he => ?_⟩
          cases he
          exact bitOps_specialize ht hw (hv _ rfl)
  all_goals
    cases h
    exact fun _ _ ha => nomatch ha

theorem storable_setSpec {path : Path} {nodes : List Stmt} {s : ParseState}
    (hn : ∀ node ∈ nodes, Storable path node) (h : AllStorable s) : AllStorable (setSpecNodes path nodes s) := by
  intro m d hm p l hp
  have hm : (dictUpdate s.nodes specPath [] (dictSet · path nodes)).lookup m = some d := hm
  by_cases he : m = specPath
  · subst he
    rw [lookup_dictUpdate_self] at hm
    cases hm
    by_cases hpe : p = path
    · subst hpe
      rw [lookup_dictSet_self] at hp
      cases hp
      exact hn
    · rw [lookup_dictSet_ne _ _ hpe] at hp
      cases hl : s.nodes.lookup specPath with
      | none => rw [hl] at hp; cases hp
      | some d' => rw [hl] at hp; exact h _ _ hl p l hp
  · rw [lookup_dictUpdate_ne _ _ _ he] at hm
    exact h m d hm p l hp

section

variable {o : SetOrder}

theorem registerDependency_storable (n : Nat) (gm sm : Path) (names : List String) (name : String) :
    Pres KeepsStorable (registerDependency n gm sm names name) := by
  unfold registerDependency
  refine Pres.bind storable_preorder (fun s h => h) fun q => ?_
  split
  · exact Pres.update fun _ h => h.same rfl
  · exact Pres.pure' storable_preorder _

theorem registerMember_storable (n : Nat) (gm go sm so : Path) (table : Dict Path Expr)
    (ht : ∀ p x, table.lookup p = some x → BitOps x) (names : List String) (nodes : Dict Path (List Stmt))
    (hn : ∀ p l, nodes.lookup p = some l → ∀ node ∈ l, Storable p node) (name : String) :
    Pres KeepsStorable (registerMember o n gm go sm so table names nodes name) := by
  have hR := storable_preorder
  unfold registerMember
  refine Pres.lift_bind hR fun generic hg => Pres.lift_bind hR fun new hnew =>
    Pres.bind hR (Pres.update fun s => storable_setSpec ?_) fun _ => Pres.bind hR (Pres.lift hR _)
    fun defined => Pres.bind hR (Pres.each hR _ fun _ _ => registerDependency_storable _ _ _ _ _)
    fun _ => Pres.bind hR (Pres.item hR ParseState.kinds gm) fun kinds =>
    Pres.bind hR (Pres.lift hR _) fun kind => Pres.update fun _ h => h.same rfl
  have hg : nodes.lookup (go ++ [name]) = some generic := by
    unfold itemOf at hg
    split at hg
    · cases hg
    · rename_i v hv
      cases hg
      exact hv
  intro node' hnode'
  obtain ⟨node, hm, he⟩ := (mapExcept_pointwise.1 hnew).exists_left hnode'
  exact storable_specialize ht (by simp) he (hn _ _ hg node hm)

theorem nodes_storable {β : Type} {m : Path} {f : Dict Path (List Stmt) → P β}
    (h : ∀ nodes, (∀ p l, nodes.lookup p = some l → ∀ node ∈ l, Storable p node) → Pres KeepsStorable (f nodes)) :
    Pres KeepsStorable (P.item ParseState.nodes m >>= f) := by
  intro s hs
  show AllStorable (P.bind _ _ s).2
  unfold P.bind P.item
  cases hl : s.nodes.lookup m with
  | none => exact hs
  | some nodes => exact h nodes (hs m nodes hl) s hs

theorem registerGeneric_storable (n : Nat) (gm go sm so : Path) (params : List Path) (args : List Expr)
    (ha : ∀ e ∈ args, BitOps e) : Pres KeepsStorable (registerGeneric o n gm go sm so params args) := by
  have hR := storable_preorder
  have ht : ∀ p x, (params.zip args).lookup p = some x → BitOps x := fun p x h =>
    ha x (List.of_mem_zip (mem_of_lookup_some h)).2
  unfold registerGeneric
  refine Pres.bind hR (Pres.update fun _ h => h.same rfl) fun _ => Pres.bind hR (Pres.item hR _ _) fun defs => ?_
  split
  · exact Pres.fail hR _
  · refine Pres.bind hR (Pres.update fun _ h => h.same rfl) fun _ => nodes_storable fun nodes hn =>
      Pres.bind hR (Pres.update fun _ h => h.same rfl) fun _ => Pres.each hR _ fun _ _ =>
        registerMember_storable _ _ _ _ _ _ ht _ _ hn _

theorem registerSubscript_storable (rep : Atom → String) (n : Nat) (generic : QPath) (cm : Path)
    (table : Dict Path Expr) (i : Nat) (value slice : Expr) (load : Bool) :
    Pres KeepsStorable (registerSubscript o rep n generic cm table i value slice load) := by
  have hR := storable_preorder
  unfold registerSubscript
  refine Pres.bind hR (Pres.lift hR _) fun v => Pres.bind hR (Pres.lift hR _) fun w =>
    Pres.bind hR (Pres.update fun _ h => h.same rfl) fun _ => Pres.lift_bind hR fun name hname =>
    Pres.bind hR (Pres.isRegistered hR _) fun b => ?_
  split
  · exact Pres.pure' hR _
  · exact Pres.bind hR (Pres.lift hR _) fun path => Pres.bind hR (fun s h => h) fun g =>
      Pres.bind hR (Pres.item hR _ _) fun params => Pres.bind hR (registerGeneric_storable _ _ _ _ _ _ _
        (bitOps_unpack (bitOps_of_identifier hname).2)) fun _ => Pres.pure' hR _

theorem registerBaseBase_storable (rep : Atom → String) (n : Nat) (generic : QPath) (cm : Path) (name : String)
    (table : Dict Path Expr) (b : Expr × Nat) :
    Pres KeepsStorable (registerBaseBase o rep n generic cm name table b) := by
  have hR := storable_preorder
  refine Pres.bind hR ?_ fun q => Pres.update fun _ h => h.same rfl
  unfold baseBasePath
  split
  · exact registerSubscript_storable _ _ _ _ _ _ _ _ _
  · exact Pres.bind hR (Pres.lift hR _) fun path s h => h

theorem registerBase_storable (rep : Atom → String) (n : Nat) (base : Expr) (cm co : Path) :
    Pres KeepsStorable (registerBase o rep n base cm co) := by
  have hR := storable_preorder
  unfold registerBase
  split
  · refine Pres.lift_bind hR fun name hname => Pres.bind hR (Pres.isRegistered hR _) fun b => ?_
    split
    · exact Pres.pure' hR _
    · refine Pres.bind hR ?_ fun _ => Pres.pure' hR _
      unfold registerNew
      refine Pres.bind hR (Pres.lift hR _) fun path => Pres.bind hR (fun s h => h) fun g =>
        Pres.bind hR (Pres.item hR _ _) fun params => Pres.bind hR (registerGeneric_storable _ _ _ _ _ _ _
          (bitOps_unpack (bitOps_of_identifier hname).2)) fun _ => Pres.bind hR (Pres.get hR) fun s => ?_
      split
      · exact Pres.fail hR _
      · exact Pres.bind hR (Pres.item hR _ _) fun bases => Pres.each hR _ fun b _ =>
          registerBaseBase_storable _ _ _ _ _ _ _
  · exact Pres.bind hR (Pres.lift hR _) fun path s h => h

theorem processBases_storable (rep : Atom → String) (n : Nat) : Pres KeepsStorable (processBases o rep n) := by
  have hR := storable_preorder
  refine Pres.bind hR ?_ fun _ => Pres.bind hR (Pres.get hR) fun s => Pres.each hR _ fun cls _ =>
    Pres.bind hR (Pres.item hR _ _) fun bases => Pres.each hR _ fun i _ =>
    Pres.bind hR (Pres.item hR _ _) fun bases => ?_
  · refine Pres.bind hR (Pres.get hR) fun s => ?_
    split
    · exact Pres.fail hR _
    · split
      · exact Pres.fail hR _
      · split
        · exact Pres.fail hR _
        · split
          · exact Pres.fail hR _
          · refine Pres.update fun s h m d hm p l hp => ?_
            have hm : (dictSet s.nodes specPath []).lookup m = some d := hm
            by_cases he : m = specPath
            · subst he
              rw [lookup_dictSet_self] at hm
              cases hm
              cases hp
            · rw [lookup_dictSet_ne _ _ he] at hm
              exact h m d hm p l hp
  · split
    · exact Pres.pure' hR _
    · exact Pres.bind hR (registerBase_storable _ _ _ _ _) fun q => Pres.update fun _ h => h.same rfl

end

/-- Everything stored in tables made from plain files may be stored where it is. -/
theorem stored_storable {E : StubFiles} (hE : PlainFiles E) {rep : Atom → String} {n : Nat} {modules : List Path}
    {T : Stubs} (h : parseStubs E rep n modules = .ok T) {q : QPath} {node : Stmt} (hs : StoredAt T q node) :
    Storable q.2 node := by
  obtain ⟨s, t, h1, h2, h3⟩ := parseStubs_ok h
  subst h3
  obtain ⟨nodes, stmts, h4, h5, h6⟩ := hs
  exact (processBases_storable rep n).of_eq h2 (parseAll_storable hE h1) _ _ h4 _ _ h5 node h6

theorem alias_stored {T : Stubs} {q : QPath} {e : Expr} (h : aliasValue T q = some e) :
    ∃ node targets, StoredAt T q node ∧ assignmentOf node = some (targets, some e) := by
  obtain ⟨nodes, kinds, kind, id, node, h1, -, -, -, h5, -, rfl | ⟨_, rfl⟩⟩ := aliasValue_spec h
  · exact ⟨_, _, ⟨_, _, h1, h5, .head _⟩, rfl⟩
  · exact ⟨_, _, ⟨_, _, h1, h5, .head _⟩, rfl⟩

theorem targets_of_files {E : StubFiles} (hE : PlainFiles E) {rep : Atom → String} {n : Nat} {modules : List Path}
    {T : Stubs} (h : parseStubs E rep n modules = .ok T) : PlainTargets T := by
  intro q node targets value hs ha
  obtain ⟨⟨id, h1, h2⟩, -⟩ := stored_storable hE h hs targets value ha
  exact ⟨id, false, h1, h2⟩

theorem ops_of_files {E : StubFiles} (hE : PlainFiles E) {rep : Atom → String} {n : Nat} {modules : List Path}
    {T : Stubs} (h : parseStubs E rep n modules = .ok T) (q : QPath) (e : Expr) (he : aliasValue T q = some e) :
    BitOps e := by
  obtain ⟨node, targets, hs, ha⟩ := alias_stored he
  exact (stored_storable hE h hs targets _ ha).2 e rfl

end Paradigm
