import Verif.Spec.ReadingOrder
import Verif.Lemmas.WrittenBases
import Verif.Lemmas.ModuleOrder

/-!
# Lemmas about stub files that use only what comes before
-/

namespace Paradigm

open Spec

/-- Nothing but `v` has been asked for, in the order `r`; all star imports lead to `v`, and so do the references by
the names. -/
structure Calm (names : List String) (v r : List Path) (s : ParseState) : Prop where
  visited : s.visited = v
  reads : s.reads = r
  subs : ∀ x, ∀ sub ∈ (s.submodules.lookup x).getD [], x ∈ v ∧ sub ∈ v
  refs : ∀ x ∈ v, ∀ path q, referenceAt s x path = some q → BeginsBy names path → q.1 ∈ v

/-- It stays so. -/
def StaysCalm (names : List String) (v r : List Path) (s t : ParseState) : Prop :=
  Calm names v r s → Calm names v r t

theorem staysCalm_preorder (names : List String) (v r : List Path) : Preorder' (StaysCalm names v r) :=
  ⟨fun _ h => h, fun h h' hs => h' (h hs)⟩

theorem calm_bind {names : List String} {v r : List Path} {α β : Type} {x : P α} {f : α → P β} {Post : α → Prop}
    (hx : ∀ s, Calm names v r s → Calm names v r (x s).2 ∧ ∀ a, (x s).1 = .ok a → Post a)
    (hf : ∀ a, Post a → Pres (StaysCalm names v r) (f a)) : Pres (StaysCalm names v r) (x >>= f) := by
  intro s hs
  show Calm names v r (P.bind x f s).2
  unfold P.bind
  have h := hx s hs
  cases e : x s with
  | mk res t =>
    rw [e] at h
    cases res with
    | error err => exact h.1
    | ok a => exact hf a (h.2 a rfl) t h.1

theorem begins_take {names : List String} {path : Path} (h : BeginsBy names path) {k : Nat} (hk : 0 < k) :
    BeginsBy names (path.take k) := by
  obtain ⟨x, hx, hp⟩ := h
  refine ⟨x, hx, ?_⟩
  match path, k, hk with
  | [], _, _ => cases hp
  | _ :: _, _ + 1, _ => exact hp

/-- Nothing is opened, and the answer is good. -/
def Still (Good : QPath → Prop) (s : ParseState) (x : P QPath) : Prop :=
  (x s).2 = s ∧ ∀ q, (x s).1 = .ok q → Good q

theorem still_firstFound {Good : QPath → Prop} {s : ParseState} {f : Path → P QPath} {y : P QPath}
    (hy : Still Good s y) : ∀ xs : List Path, (∀ x ∈ xs, Still Good s (f x)) → Still Good s (P.firstFound f y xs)
  | [], _ => hy
  | x :: xs, h => by
    obtain ⟨h1, h2⟩ := h x List.mem_cons_self
    have ih := still_firstFound hy xs fun z hz => h z (List.mem_cons_of_mem _ hz)
    rw [P.firstFound]
    unfold Still P.orNotFound
    cases e : f x s with
    | mk res t =>
      rw [e] at h1 h2
      cases h1
      cases res with
      | ok a => exact ⟨rfl, h2⟩
      | error err =>
        cases err
        case objectNotFound => exact ih
        all_goals exact ⟨rfl, fun _ h => nomatch h⟩

/-- In modules that have been visited, names are looked up without opening files. -/
theorem resolveP_unmoved {E : StubFiles} {names : List String} {v r : List Path} (hb : builtinsPath ∈ v) :
    ∀ (n : Nat) (m parent path : Path) (s : ParseState), Calm names v r s → m ∈ v →
    Still (fun q => BeginsBy names path → q.1 ∈ v) s (resolveP E n m parent path)
  | 0, m, parent, path, s, hs, hm => by
    unfold Still
    rw [resolveP]
    exact ⟨rfl, fun _ h => nomatch h⟩
  | 1, m, parent, [], s, hs, hm => ⟨rfl, fun _ h => nomatch h⟩
  | n + 2, m, parent, [], s, hs, hm => ⟨rfl, fun _ h => nomatch h⟩
  | 1, m, parent, head :: rest, s, hs, hm => by
    unfold Still
    rw [resolveP]
    show (P.bind (parseScope E 0 m) _ s).2 = _ ∧ ∀ q, (P.bind (parseScope E 0 m) _ s).1 = _ → _
    unfold P.bind
    rw [parseScope]
    exact ⟨rfl, fun _ h => nomatch h⟩
  | n + 2, m, parent, head :: rest, s, hs, hm => by
    unfold Still
    rw [resolveP]
    show (P.bind (parseScope E (n + 1) m) _ s).2 = _ ∧ ∀ q, (P.bind (parseScope E (n + 1) m) _ s).1 = _ → _
    unfold P.bind
    rw [parse_visited E n (by rw [hs.visited]; exact hm)]
    cases hd : s.definitions.lookup m with
    | none =>
      unfold P.item
      rw [hd]
      exact ⟨rfl, fun _ h => nomatch h⟩
    | some defs =>
      rw [item_ok hd]
      dsimp only
      unfold resolveIn
      split
      · exact ⟨rfl, fun q e _ => by cases e; exact hm⟩
      · split
        · exact ⟨rfl, fun q e _ => by cases e; exact hm⟩
        · rw [bind_of_ok (show P.get s = (.ok s, s) from rfl)]
          refine still_firstFound (Good := fun q => BeginsBy names (head :: rest) → q.1 ∈ v) ?_ _ fun sub hsub =>
            resolveP_unmoved hb (n + 1) sub [] (head :: rest) s hs (hs.subs m sub hsub).2
          unfold Still
          show (P.bind (P.item ParseState.references m) _ s).2 = _ ∧
            ∀ q, (P.bind (P.item ParseState.references m) _ s).1 = _ → _
          unfold P.bind
          cases hr : s.references.lookup m with
          | none =>
            unfold P.item
            rw [hr]
            exact ⟨rfl, fun _ h => nomatch h⟩
          | some refs =>
            rw [item_ok hr]
            dsimp only
            cases hno : longestReference refs (head :: rest) (rest.length + 1) with
            | some kq =>
              obtain ⟨k, rm, ro⟩ := kq
              obtain ⟨h1, h2, h3, -⟩ := longestReference_some hno
              refine ⟨rfl, fun q e hq => ?_⟩
              cases e
              refine hs.refs m hm ((head :: rest).take k) (rm, ro) ?_ (begins_take hq (by omega))
              unfold referenceAt
              rw [hr]
              exact h3
            | none =>
              dsimp only
              show (P.bind (P.item ParseState.definitions builtinsPath) _ s).2 = _ ∧
                ∀ q, (P.bind (P.item ParseState.definitions builtinsPath) _ s).1 = _ → _
              unfold P.bind
              cases hbd : s.definitions.lookup builtinsPath with
              | none =>
                unfold P.item
                rw [hbd]
                exact ⟨rfl, fun _ h => nomatch h⟩
              | some scope =>
                rw [item_ok hbd]
                dsimp only
                split
                · exact ⟨rfl, fun q e _ => by cases e; exact hb⟩
                · exact ⟨rfl, fun _ h => nomatch h⟩

theorem Calm.of_eq {names : List String} {v r : List Path} {s t : ParseState} (h : Calm names v r s)
    (h1 : t.visited = s.visited) (h2 : t.reads = s.reads) (h3 : t.submodules = s.submodules)
    (h4 : t.references = s.references) : Calm names v r t :=
  ⟨h1.trans h.visited, h2.trans h.reads, by rw [h3]; exact h.subs, by unfold referenceAt; rw [h4]; exact h.refs⟩

section visits

variable {E : StubFiles} {names : List String} {v r : List Path} (hb : builtinsPath ∈ v)

include hb in
theorem resolveP_calm (n : Nat) (m parent path : Path) (hm : m ∈ v) (s : ParseState) (hs : Calm names v r s) :
    Calm names v r (resolveP E n m parent path s).2 ∧
      ∀ q, (resolveP E n m parent path s).1 = .ok q → BeginsBy names path → q.1 ∈ v := by
  obtain ⟨h1, h2⟩ := resolveP_unmoved (E := E) hb n m parent path s hs hm
  exact ⟨by rw [h1]; exact hs, h2⟩

include hb in
theorem toQualified_calm (n : Nat) (c : Place) (path : Path) (hm : c.module ∈ v) (s : ParseState)
    (hs : Calm names v r s) : Calm names v r (toQualified (resolveP E n) c path s).2 ∧
      ∀ q, (toQualified (resolveP E n) c path s).1 = .ok q → BeginsBy names path → q.1 ∈ v := by
  have h := resolveP_calm (E := E) hb n c.module c.parent path hm s hs
  unfold toQualified P.orNotFound
  cases e : resolveP E n c.module c.parent path s with
  | mk res t =>
    rw [e] at h
    cases res with
    | ok a => exact h
    | error err =>
      cases err
      case objectNotFound =>
        exact ⟨h.1.of_eq (t := addDefinition c path t) rfl rfl rfl rfl, fun q e _ => by cases e; exact hm⟩
      all_goals exact ⟨h.1, fun _ h => nomatch h⟩

theorem parse_calm (n : Nat) (m : Path) (hm : m ∈ v) : Pres (StaysCalm names v r) (parseScope E n m) := by
  intro s hs
  match n with
  | 0 => rw [parseScope]; exact hs
  | n + 1 =>
    rw [parse_visited E n (by rw [hs.visited]; exact hm)]
    exact Pres.item (staysCalm_preorder names v r) _ _ s hs

include hb in
theorem isTypeVar_calm (n : Nat) (c : Place) (path : Path) (hm : c.module ∈ v) (hp : BeginsBy names path) :
    Pres (StaysCalm names v r) (isTypeVar (parseScope E n) (resolveP E n) c path) := by
  have hR := staysCalm_preorder names v r
  unfold isTypeVar
  refine calm_bind (Post := fun q => q.1 ∈ v) (fun s hs => ?_) fun q hq => ?_
  · have := toQualified_calm (E := E) hb n c path hm s hs
    exact ⟨this.1, fun q e => this.2 q e hp⟩
  · refine Pres.bind hR (parse_calm n q.1 hq) fun _ => Pres.bind hR (Pres.item hR _ _) fun nodes => ?_
    split
    · split
      · exact Pres.pure' hR _
      · exact Pres.bind hR (fun s hs => (resolveP_calm hb n _ _ _ hq s hs).1) fun _ => Pres.pure' hR _
    · exact Pres.pure' hR _

include hb in
theorem visitBase_calm (n : Nat) (c : Place) (name : String) (body : List Stmt) (base : Expr) (hm : c.module ∈ v)
    (h : ∀ value slice load, base = .subscript value slice load →
      ∀ e ∈ argLeaves (.subscript value slice load), ∀ p, dotted e = some p → BeginsBy names p) :
    Pres (StaysCalm names v r) (visitBase (parseScope E n) (resolveP E n) c name body base) := by
  have hR := staysCalm_preorder names v r
  have other : ∀ e, Pres (StaysCalm names v r) (do
      let path ← P.lift (toPath e)
      let q ← toQualified (resolveP E n) c path
      if q == namedTuplePath then
        let constructor ← P.lift (namedTupleConstructor name body)
        P.update (addNode c [name] (.functionDef constructor))
        P.update (addSuperclass c.module (c.parent ++ [name]) q)
        pure []
      else if q == protocolPath then pure []
      else if q == genericPath then P.fail .assertionError
      else
        P.update (addBase (c.module, c.parent ++ [name]) e)
        pure [] : P (List Path)) := by
    intro e
    refine Pres.bind hR (Pres.lift hR _) fun path => Pres.bind hR
      (fun s hs => (toQualified_calm hb n c path hm s hs).1) fun q => ?_
    split
    · exact Pres.bind hR (Pres.lift hR _) fun f s hs => hs.of_eq rfl rfl rfl rfl
    · split
      · exact Pres.pure' hR _
      · split
        · exact Pres.fail hR _
        · exact fun s hs => hs.of_eq rfl rfl rfl rfl
  cases base
  case subscript value slice load =>
    simp only [visitBase]
    refine Pres.bind hR (Pres.filter hR _ fun x hx => ?_) fun tv => ?_
    · obtain ⟨e, he, hx⟩ := List.mem_filterMap.1 hx
      rw [toMaybePath_eq] at hx
      exact isTypeVar_calm hb n c x hm
        (h value slice load rfl e ((collectTypeArgs_perm value slice load).mem_iff.1 he) x hx)
    · split
      · exact fun s hs => hs.of_eq rfl rfl rfl rfl
      · refine Pres.bind hR (fun s hs => (resolveP_calm hb n _ _ _ hm s hs).1) fun q => ?_
        split
        · exact Pres.pure' hR _
        · exact fun s hs => hs.of_eq rfl rfl rfl rfl
  all_goals exact other _

theorem addReference_calm (c : Place) (path : Path) (q : QPath) (h : BeginsBy names path → q.1 ∈ v) (s : ParseState)
    (hs : Calm names v r s) : Calm names v r (addReference c path q s) := by
  refine ⟨hs.visited, hs.reads, hs.subs, fun x hx p q' hq' hp => ?_⟩
  unfold referenceAt addReference at hq'
  dsimp only at hq'
  by_cases he : x = c.module
  · subst he
    rw [lookup_dictUpdate_self, Option.getD_some, lookup_dictSet] at hq'
    split at hq'
    · rename_i e
      cases hq'
      rw [eq_of_beq e] at hp
      exact h hp
    · exact hs.refs _ hx p q' hq' hp
  · rw [lookup_dictUpdate_ne _ _ _ he] at hq'
    exact hs.refs _ hx p q' hq' hp

theorem addSubmodule_calm (c : Place) (m : Path) (hc : c.module ∈ v) (h : m ∈ v) (s : ParseState)
    (hs : Calm names v r s) : Calm names v r (addSubmodule c m s) := by
  refine ⟨hs.visited, hs.reads, fun x sub hsub => ?_, hs.refs⟩
  unfold addSubmodule at hsub
  dsimp only at hsub
  by_cases he : x = c.module
  · subst he
    rw [lookup_dictUpdate_self, Option.getD_some] at hsub
    rcases List.mem_append.1 hsub with hsub | hsub
    · exact hs.subs _ sub hsub
    · cases List.mem_singleton.1 hsub
      exact ⟨hc, h⟩
  · rw [lookup_dictUpdate_ne _ _ _ he] at hsub
    exact hs.subs _ sub hsub

theorem onlyBefore_mem {isPackage : Path → Bool} {before : List Path} {m : Path} : ∀ {body : List Stmt},
    OnlyBeforeAll isPackage before names m body → ∀ node ∈ body, OnlyBefore isPackage before names m node
  | _ :: _, h, _, .head _ => h.1
  | _ :: _, h, node, .tail _ hn => onlyBefore_mem h.2 node hn

include hb in
/-- Statements that use only what comes before open no files. -/
theorem visit_calm {before : List Path} (hv : ∀ x ∈ before, x ∈ v) : ∀ (n : Nat) (c : Place) (node : Stmt), c.module ∈ v →
    OnlyBefore E.isPackage before names c.module node → Pres (StaysCalm names v r) (visit E n c node)
  | 0, c, node, _, _ => by
    rw [visit]
    exact Pres.fail (staysCalm_preorder names v r) _
  | n + 1, c, node, hm, ho => by
    have hR := staysCalm_preorder names v r
    have ih := fun (c' : Place) (e : c'.module = c.module) (body : List Stmt)
        (h : OnlyBeforeAll E.isPackage before names c.module body) =>
      Pres.each hR (f := visit E n c') body fun node hn =>
        visit_calm hv n c' node (by rw [e]; exact hm) (by rw [e]; exact onlyBefore_mem h node hn)
    cases node with
    | annAssign target annotation value =>
      rw [visit]
      unfold visitAnnAssign
      refine Pres.lift_bind hR fun path hp => ?_
      split
      · exact fun s hs => hs.of_eq rfl rfl rfl rfl
      · rename_i valuePath hvp
        refine calm_bind (fun s hs => toQualified_calm hb n c valuePath hm s hs) fun q hq => ?_
        refine Pres.update fun s hs => addReference_calm c path q (fun hbeg => hq ?_) s hs
        rw [OnlyBefore] at ho
        cases value with
        | none => cases hvp
        | some e => exact ho e rfl valuePath (by rw [← toMaybePath_eq]; exact hvp) path (toPath_ok hp) hbeg
    | assign targets value =>
      rw [visit]
      unfold visitAssign
      split
      · exact Pres.each hR _ fun t _ => Pres.bind hR (Pres.lift hR _) fun path s hs => hs.of_eq rfl rfl rfl rfl
      · rename_i valuePath hvp
        refine calm_bind (fun s hs => toQualified_calm hb n c valuePath hm s hs) fun q hq => ?_
        refine Pres.each hR _ fun t ht => Pres.lift_bind hR fun path hp => ?_
        refine Pres.update fun s hs => addReference_calm c path q (fun hbeg => hq ?_) s hs
        rw [OnlyBefore] at ho
        exact ho valuePath (by rw [← toMaybePath_eq]; exact hvp) t ht path (toPath_ok hp) hbeg
    | functionDef f =>
      rw [visit]
      exact fun s hs => hs.of_eq rfl rfl rfl rfl
    | classDef name bases keywords body =>
      rw [visit]
      rw [OnlyBefore] at ho
      refine Pres.bind hR ?_ fun _ => ih { module := c.module, parent := c.parent ++ [name] } rfl body ho.2
      unfold visitClassHead
      refine Pres.bind hR (fun s hs => hs.of_eq rfl rfl rfl rfl) fun _ =>
        Pres.bind hR (fun s hs => hs.of_eq rfl rfl rfl rfl) fun _ =>
        Pres.bind hR (fun s hs => hs.of_eq rfl rfl rfl rfl) fun _ =>
        Pres.bind hR (Pres.map hR _ fun base hbase => visitBase_calm hb n c name body base hm
          fun value slice load e => ho.1 value slice load (e ▸ hbase)) fun tv => ?_
      show Pres _ (if (dedup tv.flatten).isEmpty then pure () else _)
      split
      · exact Pres.pure' hR _
      · exact fun s hs => hs.of_eq rfl rfl rfl rfl
    | ifStmt test body orelse =>
      rw [visit]
      rw [OnlyBefore] at ho
      refine Pres.bind hR ?_ fun condition => ih c rfl _ ?_
      · unfold evaluateTest
        exact Pres.bind hR (Pres.map hR _ fun name _ => Pres.bind hR
          (fun s hs => (resolveP_calm hb n _ _ _ hm s hs).1) fun q => Pres.pure' hR _) fun ns => Pres.lift hR _
      · split
        · exact ho.1
        · exact ho.2
    | import_ aliases =>
      rw [visit]
      rw [OnlyBefore] at ho
      unfold visitImport
      refine Pres.each hR _ fun a ha => Pres.each hR _ fun b hb' => Pres.update fun s hs =>
        addReference_calm c b.1 b.2 (fun hbeg => ?_) s hs
      rw [importBindings_imported] at hb'
      obtain ⟨x, hx, rfl⟩ := List.mem_map.1 hb'
      exact hv _ (ho a ha x hx hbeg)
    | importFrom module aliases level =>
      rw [visit]
      rw [OnlyBefore] at ho
      unfold visitImportFrom
      refine Pres.lift_bind hR fun target ht => Pres.each hR _ fun a ha => ?_
      split
      · rename_i hstar
        exact Pres.update fun s hs => addSubmodule_calm c target hm (hv _ ((ho target ht a ha).1 hstar)) s hs
      · refine Pres.update fun s hs => addReference_calm c _ _ (fun hbeg => hv _ ((ho target ht a ha).2 ?_)) s hs
        cases hn : a.asname with
        | none => rw [hn] at hbeg; exact hbeg
        | some name => rw [hn] at hbeg; exact hbeg
    | other tag body =>
      rw [visit]
      rw [OnlyBefore] at ho
      exact ih c rfl body ho

end visits

/-- So does a module. -/
theorem parse_inOrder {E : StubFiles} {names : List String} {v : List Path} {m : Path} {n : Nat} {s t : ParseState}
    {d : Scope} (hb : builtinsPath ∈ m :: v) (hm : m ∉ v)
    (ho : ∀ body, E.source m = some body → OnlyBeforeAll E.isPackage (m :: v) names m body)
    (hs : Calm names v v s) (h : parseScope E n m s = (.ok d, t)) : Calm names (m :: v) (m :: v) t := by
  have hm' : m ∉ s.visited := by rw [hs.visited]; exact hm
  match n with
  | 0 => rw [parseScope] at h; cases h
  | n + 1 =>
    cases hsrc : E.source m with
    | none => rw [parse_missing E n hm' hsrc] at h; cases h
    | some body =>
      rw [parse_source E n hm' hsrc] at h
      have start : Calm names (m :: v) (m :: v) (started m s) := by
        refine ⟨congrArg (m :: ·) hs.visited, congrArg (m :: ·) hs.reads, fun x sub hsub => ?_,
          fun x hx path q hq hp => ?_⟩
        · exact (hs.subs x sub hsub).imp (List.mem_cons_of_mem _) (List.mem_cons_of_mem _)
        · unfold referenceAt started at hq
          dsimp only at hq
          by_cases he : x = m
          · subst he
            rw [lookup_dictSet_self] at hq
            cases hq
          · rw [lookup_dictSet_ne _ _ he] at hq
            refine List.mem_cons_of_mem _ (hs.refs x ?_ path q hq hp)
            exact (List.mem_cons.1 hx).resolve_left he
      have hR := staysCalm_preorder names (m :: v) (m :: v)
      have key : Pres (StaysCalm names (m :: v) (m :: v))
          (P.each (visit E n { module := m, parent := [] }) body >>= fun _ => P.item ParseState.definitions m) :=
        Pres.bind hR (Pres.each hR _ fun node hn => visit_calm hb (fun _ h => h) n _ node List.mem_cons_self
          (onlyBefore_mem (ho body hsrc) node hn)) fun _ => Pres.item hR _ _
      exact key.of_eq h start

theorem onlyBefore_mono {isPackage : Path → Bool} {names : List String} {m : Path} {b b' : List Path}
    (h : ∀ x ∈ b, x ∈ b') : ∀ {body : List Stmt}, OnlyBeforeAll isPackage b names m body →
    OnlyBeforeAll isPackage b' names m body := by
  have key : ∀ n, ∀ node : Stmt, sizeOf node < n → OnlyBefore isPackage b names m node →
      OnlyBefore isPackage b' names m node := by
    intro n
    induction n with
    | zero => exact fun _ h => nomatch h
    | succ n ih =>
      intro node hn ho
      have ihs : ∀ body : List Stmt, sizeOf body < n + 1 → OnlyBeforeAll isPackage b names m body →
          OnlyBeforeAll isPackage b' names m body := by
        intro body
        induction body with
        | nil => exact fun _ h => h
        | cons x xs ihx =>
          intro hsz hall
          simp only [List.cons.sizeOf_spec] at hsz
          exact ⟨ih x (by omega) hall.1, ihx (by omega) hall.2⟩
      cases node <;> rw [OnlyBefore] at ho ⊢
      all_goals simp at hn
      case annAssign => exact ho
      case assign => exact ho
      case classDef => exact ⟨ho.1, ihs _ (by omega) ho.2⟩
      case ifStmt => exact ⟨ihs _ (by omega) ho.1, ihs _ (by omega) ho.2⟩
      case import_ => exact fun a ha x hx hbeg => h _ (ho a ha x hx hbeg)
      case importFrom => exact fun target ht a ha =>
        ⟨fun hst => h _ ((ho target ht a ha).1 hst), fun hbeg => h _ ((ho target ht a ha).2 hbeg)⟩
      case functionDef => trivial
      case other => exact ihs _ (by omega) ho
  intro body
  induction body with
  | nil => exact fun h => h
  | cons x xs ih => exact fun hall => ⟨key _ x (Nat.lt_succ_self _) hall.1, ih hall.2⟩

/-- Reading the modules in order opens the files in this order. -/
theorem each_inOrder {E : StubFiles} {names : List String} {modules : List Path} (h : InOrder E names modules)
    {n : Nat} : ∀ (ms pre : List Path) (s t : ParseState), pre ≠ [] → ["builtins"] :: modules = pre ++ ms →
    Calm names pre.reverse pre.reverse s →
    P.each (fun m => do
      let _ ← parseScope E n m
      pure ()) ms s = (.ok (), t) →
    ∀ k ≤ ms.length, ∃ u, P.each (fun m => do
      let _ ← parseScope E n m
      pure ()) (ms.take k) s = (.ok (), u) ∧ Calm names (pre ++ ms.take k).reverse (pre ++ ms.take k).reverse u
  | ms, pre, s, t, hpre, e, hs, ht, 0, hk => ⟨s, rfl, by simpa using hs⟩
  | [], pre, s, t, hpre, e, hs, ht, k + 1, hk => by simp at hk
  | m :: ms, pre, s, t, hpre, e, hs, ht, k + 1, hk => by
    have hb : builtinsPath ∈ pre := by
      match pre, hpre with
      | x :: xs, _ =>
        have := (List.cons.inj e).1
        exact this ▸ List.mem_cons_self
    obtain ⟨a, u, h1, h2⟩ := bind_ok (x := parseScope E n m >>= fun _ => pure ()) ht
    obtain ⟨d, u', h3, h4⟩ := bind_ok h1
    cases h4
    have hnd := h.once
    rw [e] at hnd
    have hm : m ∉ pre.reverse := fun hin =>
      (List.nodup_append.1 hnd).2.2 m (List.mem_reverse.1 hin) m List.mem_cons_self rfl
    have hq := parse_inOrder (List.mem_cons_of_mem _ (List.mem_reverse.2 hb)) hm (fun body hsrc =>
      onlyBefore_mono (fun x hx => by
        rcases List.mem_append.1 hx with hx | hx
        · exact List.mem_cons_of_mem _ (List.mem_reverse.2 hx)
        · exact List.mem_singleton.1 hx ▸ List.mem_cons_self) (h.before pre m ms e body hsrc)) hs h3
    obtain ⟨w, w1, w2⟩ := each_inOrder h ms (pre ++ [m]) _ t (by simp) (by simpa using e)
      (by simpa using hq) h2 k (by simpa using hk)
    refine ⟨w, ?_, by simpa using w2⟩
    rw [List.take_succ_cons]
    show P.bind (parseScope E n m >>= fun _ => pure ()) _ s = _
    unfold P.bind
    rw [h1]
    exact w1

/-- Modules that use only what comes before are read in turn. -/
theorem Spec.InOrder.readInTurn {E : StubFiles} {names : List String} {modules : List Path} (h : InOrder E names modules)
    {n : Nat} {s : ParseState} (hs : parseAll E n modules {} = (.ok (), s)) : ReadInTurn E n modules := by
  intro k hk
  unfold parseAll at hs
  obtain ⟨d, u, h1, h2⟩ := bind_ok hs
  have h0 : Calm names [] [] ({} : ParseState) :=
    ⟨rfl, rfl, (fun x sub hsub => nomatch hsub), fun x hx => nomatch hx⟩
  have hq := parse_inOrder (v := []) (m := builtinsPath) List.mem_cons_self (by simp) (fun body hsrc =>
    h.before [] builtinsPath modules rfl body hsrc) h0 h1
  obtain ⟨w, w1, w2⟩ := each_inOrder h modules [builtinsPath] u s (by simp) rfl hq h2 k hk
  refine ⟨w, ?_, ?_⟩
  · unfold parseAll
    rw [bind_of_ok h1]
    exact w1
  · rw [w2.reads, List.reverse_reverse]
    rfl

end Paradigm
