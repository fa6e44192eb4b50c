import Verif.Lemmas.Meaning
import Verif.Lemmas.Scoping

/-!
# Evaluating aliases
-/

namespace Paradigm

open Spec

/-- Every prefix of a defined path is defined. -/
theorem Defines_prefix : ∀ {pre post : Path} {scope : Scope}, Defines scope (pre ++ post) →
    Defines scope pre
  | [], _, _, _ => by simp [Defines]
  | name :: pre, post, scope, h => by
    rw [List.cons_append, Defines] at h
    rw [Defines]
    obtain ⟨s, h1, h2⟩ := h
    exact ⟨s, h1, Defines_prefix h2⟩

/-- A name defined in a scope, looked up from there, is itself. -/
theorem resolve_self {T : Tables} {m parent : Path} {id : String} (h : DefinedIn T m (parent ++ [id]))
    (n : Nat) : resolve T (n + 2) m parent [id] [] = .ok (m, parent ++ [id]) := by
  by_cases hp : parent = []
  · subst hp
    exact resolve_of_defined h (n + 1) []
  · have hself := resolve_of_defined h n []
    obtain ⟨scope, hd, h⟩ := h
    rw [resolve_succ, step, hd]
    simp only
    have h1 : scopeContains scope parent = true := (scopeContains_iff _ _).2 (Defines_prefix h)
    have h2 : scopeContains scope (parent ++ [id]) = true := (scopeContains_iff _ _).2 h
    have h3 : parent.isEmpty = false := by cases parent <;> simp_all
    rw [h1, h2, h3]
    simp only [Bool.not_true, Bool.false_eq_true, if_false, Bool.not_false, Bool.and_self, if_true]
    exact hself

section

variable {V : Type} {W : Interpreter V} {T : Stubs} {depth : Nat} {other : Atom → String}

theorem aliasValue_spec {q : QPath} {e : Expr} (h : aliasValue T q = some e) :
    ∃ nodes kinds kind id node, T.rawAstNodes.lookup q.1 = some nodes ∧
      T.nodesKinds.lookup q.1 = some kinds ∧ kinds.lookup q.2 = some kind ∧ kind ≠ .class_ ∧
      nodes.lookup q.2 = some [node] ∧ q.2.getLast? = some id ∧
      (node = .assign [.name id false] e ∨
        ∃ annotation, node = .annAssign (.name id false) annotation (some e)) := by
  unfold aliasValue at h
  cases hk : T.nodesKinds.lookup q.1 with
  | none => rw [hk] at h; cases h
  | some kinds =>
    cases hk' : kinds.lookup q.2 with
    | none => rw [hk] at h; simp only [Option.bind, hk'] at h; cases h
    | some kind =>
      rw [hk] at h
      simp only [Option.bind, hk'] at h
      have key : ∀ (x : Option (List Stmt)),
          (match x with
            | some [.assign [.name id false] e] => if q.2.getLast? = some id then some e else none
            | some [.annAssign (.name id false) _ (some e)] =>
              if q.2.getLast? = some id then some e else none
            | _ => none) = some e →
          ∃ id node, x = some [node] ∧ q.2.getLast? = some id ∧
            (node = .assign [.name id false] e ∨
              ∃ annotation, node = .annAssign (.name id false) annotation (some e)) := by
        intro x hx
        split at hx
        · next id e' =>
          split at hx
          · next hl => cases hx; exact ⟨id, _, rfl, hl, .inl rfl⟩
          · cases hx
        · next id a e' =>
          split at hx
          · next hl => cases hx; exact ⟨id, _, rfl, hl, .inr ⟨a, rfl⟩⟩
          · cases hx
        · cases hx
      have hne : kind ≠ .class_ ∧ ∃ id node,
          (T.rawAstNodes.lookup q.1).bind (·.lookup q.2) = some [node] ∧ q.2.getLast? = some id ∧
            (node = .assign [.name id false] e ∨
              ∃ annotation, node = .annAssign (.name id false) annotation (some e)) := by
        cases kind with
        | class_ => cases h
        | function => cases h
        | asyncFunction => cases h
        | assignment => exact ⟨by decide, key _ h⟩
        | annotatedAssignment => exact ⟨by decide, key _ h⟩
      obtain ⟨hc, id, node, hn, hl, hnode⟩ := hne
      cases hr : T.rawAstNodes.lookup q.1 with
      | none => rw [hr] at hn; cases hn
      | some nodes =>
        rw [hr] at hn
        exact ⟨nodes, kinds, kind, id, node, rfl, rfl, hk', hc, hn, hl, hnode⟩

/-- An alias whose name resolves to itself: evaluating it is evaluating its definition, unless its
value or a placeholder is there already. -/
theorem evalStub_alias {look : QPath → Ev V V} {q : QPath} {e : Expr} {s : EvalState V}
    (ha : aliasValue T q = some e) (hr : ∀ id, q.2.getLast? = some id →
      resolve T.toTables depth q.1 q.2.dropLast [id] [] = .ok q)
    (ho : s.objects.lookup q = none) :
    ∃ node, (node = Stmt.assign [.name (q.2.getLast?.getD "") false] e ∨
      ∃ annotation, node = .annAssign (.name (q.2.getLast?.getD "") false) annotation (some e)) ∧
    evalStub W T depth other look q.1 q.2 s =
      (do
        let v ← evalStmt W T depth other look q.1 q.2.dropLast node
        putName (q.2.getLast?.getD "") v
        Ev.pure v) s := by
  obtain ⟨nodes, kinds, kind, id, node, hn, hk, hk', hc, hx, hl, hnode⟩ := aliasValue_spec ha
  refine ⟨node, by rw [hl]; exact hnode, ?_⟩
  unfold evalStub
  rw [Ev.bind_ok (show Ev.get s = (.ok s, s) from rfl)]
  simp only [ho]
  rw [Ev.bind_ok (Ev.lift_ok (show getKey T.rawAstNodes q.1 = .ok nodes by unfold getKey; rw [hn]) s),
    Ev.bind_ok (Ev.lift_ok (show getKey T.nodesKinds q.1 = .ok kinds by unfold getKey; rw [hk]) s),
    Ev.bind_ok (Ev.lift_ok (show getKey kinds q.2 = .ok kind by unfold getKey; rw [hk']) s)]
  simp only [hx]
  rw [if_pos hc]
  rfl

/-- Evaluating the definition of a name that resolves to itself. -/
theorem evalAssign_single {look : QPath → Ev V V} {m parent : Path} {id : String} {q : QPath}
    (hr : resolve T.toTables depth m parent [id] [] = .ok q) (e : Option Expr) (s : EvalState V) :
    evalAssign W T depth look m parent [.name id false] e s =
      match s.assigned.lookup q with
      | some v => (.ok v, { s with assigned := dictPut q v s.assigned })
      | none =>
        match W.forwardRef (".".intercalate q.2) with
        | .error x => (.error x, s)
        | .ok f =>
          match (match e with
            | none => (Ev.raise (.typeError "node") : Ev V V)
            | some e => evalExpr W T depth look m parent e)
              { s with assigned := dictPut q f s.assigned } with
          | (.ok v, t) => (.ok v, { t with assigned := dictPut q v t.assigned })
          | (.error x, t) => (.error x, t) := by
  unfold evalAssign
  rw [Ev.bind_ok (show Ev.each (fun t => Ev.lift (targetName t)) [.name id false] s = (.ok [id], s)
    from rfl)]
  rw [Ev.bind_ok (show Ev.each (fun name => evResolve T depth m parent [name]) [id] s = (.ok [q], s) by
    show Ev.bind (evResolve T depth m parent [id]) _ s = _
    unfold Ev.bind evResolve Ev.lift
    rw [hr]
    rfl)]
  cases hl : s.assigned.lookup q with
  | some v =>
    rw [Ev.bind_ok (show cachedTarget W [q] s = (.ok (some v), s) by
      rw [cachedTarget, Ev.bind_ok (show Ev.get s = (.ok s, s) from rfl)]
      simp only [hl]
      rfl)]
    rfl
  | none =>
    cases hf : W.forwardRef (".".intercalate q.2) with
    | error x =>
      rw [Ev.bind_error (show cachedTarget W [q] s = (.error x, s) by
        rw [cachedTarget, Ev.bind_ok (show Ev.get s = (.ok s, s) from rfl)]
        simp only [hl]
        rw [Ev.bind_error (show Ev.lift (W.forwardRef (".".intercalate q.2)) s = (.error x, s) by
          rw [hf]; rfl)])]
    | ok f =>
      rw [Ev.bind_ok (show cachedTarget W [q] s =
          (.ok none, { s with assigned := dictPut q f s.assigned }) by
        rw [cachedTarget, Ev.bind_ok (show Ev.get s = (.ok s, s) from rfl)]
        simp only [hl]
        rw [Ev.bind_ok (Ev.lift_ok hf s)]
        rw [Ev.bind_ok (show Ev.modify (fun s => { s with assigned := dictPut q f s.assigned }) s =
          (.ok (), { s with assigned := dictPut q f s.assigned }) from rfl)]
        rw [cachedTarget]
        rfl)]
      simp only
      cases e with
      | none => rfl
      | some e =>
        simp only
        cases he : evalExpr W T depth look m parent e { s with assigned := dictPut q f s.assigned } with
        | mk o t =>
          cases o with
          | error x => rw [Ev.bind_error he]
          | ok v => rw [Ev.bind_ok he]; rfl

/-- Evaluating an alias whose name resolves to itself. -/
theorem evalStub_alias_eq {look : QPath → Ev V V} {q : QPath} {e : Expr} {s : EvalState V}
    (ha : aliasValue T q = some e) (hr : ∀ id, q.2.getLast? = some id →
      resolve T.toTables depth q.1 q.2.dropLast [id] [] = .ok q)
    (ho : s.objects.lookup q = none) :
    evalStub W T depth other look q.1 q.2 s =
      match s.assigned.lookup q with
      | some v => (.ok v, { s with
          assigned := dictPut q v s.assigned, ns := dictPut (q.2.getLast?.getD "") v s.ns })
      | none =>
        match W.forwardRef (".".intercalate q.2) with
        | .error x => (.error x, s)
        | .ok f =>
          match evalExpr W T depth look q.1 q.2.dropLast e
              { s with assigned := dictPut q f s.assigned } with
          | (.ok v, t) => (.ok v, { t with
              assigned := dictPut q v t.assigned, ns := dictPut (q.2.getLast?.getD "") v t.ns })
          | (.error x, t) => (.error x, t) := by
  obtain ⟨node, hnode, heq⟩ := evalStub_alias (W := W) (other := other) (look := look) ha hr ho
  rw [heq]
  have hid : ∃ id, q.2.getLast? = some id := by
    obtain ⟨_, _, _, id, _, _, _, _, _, _, hl, _⟩ := aliasValue_spec ha
    exact ⟨id, hl⟩
  obtain ⟨id, hid⟩ := hid
  have hst : evalStmt W T depth other look q.1 q.2.dropLast node =
      evalAssign W T depth look q.1 q.2.dropLast [.name id false] (some e) := by
    rw [hid] at hnode
    rcases hnode with h | ⟨a, h⟩ <;> subst h <;> rfl
  have hasg := evalAssign_single (W := W) (look := look) (hr id hid) (some e) s
  rw [← hst] at hasg
  cases hl : s.assigned.lookup q with
  | some v =>
    rw [hl] at hasg
    rw [Ev.bind_ok hasg]
    rfl
  | none =>
    rw [hl] at hasg
    cases hf : W.forwardRef (".".intercalate q.2) with
    | error x =>
      rw [hf] at hasg
      rw [Ev.bind_error hasg]
    | ok f =>
      rw [hf] at hasg
      simp only at hasg ⊢
      cases he : evalExpr W T depth look q.1 q.2.dropLast e
          { s with assigned := dictPut q f s.assigned } with
      | mk o t =>
        rw [he] at hasg
        cases o with
        | error x => rw [Ev.bind_error hasg]
        | ok v => rw [Ev.bind_ok hasg]; rfl

end

section

variable {V : Type} {W : Interpreter V} {T : Stubs} {depth : Nat} {other : Atom → String}
  {known : QPath → Option V}

/-- An object that means the value of its definition. -/
structure IsAlias (W : Interpreter V) (T : Stubs) (known : QPath → Option V) (q : QPath) : Prop where
  missing : runtimeObject W q = .ok none
  unknown : known q = none
  value : aliasValue T q ≠ none

/-- What the caches may hold while something of nesting `n` is evaluated. -/
structure CacheOk (W : Interpreter V) (T : Stubs) (depth : Nat) (known : QPath → Option V) (n : Nat)
    (s : EvalState V) : Prop where
  assigned : ∀ q v, IsAlias W T known q → s.assigned.lookup q = some v →
    (∃ k, meaning W T depth known k q = some v) ∨ meaning W T depth known n q = none
  objects : ∀ q v, s.objects.lookup q = some v → known q = some v ∨ aliasValue T q = none
  known : ∀ q v, known q = some v → s.objects.lookup q = some v

/-- What an evaluation may change. -/
structure CacheStep (W : Interpreter V) (T : Stubs) (depth : Nat) (known : QPath → Option V)
    (s t : EvalState V) : Prop where
  assigned : ∀ q v, t.assigned.lookup q = some v →
    (∃ k, meaning W T depth known k q = some v) ∨ s.assigned.lookup q = some v
  objects : t.objects = s.objects

theorem CacheStep.refl (s : EvalState V) : CacheStep W T depth known s s :=
  ⟨fun _ _ h => .inr h, rfl⟩

theorem CacheStep.trans {s t u : EvalState V} (h : CacheStep W T depth known s t)
    (h' : CacheStep W T depth known t u) : CacheStep W T depth known s u :=
  ⟨fun q v g => (h'.assigned q v g).elim .inl (h.assigned q v), h'.objects.trans h.objects⟩

theorem CacheOk.step {n : Nat} {s t : EvalState V} (h : CacheOk W T depth known n s)
    (h' : CacheStep W T depth known s t) : CacheOk W T depth known n t where
  assigned q v ga g := (h'.assigned q v g).elim .inl (h.assigned q v ga)
  objects q v g := h.objects q v (by rw [← h'.objects]; exact g)
  known q v g := by rw [h'.objects]; exact h.known q v g

theorem CacheOk.pred {n : Nat} {s : EvalState V} (h : CacheOk W T depth known (n + 1) s) :
    CacheOk W T depth known n s where
  assigned q v ga g := (h.assigned q v ga g).imp id (fun h => by
    cases hm : meaning W T depth known n q with
    | none => rfl
    | some w => rw [meaning_succ hm] at h; cases h)
  objects := h.objects
  known := h.known

/-- Evaluating something with a meaning gives its meaning, whatever is cached. -/
theorem evalPath_meaning (hdef : ∀ q e, aliasValue T q = some e → DefinedIn T.toTables q.1 q.2)
    (hdepth : 2 ≤ depth) (hops : ∀ q e, aliasValue T q = some e → BitOps e)
    (href : ∀ t, ∃ v, W.forwardRef t = .ok v) :
    ∀ (n N : Nat), n ≤ N → ∀ (q : QPath) (v : V), meaning W T depth known n q = some v →
    ∀ s, CacheOk W T depth known n s →
      ∃ t, evalPath W T depth other N q s = (.ok v, t) ∧ CacheStep W T depth known s t
  | 0, _, _, _, _, h, _, _ => by rw [meaning] at h; cases h
  | n + 1, 0, hN, _, _, _, _, _ => by omega
  | n + 1, N + 1, hN, q, v, h, s, hs => by
    cases hm : meaning W T depth known n q with
    | some w =>
      have : w = v := by rw [meaning_succ hm] at h; cases h; rfl
      subst this
      exact evalPath_meaning hdef hdepth hops href n (N + 1) (by omega) q w hm s hs.pred
    | none =>
      rcases meaning_alias h with h' | ⟨h', hp, hk⟩
      · exact ⟨s, evalPath_runtime h' N s, CacheStep.refl s⟩
      · rw [show q = (q.1, q.2) from rfl, evalPath_stub h' hp N s]
        rcases hk with hk | ⟨hk, e, ha, he⟩
        · refine ⟨s, ?_, CacheStep.refl s⟩
          have := hs.known q v hk
          unfold evalStub
          rw [Ev.bind_ok (show Ev.get s = (.ok s, s) from rfl)]
          simp only [show s.objects.lookup (q.1, q.2) = some v from this]
          rfl
        · have ho : s.objects.lookup q = none := by
            cases ho : s.objects.lookup q with
            | none => rfl
            | some w =>
              rcases hs.objects q w ho with g | g
              · rw [hk] at g; cases g
              · rw [ha] at g; cases g
          have hr : ∀ id, q.2.getLast? = some id →
              resolve T.toTables depth q.1 q.2.dropLast [id] [] = .ok q := by
            intro id hid
            obtain ⟨d, rfl⟩ : ∃ d, depth = d + 2 := ⟨depth - 2, by omega⟩
            have hq : q.2.dropLast ++ [id] = q.2 := by
              rw [List.getLast?_eq_some_iff] at hid
              obtain ⟨ys, hys⟩ := hid
              rw [hys]
              simp
            have := resolve_self (T := T.toTables) (m := q.1) (parent := q.2.dropLast) (id := id)
              (by rw [hq]; exact hdef q e ha) d
            rw [hq] at this
            exact this
          rw [evalStub_alias_eq ha hr ho]
          cases hl : s.assigned.lookup q with
          | some w =>
            have hw : w = v := by
              rcases hs.assigned q w ⟨h', hk, by rw [ha]; simp⟩ hl with ⟨k, g⟩ | g
              · exact meaning_unique g h
              · rw [h] at g; cases g
            subst hw
            refine ⟨_, rfl, ⟨fun r x g => ?_, rfl⟩⟩
            simp only at g
            rw [lookup_dictPut] at g
            by_cases hrq : r = q
            · subst hrq
              rw [if_pos rfl] at g
              cases g
              exact .inr hl
            · rw [if_neg hrq] at g
              exact .inr g
          | none =>
            obtain ⟨f, hf⟩ := href (".".intercalate q.2)
            rw [hf]
            simp only
            have hs1 : CacheOk W T depth known n { s with assigned := dictPut q f s.assigned } := by
              refine ⟨fun r x ga g => ?_, hs.objects, hs.known⟩
              simp only at g
              rw [lookup_dictPut] at g
              by_cases hrq : r = q
              · subst hrq; exact .inr hm
              · rw [if_neg hrq] at g
                exact hs.pred.assigned r x ga g
            obtain ⟨t, ht, hstep⟩ := evalExpr_of_pyEval (W := W) (T := T) (depth := depth)
              (look := evalPath W T depth other N) (m := q.1) (parent := q.2.dropLast)
              (env := nameEnv W T depth known n q.1 q.2.dropLast)
              (I := CacheOk W T depth known n) (R := CacheStep W T depth known)
              CacheStep.refl (fun _ _ _ => CacheStep.trans) (fun _ _ => CacheOk.step)
              (by
                intro id w hid u hu
                unfold nameEnv at hid
                cases hres : resolve T.toTables depth q.1 q.2.dropLast [id] [] with
                | error x => rw [hres] at hid; cases hid
                | ok r =>
                  rw [hres] at hid
                  rw [Ev.bind_ok (show evResolve T depth q.1 q.2.dropLast [id] u = (.ok r, u) from
                    Ev.lift_ok hres u)]
                  exact evalPath_meaning hdef hdepth hops href n N (by omega) r w hid u hu)
              e v (hops q e ha) he _ hs1
            rw [ht]
            refine ⟨_, rfl, ⟨fun r x g => ?_, hstep.objects⟩⟩
            simp only at g
            rw [lookup_dictPut] at g
            by_cases hrq : r = q
            · subst hrq
              rw [if_pos rfl] at g
              cases g
              exact .inl ⟨n + 1, h⟩
            · rw [if_neg hrq] at g
              rcases hstep.assigned r x g with g | g
              · exact .inl g
              · simp only at g
                rw [lookup_dictPut, if_neg hrq] at g
                exact .inr g

end

end Paradigm
