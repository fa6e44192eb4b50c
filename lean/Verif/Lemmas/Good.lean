import Verif.Lemmas.Traversal
import Verif.Lemmas.Lookup

/-!
# Evaluations keep what is cached for aliases with a meaning
-/

namespace Paradigm

open Spec

section

variable {V : Type} {W : Interpreter V} {T : Stubs} {depth : Nat} {other : Atom → String}
  {known : QPath → Option V}

/-- Whatever has a meaning is cached by its meaning, if at all. -/
def CachesGood (W : Interpreter V) (T : Stubs) (depth : Nat) (known : QPath → Option V) (s : EvalState V) : Prop :=
  ∀ n, CacheOk W T depth known n s

/-- Evaluating the definition of an alias with a meaning. -/
theorem evalAssign_meaning (hdef : ∀ q e, aliasValue T q = some e → DefinedIn T.toTables q.1 q.2)
    (hdepth : 2 ≤ depth) (hops : ∀ q e, aliasValue T q = some e → BitOps e)
    (href : ∀ t, ∃ v, W.forwardRef t = .ok v) {n N : Nat} (hN : n ≤ N) {q : QPath} {v : V} {e : Expr}
    {id : String} (hid : q.2.getLast? = some id) (ha : aliasValue T q = some e) (hq : IsAlias W T known q)
    (hv : meaning W T depth known (n + 1) q = some v) (hm : meaning W T depth known n q = none)
    {s : EvalState V} (hs : CacheOk W T depth known (n + 1) s) :
    ∃ t, evalAssign W T depth (evalPath W T depth other N) q.1 q.2.dropLast [.name id false] (some e) s =
      (.ok v, t) ∧ CacheStep W T depth known s t := by
  have hr : resolve T.toTables depth q.1 q.2.dropLast [id] [] = .ok q := by
    obtain ⟨d, rfl⟩ : ∃ d, depth = d + 2 := ⟨depth - 2, by omega⟩
    have hq : q.2.dropLast ++ [id] = q.2 := by
      rw [List.getLast?_eq_some_iff] at hid
      obtain ⟨ys, hys⟩ := hid
      rw [hys]
      simp
    have := resolve_self (T := T.toTables) (m := q.1) (parent := q.2.dropLast) (id := id)
      (by rw [hq]; exact hdef q e ha) d
    rw [hq] at this
    exact this
  have he : pyEval W (nameEnv W T depth known n q.1 q.2.dropLast) e = .ok v := by
    rcases meaning_alias hv with h | ⟨-, -, h | ⟨-, e', ha', he⟩⟩
    · rw [hq.missing] at h; cases h
    · rw [hq.unknown] at h; cases h
    · rw [ha] at ha'; cases ha'; exact he
  rw [evalAssign_single hr]
  cases hl : s.assigned.lookup q with
  | some w =>
    have hw : w = v := by
      rcases hs.assigned q w hq hl with ⟨k, g⟩ | g
      · exact meaning_unique g hv
      · rw [hv] at g; cases g
    subst hw
    refine ⟨_, rfl, ⟨fun r x g => ?_, rfl⟩⟩
    simp only at g
    rw [lookup_dictPut] at g
    by_cases hrq : r = q
    · subst hrq
      rw [if_pos rfl] at g
      cases g
      exact .inr hl
    · rw [if_neg hrq] at g
      exact .inr g
  | none =>
    obtain ⟨f, hf⟩ := href (".".intercalate q.2)
    rw [hf]
    simp only
    have hs1 : CacheOk W T depth known n { s with assigned := dictPut q f s.assigned } := by
      refine ⟨fun r x ga g => ?_, hs.objects, hs.known⟩
      simp only at g
      rw [lookup_dictPut] at g
      by_cases hrq : r = q
      · subst hrq; exact .inr hm
      · rw [if_neg hrq] at g
        exact hs.pred.assigned r x ga g
    obtain ⟨t, ht, hstep⟩ := evalExpr_of_pyEval (W := W) (T := T) (depth := depth)
      (look := evalPath W T depth other N) (m := q.1) (parent := q.2.dropLast)
      (env := nameEnv W T depth known n q.1 q.2.dropLast)
      (I := CacheOk W T depth known n) (R := CacheStep W T depth known)
      CacheStep.refl (fun _ _ _ => CacheStep.trans) (fun _ _ => CacheOk.step)
      (by
        intro id w hid u hu
        unfold nameEnv at hid
        cases hres : resolve T.toTables depth q.1 q.2.dropLast [id] [] with
        | error x => rw [hres] at hid; cases hid
        | ok r =>
          rw [hres] at hid
          rw [Ev.bind_ok (show evResolve T depth q.1 q.2.dropLast [id] u = (.ok r, u) from
            Ev.lift_ok hres u)]
          exact evalPath_meaning hdef hdepth hops href n N hN r w hid u hu)
      e v (hops q e ha) he _ hs1
    rw [ht]
    refine ⟨_, rfl, ⟨fun r x g => ?_, hstep.objects⟩⟩
    simp only at g
    rw [lookup_dictPut] at g
    by_cases hrq : r = q
    · subst hrq
      rw [if_pos rfl] at g
      cases g
      exact .inl ⟨n + 1, hv⟩
    · rw [if_neg hrq] at g
      rcases hstep.assigned r x g with g | g
      · exact .inl g
      · simp only at g
        rw [lookup_dictPut, if_neg hrq] at g
        exact .inr g

theorem CachesGood.step {s t : EvalState V} (h : CachesGood W T depth known s) (h' : CacheStep W T depth known s t) :
    CachesGood W T depth known t := fun n => (h n).step h'

/-- Nothing has to be cached for the object. -/
def Free (W : Interpreter V) (T : Stubs) (depth : Nat) (known : QPath → Option V) (q : QPath) : Prop :=
  IsAlias W T known q → ∀ n, meaning W T depth known n q = none

theorem CachesGood.put {s : EvalState V} (h : CachesGood W T depth known s) {q : QPath}
    (hq : Free W T depth known q) (v : V) :
    CachesGood W T depth known { s with assigned := dictPut q v s.assigned } := by
  refine fun n => ⟨fun r x ga g => ?_, (h n).objects, (h n).known⟩
  simp only at g
  rw [lookup_dictPut] at g
  by_cases hrq : r = q
  · subst hrq; exact .inr (hq ga n)
  · rw [if_neg hrq] at g
    exact (h n).assigned r x ga g

theorem CachesGood.puts (v : V) : ∀ {qs : List QPath} {s : EvalState V}, CachesGood W T depth known s →
    (∀ q ∈ qs, Free W T depth known q) →
    CachesGood W T depth known { s with assigned := qs.foldl (fun d q => dictPut q v d) s.assigned }
  | [], _, h, _ => h
  | q :: qs, s, h, hq => by
    rw [List.foldl_cons]
    exact CachesGood.puts v (s := { s with assigned := dictPut q v s.assigned }) (h.put (hq q (by simp)) v)
      fun r hr => hq r (by simp [hr])

theorem CachesGood.caches : AboutCaches (CachesGood W T depth known) := by
  intro s t ha ho h n
  refine ⟨?_, ?_, ?_⟩
  · rw [← ha]; exact (h n).assigned
  · rw [← ho]; exact (h n).objects
  · rw [← ho]; exact (h n).known

theorem cachedTarget_good : ∀ {qs : List QPath}, (∀ q ∈ qs, Free W T depth known q) →
    Sim (CachesGood W T depth known) (cachedTarget W qs) (cachedTarget W qs)
  | [], _ => Sim.pure _
  | q :: qs, h => by
    rw [cachedTarget]
    refine Sim.getBind fun s _ => ?_
    cases s.assigned.lookup q with
    | some v => exact Sim.pure _
    | none =>
      exact Sim.bind (Sim.lift _) fun v =>
        Sim.bind (Sim.modify fun s hs => hs.put (h q (by simp)) v) fun _ =>
          cachedTarget_good fun r hr => h r (by simp [hr])

theorem each_lift_ok {α β : Type} {f : α → Except PyErr β} : ∀ {xs : List α} {s : EvalState V},
    Ev.each (fun x => Ev.lift (f x)) xs s = Ev.lift (mapExcept f xs) s
  | [], _ => rfl
  | x :: xs, s => by
    rw [mapExcept, Ev.each]
    cases hx : f x with
    | error e =>
      rw [Ev.bind_error (show (Ev.lift (.error e) : Ev V β) s = (.error e, s) from rfl)]
      rfl
    | ok y =>
      rw [Ev.bind_ok (show (Ev.lift (.ok y) : Ev V β) s = (.ok y, s) from rfl)]
      have ih := each_lift_ok (f := f) (xs := xs) (s := s)
      cases hxs : mapExcept f xs with
      | error e =>
        rw [hxs] at ih
        rw [Ev.bind_error ih]
        rfl
      | ok ys =>
        rw [hxs] at ih
        rw [Ev.bind_ok ih]
        rfl

/-- Assigning to objects nothing has to be cached for. -/
theorem evalAssign_free {look : QPath → Ev V V} (hlook : ∀ q, Sim (CachesGood W T depth known) (look q) (look q))
    {m parent : Path} {targets : List Expr} (value : Option Expr)
    (h : ∀ id b q, Expr.name id b ∈ targets → resolve T.toTables depth m parent [id] [] = .ok q →
      Free W T depth known q) :
    Sim (CachesGood W T depth known) (evalAssign W T depth look m parent targets value)
      (evalAssign W T depth look m parent targets value) := by
  unfold evalAssign evResolve
  rw [show Ev.each (fun t => Ev.lift (targetName t)) targets = (Ev.lift (mapExcept targetName targets) : Ev V _)
    from funext fun s => each_lift_ok]
  refine Sim.liftBind fun names hnames => ?_
  rw [show Ev.each (fun name => Ev.lift (resolve T.toTables depth m parent [name] [])) names =
    (Ev.lift (mapExcept (fun name => resolve T.toTables depth m parent [name] []) names) : Ev V _)
    from funext fun s => each_lift_ok]
  refine Sim.liftBind fun paths hpaths => ?_
  have hfree : ∀ q ∈ paths, Free W T depth known q := by
    intro q hq
    obtain ⟨id, hid, hres⟩ := mapExcept_all (P := fun b => ∃ a ∈ names, resolve T.toTables depth m parent [a] [] = .ok b)
      (fun a ha b hb => ⟨a, ha, hb⟩) hpaths q hq
    obtain ⟨t, ht, htn⟩ := mapExcept_all (P := fun b => ∃ a ∈ targets, targetName a = .ok b)
      (fun a ha b hb => ⟨a, ha, hb⟩) hnames id hid
    cases t with
    | name id' b =>
      rw [targetName] at htn
      by_cases hb : b = true
      · rw [if_pos hb] at htn; cases htn
      · rw [if_neg hb] at htn; cases htn; exact h _ _ q ht hres
    | _ => cases htn
  refine Sim.bind (cachedTarget_good hfree) fun cached => ?_
  have hjp : ∀ v : V, Sim (CachesGood W T depth known) (do
        Ev.modify fun s => { s with assigned := paths.foldl (fun d q => dictPut q v d) s.assigned }
        Ev.pure v) (do
        Ev.modify fun s => { s with assigned := paths.foldl (fun d q => dictPut q v d) s.assigned }
        Ev.pure v) := fun v =>
    Sim.bind (Sim.modify fun s hs => hs.puts v hfree) fun _ => Sim.pure _
  dsimp only
  cases cached with
  | some v => exact Sim.bind (Sim.pure _) hjp
  | none =>
    cases value with
    | none => exact Sim.bind (Sim.raise _) hjp
    | some e => exact Sim.bind (evalExpr_sim hlook m parent e) hjp

/-- Evaluations keep the caches good. -/
theorem evalPath_good (hdef : ∀ q e, aliasValue T q = some e → DefinedIn T.toTables q.1 q.2)
    (hdepth : 2 ≤ depth) (hops : ∀ q e, aliasValue T q = some e → BitOps e)
    (href : ∀ t, ∃ v, W.forwardRef t = .ok v) (hown : OwnTargets T depth) : ∀ (N : Nat) (q : QPath),
    Sim (CachesGood W T depth known) (evalPath W T depth other N q) (evalPath W T depth other N q)
  | 0, _ => fun s _ => .inl rfl
  | N + 1, q => by
    have ih := evalPath_good hdef hdepth hops href hown N
    refine evalPath_sim_succ (K := fun q => known q = none) ⟨CachesGood.caches, ih, ?_, ?_, ?_⟩ q
    · rintro m _ node targets value ⟨p, hst, rfl⟩ hasg
      by_cases hf : ∀ id b q, Expr.name id b ∈ targets →
          resolve T.toTables depth m p.dropLast [id] [] = .ok q → Free W T depth known q
      · exact evalAssign_free ih value hf
      · intro s hs
        simp only [Classical.not_forall] at hf
        obtain ⟨id, b, q, ht, hres, hf⟩ := hf
        unfold Free at hf
        simp only [Classical.not_forall] at hf
        obtain ⟨hq, n, hn⟩ := hf
        have hqp := hown m p node targets value id b q hst hasg ht hres hq.value
        subst hqp
        cases ha : aliasValue T (m, p) with
        | none => exact absurd ha hq.value
        | some e =>
        obtain ⟨nodes, kinds, kind, id', node', hx, -, -, -, hx', hl, hnode⟩ := aliasValue_spec ha
        have hnn : node = node' := by
          obtain ⟨nodes1, stmts, h1, h2, h3⟩ := hst
          rw [hx] at h1; cases h1
          rw [hx'] at h2; cases h2
          simpa using h3
        subst hnn
        have htv : targets = [.name id' false] ∧ value = some e := by
          rcases hnode with h | ⟨a, h⟩ <;> subst h <;> cases hasg <;> exact ⟨rfl, rfl⟩
        obtain ⟨rfl, rfl⟩ := htv
        obtain ⟨k, v, hv, hm⟩ : ∃ k v, meaning W T depth known (k + 1) (m, p) = some v ∧
            meaning W T depth known k (m, p) = none := by
          clear ih hs
          induction n with
          | zero => rw [meaning] at hn; exact absurd rfl hn
          | succ n ihn =>
            cases hm : meaning W T depth known n (m, p) with
            | none =>
              cases hv : meaning W T depth known (n + 1) (m, p) with
              | none => exact absurd hv hn
              | some v => exact ⟨n, v, hv, hm⟩
            | some w => exact ihn (by rw [hm]; simp)
        rcases evalAssign_sim (evalPath_more (W := W) (T := T) (depth := depth) (other := other) N
          (max N k) (by omega)) m p.dropLast [.name id' false] (some e) s trivial with hrec | ⟨heq, -⟩
        · exact .inl hrec
        · obtain ⟨t, h1, h2⟩ := evalAssign_meaning (other := other) hdef hdepth hops href
            (show k ≤ max N k by omega) (q := (m, p)) hl ha hq hv hm (hs (k + 1))
          refine .inr ⟨rfl, ?_⟩
          rw [heq, h1]
          exact hs.step h2
    · intro s q hs hq
      cases hk : known q with
      | none => rfl
      | some v => rw [(hs 0).known q v hk] at hq; cases hq
    · intro s q v kinds hs hk hkinds hc n
      refine ⟨(hs n).assigned, fun r x g => ?_, fun r x g => ?_⟩
      · simp only at g
        rw [lookup_dictPut] at g
        by_cases hrq : r = q
        · subst hrq
          right
          cases ha : aliasValue T r with
          | none => rfl
          | some e =>
            obtain ⟨_, kinds', kind, _, _, -, hk1, hk2, hk3, -⟩ := aliasValue_spec ha
            rw [hkinds] at hk1; cases hk1
            rw [hc] at hk2; cases hk2
            exact absurd rfl hk3
        · rw [if_neg hrq] at g
          exact (hs n).objects r x g
      · simp only
        rw [lookup_dictPut]
        by_cases hrq : r = q
        · subst hrq; rw [hk] at g; cases g
        · rw [if_neg hrq]; exact (hs n).known r x g

end

end Paradigm
