import Verif.Lemmas.Text
import Verif.Props.Overloads

/-!
# C22–C23: printed signatures
-/

namespace Paradigm.Props

open Spec Spec.Read

/-! ### C22 -/

/-- **C22.** The text of a signature, read by Python's rules, announces exactly the parameters'
names and kinds, in order (whenever annotations and defaults print as self-contained expressions). -/
theorem C22_str_readable (rt : Reprs) (s : PlainSig) (h : ConstructiblePlain s)
    (hn : ∀ p ∈ s.parameters, IsName p.name) (hc : ∀ p ∈ s.parameters, PrintsClosed rt p) :
    Read.signature (s.str rt) = some (s.parameters.map (fun p => (p.name.toList, p.kind))) := by
  rw [constructiblePlain_iff] at h
  obtain ⟨hv, hw⟩ := h
  have hsub : ∀ k, ∀ p ∈ byKind s.parameters k, p ∈ s.parameters := fun k p hp => (mem_byKind hp).1
  have hclosed : ∀ t ∈ s.strParts rt, Closed t := by
    intro t ht
    have hp : ∀ k, t ∈ (byKind s.parameters k).map (Param.str rt) → Closed t := by
      intro k ht
      obtain ⟨p, hp, rfl⟩ := List.mem_map.1 ht
      exact param_str_closed rt p (hv p (hsub k p hp)) (hn p (hsub k p hp)) (hc p (hsub k p hp))
    unfold PlainSig.strParts at ht
    simp only [List.mem_append] at ht
    rcases ht with (((((ht | ht) | ht) | ht) | ht) | ht) | ht
    · exact hp _ ht
    · split at ht
      · simp at ht
      · rw [List.mem_singleton] at ht; rw [ht]; rfl
    · exact hp _ ht
    · exact hp _ ht
    · split at ht
      · rw [List.mem_singleton] at ht; rw [ht]; rfl
      · simp at ht
    · exact hp _ ht
    · exact hp _ ht
  have hentries : (s.strParts rt).map entry = entriesOf s := by
    have hp : ∀ k, ((byKind s.parameters k).map (Param.str rt)).map entry
        = (byKind s.parameters k).map entryOf := by
      intro k
      rw [List.map_map]
      exact List.map_congr_left fun p hp =>
        entry_param rt p (hv p (hsub k p hp)) (hn p (hsub k p hp))
    unfold PlainSig.strParts entriesOf
    simp only [List.map_append, hp]
    congr 4
    · congr 2
      split <;> rfl
    · split <;> rfl
  have hkinds := kinds_entriesOf s hw.ordered
  unfold PlainSig.str
  rw [show ∀ a b : Text, ['('] ++ a ++ ") -> ".toList ++ b = '(' :: (a ++ ')' :: (" -> ".toList ++ b))
    from fun a b => by simp]
  unfold Read.signature
  simp only
  cases hparts : s.strParts rt with
  | nil =>
    have h0 : s.parameters = [] := by
      rw [hparts, List.map_nil] at hentries
      rw [← hentries] at hkinds
      simpa [kinds, kindsFrom] using hkinds.symm
    simp only [join, List.nil_append]
    rw [parts, if_pos (by decide)]
    simp [h0]
  | cons t ts =>
    rw [hparts] at hclosed hentries
    rw [parts_join ts t [] _ (hclosed t (by simp)) (fun u hu => hclosed u (by simp [hu]))]
    have hne : t ≠ [] := by
      intro ht
      have : t ∈ s.strParts rt := by simp [hparts]
      have hp : ∀ k, t ∉ (byKind s.parameters k).map (Param.str rt) := by
        intro k hm
        obtain ⟨p, hp, hpt⟩ := List.mem_map.1 hm
        rw [param_str_eq rt p (hv p (hsub k p hp)), ht] at hpt
        simp at hpt
        exact (hn p (hsub k p hp)).1 (by simp [hpt.2.1])
      unfold PlainSig.strParts at this
      simp only [List.mem_append] at this
      rcases this with (((((h | h) | h) | h) | h) | h) | h
      · exact hp _ h
      · split at h
        · simp at h
        · simp [ht] at h
      · exact hp _ h
      · exact hp _ h
      · split at h
        · simp [ht] at h
        · simp at h
      · exact hp _ h
      · exact hp _ h
    have : (([] ++ t) :: ts.map (fun t => ' ' :: t)).map entry = (t :: ts).map entry := by
      simp [List.map_map, Function.comp_def, entry_blank]
    split
    · rename_i h; cases h
    · rename_i h
      simp at h
      exact absurd h.1 hne
    · rename_i ps _ h
      simp only [Option.some.injEq] at h
      rw [← h, this, hentries, hkinds]

/-- **C22** for any runtime whose own texts are self-contained expressions. -/
theorem C22_str_readable_runtime (rt : Reprs) (hrt : ReprsOk rt) (s : PlainSig)
    (h : ConstructiblePlain s) (hn : ∀ p ∈ s.parameters, IsName p.name)
    (ha : ∀ p ∈ s.parameters, aliasNames p.annotation = true ∧
      ∀ d, p.default? = some d → aliasNames d = true) :
    Read.signature (s.str rt) = some (s.parameters.map (fun p => (p.name.toList, p.kind))) :=
  C22_str_readable rt s h hn fun p hp =>
    ⟨toRepr_closed hrt _ (ha p hp).1, fun d hd => toRepr_closed hrt d ((ha p hp).2 d hd)⟩

/-- A runtime that prints every builtin value as `'('` (a string literal with a bracket) and every
class as `int`. -/
def sampleRt : Reprs where
  atom _ := "'('".toList
  cls _ := "int".toList
  form _ := "typing.Any".toList
  other _ := "~P".toList
  kind _ := "<kind>".toList

theorem sampleRt_ok : ReprsOk sampleRt := by
  constructor <;> intro _ <;> rfl

/-- `(x: int, /, b: int = '(', *args: int, c: int, **kw: int) -> int` -/
def sigText : PlainSig :=
  { parameters := [.required int_ .positionalOnly "x", pB, pArgs, pC, pKw], returns := int_ }

theorem sigText_ok : ConstructiblePlain sigText := by
  rw [constructiblePlain_iff]
  refine ⟨?_, ?_⟩
  · intro p hp
    simp [sigText] at hp
    rcases hp with rfl | rfl | rfl | rfl | rfl <;> simp [ValidParam, pB, pArgs, pC, pKw, one, Obj.isNoDefault]
  · constructor <;> decide

example : sigText.str sampleRt
    = "(x: int, /, b: int = '(', *args: int, c: int, **kw: int) -> int".toList := by decide

example : Read.signature (sigText.str sampleRt)
    = some [("x".toList, .positionalOnly), ("b".toList, .positionalOrKeyword),
      ("args".toList, .variadicPositional), ("c".toList, .keywordOnly),
      ("kw".toList, .variadicKeyword)] :=
  C22_str_readable_runtime sampleRt sampleRt_ok sigText sigText_ok
    (by simp [sigText, IsName, pB, pArgs, pC, pKw, Param.name])
    (by simp [sigText, pB, pArgs, pC, pKw, Param.annotation, Param.default?, aliasNames, int_, one])

/-! ### C23 -/

theorem strParts_sublist (rt : Reprs) (s : PlainSig) (h : Sorted s.parameters) :
    (s.parameters.map (Param.str rt)).Sublist (s.strParts rt) := by
  conv => lhs; rw [byKind_concat s.parameters h]
  unfold PlainSig.strParts
  simp only [List.map_append, List.append_assoc]
  refine List.Sublist.append (List.Sublist.refl _) ?_
  refine List.Sublist.trans ?_ (List.sublist_append_right _ _)
  refine List.Sublist.append (List.Sublist.refl _) ?_
  refine List.Sublist.append (List.Sublist.refl _) ?_
  exact List.sublist_append_right _ _

/-- **C23**, plain signatures. -/
theorem C23_plain_text (rt : Reprs) (s : PlainSig) :
    EmbedsInOrder (s.parameters.map (Param.repr rt) ++ [toRepr rt s.returns]) (s.repr rt) ∧
    (ConstructiblePlain s →
      EmbedsInOrder (s.parameters.map (Param.str rt) ++ [toRepr rt s.returns]) (s.str rt)) := by
  have app : ∀ (ps : List Text) (a t b r : Text), EmbedsInOrder ps a →
      EmbedsInOrder (ps ++ [t]) (a ++ (b ++ (t ++ r))) := by
    intro ps a t b r h
    induction ps generalizing a with
    | nil => exact ⟨a ++ b, r, by simp, trivial⟩
    | cons p ps ih =>
      obtain ⟨x, y, rfl, h⟩ := h
      exact ⟨x, y ++ (b ++ (t ++ r)), by simp, ih y h⟩
  refine ⟨?_, fun h => ?_⟩
  · unfold PlainSig.repr
    cases hp : s.parameters with
    | nil =>
      refine ⟨"PlainSignature(returns=".toList, [')'], by simp, trivial⟩
    | cons p ps =>
      have := app _ _ (toRepr rt s.returns) (", returns=".toList) [')']
        (embeds_weaken _ "PlainSignature(".toList _
          (embeds_join commaSep ((p :: ps).map (Param.repr rt))))
      simpa [commaSep] using this
  · rw [constructiblePlain_iff] at h
    have h1 := embeds_sublist _ _ _ (strParts_sublist rt s h.2.ordered)
      (embeds_join commaSep (s.strParts rt))
    have := app _ _ (toRepr rt s.returns) (") -> ".toList) [] (embeds_weaken _ ['('] _ h1)
    unfold PlainSig.str
    simpa using this

/-- **C23**, overloaded signatures. -/
theorem C23_overloaded_text (rt : Reprs) (ss : List PlainSig) :
    EmbedsInOrder (ss.map (PlainSig.repr rt)) ((Sig.overloaded ss).repr rt) ∧
    EmbedsInOrder (ss.map (PlainSig.str rt)) ((Sig.overloaded ss).str rt) :=
  ⟨embeds_suffix _ _ _ (embeds_weaken _ _ _ (embeds_join _ _)), embeds_join _ _⟩

example : ConstructiblePlain sigText ∧ sigText.parameters.length = 5 := ⟨sigText_ok, rfl⟩

end Paradigm.Props
