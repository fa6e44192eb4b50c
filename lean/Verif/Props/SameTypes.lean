import Verif.Lemmas.SameTypes
import Verif.Props.Equality

/-!
# C107: equal signatures describe the same types
-/

namespace Paradigm.Props

open Spec

/-- **C107**, full statement: signatures that compare equal have the same parameters with annotations that
describe the same types. -/
def C107_statement : Prop := ∀ s t : Sig, s.eq t = true → SameSignature s t

/-- A signature with one parameter of this type. -/
def oneOf (a : Obj) : Sig := .plain ⟨[withAnn a], .none⟩

/-- `Literal[1]`, `Literal[True]`; `tuple` and `tuple[()]`. -/
def literalOne : Obj := .alias none (.form literalForm) [.atom (.int 1)]
def literalTrue : Obj := .alias none (.form literalForm) [.atom (.bool true)]
def tupleCls : Obj := .cls 30
def emptyTuple : Obj := .pep585 30 []

theorem oneOf_same {a b : Obj} (h : SameSignature (oneOf a) (oneOf b)) : SameType a b :=
  h.1.1.annotation

theorem literal_values : ¬ SameType literalOne literalTrue := by
  intro h
  have : SameType (.atom (.int 1)) (.atom (.bool true)) := by
    cases h with
    | bare h => cases h
    | generic ha hb _ h => cases ha; cases hb; exact h _ (.head _)
    | union f g ha _ ho => cases ha; rcases ho with h | h <;> cases h
    | literal f g ha hb hf _ h =>
      cases ha
      cases hb
      have h1 := hf _ (.head _)
      have h2 := h _ (.head _)
      rwa [List.mem_singleton.1 h1] at h2
  cases this with
  | value h => cases h
  | bare h => cases h
  | generic h => cases h
  | union _ _ h => cases h
  | literal _ _ h => cases h

theorem tuple_arguments : ¬ SameType tupleCls emptyTuple := by
  intro h
  cases h with
  | bare _ h => cases h
  | generic h => cases h
  | union _ _ h => cases h
  | literal _ _ h => cases h

/-- **C107** is violated by the code: `Literal[1]` is taken for `Literal[True]`, because the values are
compared with `==`. -/
theorem C107_refuted : ¬ C107_statement := fun h =>
  literal_values (oneOf_same (h (oneOf literalOne) (oneOf literalTrue) (by
    simp [oneOf, withAnn, Sig.eq, PlainSig.eq, listEq, Param.eq, literalOne, literalTrue, Obj.areEqual,
      Obj.originOrSelf, Obj.getArgs, Obj.areAllAny, Obj.areAny, Obj.pyEq, Atom.eq, Obj.none])))

/-- **C107** is also violated for `tuple` and `tuple[()]`, the type of the empty tuple, because both have no
arguments. -/
theorem C107_refuted_tuple : ¬ C107_statement := fun h =>
  tuple_arguments (oneOf_same (h (oneOf tupleCls) (oneOf emptyTuple) (by
    simp [oneOf, withAnn, Sig.eq, PlainSig.eq, listEq, Param.eq, tupleCls, emptyTuple, Obj.areEqual,
      Obj.originOrSelf, Obj.getArgs, Obj.pyEq, Atom.eq, Obj.none])))

section

variable {ok : Atom → Prop} (hok : ∀ i b, ok (.int i) → ok (.bool b) → False)

include hok

theorem sameParameter_of_eq {p q : Param} (hp : CleanAnnotation ok p.annotation) (hq : CleanAnnotation ok q.annotation)
    (h : p.eq q = true) : SameParameter p q := by
  cases p with
  | required a k n => cases q with
    | required a' k' n' =>
      simp only [Param.eq, Bool.and_eq_true, beq_iff_eq] at h
      obtain ⟨⟨rfl, rfl⟩, h⟩ := h
      exact ⟨rfl, rfl, by simp, rfl, sameType_of_areEqual hok _ _ hp hq h⟩
    | optional => simp [Param.eq] at h
  | optional a d k n => cases q with
    | required => simp [Param.eq] at h
    | optional a' d' k' n' =>
      simp only [Param.eq, Bool.and_eq_true, beq_iff_eq] at h
      obtain ⟨⟨⟨⟨rfl, rfl⟩, hd⟩, _⟩, h⟩ := h
      exact ⟨rfl, rfl, by simp, hd, sameType_of_areEqual hok _ _ hp hq h⟩

theorem samePlain_of_eq {s t : PlainSig} (hs : ∀ a ∈ plainAnnotations s, CleanAnnotation ok a)
    (ht : ∀ a ∈ plainAnnotations t, CleanAnnotation ok a) (h : s.eq t = true) : SamePlain s t := by
  simp only [PlainSig.eq, Bool.and_eq_true] at h
  refine ⟨?_, sameType_of_areEqual hok _ _ (hs _ (by simp [plainAnnotations]))
    (ht _ (by simp [plainAnnotations])) h.2⟩
  have h1 : ∀ p ∈ s.parameters, CleanAnnotation ok p.annotation := fun p hp => hs _ (by
    simp only [plainAnnotations, List.mem_append, List.mem_map]; exact .inl ⟨p, hp, rfl⟩)
  have h2 : ∀ p ∈ t.parameters, CleanAnnotation ok p.annotation := fun p hp => ht _ (by
    simp only [plainAnnotations, List.mem_append, List.mem_map]; exact .inl ⟨p, hp, rfl⟩)
  have h := h.1
  generalize s.parameters = ps at h h1
  generalize t.parameters = qs at h h2
  induction ps generalizing qs with
  | nil => cases qs with
    | nil => trivial
    | cons q qs => simp [listEq] at h
  | cons p ps ih => cases qs with
    | nil => simp [listEq] at h
    | cons q qs =>
      simp only [listEq, Bool.and_eq_true] at h
      exact ⟨sameParameter_of_eq hok (h1 p (.head _)) (h2 q (.head _)) h.1,
        ih (fun p hp => h1 p (.tail _ hp)) qs h.2 (fun q hq => h2 q (.tail _ hq))⟩

end

/-- **C107**, what holds: it is so for signatures in whose annotations nothing has an empty list of
arguments and the literal values are not both numbers and booleans (`ok` are the values that may occur). -/
theorem C107_partial (ok : Atom → Prop) (hok : ∀ i b, ok (.int i) → ok (.bool b) → False) (s t : Sig)
    (hvalues : ∀ a ∈ annotationsOf s ++ annotationsOf t, ∀ x, Inside (.atom x) a → ok x)
    (harguments : ∀ a ∈ annotationsOf s ++ annotationsOf t, ∀ x o, Inside x a → ¬ Subscripted x o [])
    (h : s.eq t = true) : SameSignature s t := by
  have hs : ∀ a ∈ annotationsOf s, CleanAnnotation ok a := fun a ha =>
    ⟨hvalues a (List.mem_append_left _ ha), harguments a (List.mem_append_left _ ha)⟩
  have ht : ∀ a ∈ annotationsOf t, CleanAnnotation ok a := fun a ha =>
    ⟨hvalues a (List.mem_append_right _ ha), harguments a (List.mem_append_right _ ha)⟩
  clear hvalues harguments
  cases s with
  | plain s => cases t with
    | plain t => exact samePlain_of_eq hok hs ht h
    | overloaded ts => simp [Sig.eq] at h
  | overloaded ss => cases t with
    | plain t => simp [Sig.eq] at h
    | overloaded ts =>
      simp only [Sig.eq] at h
      show Pointwise SamePlain ss ts
      induction ss generalizing ts with
      | nil => cases ts with
        | nil => trivial
        | cons t ts => simp [listEq] at h
      | cons s ss ih => cases ts with
        | nil => simp [listEq] at h
        | cons t ts =>
          simp only [listEq, Bool.and_eq_true] at h
          refine ⟨samePlain_of_eq hok (fun a ha => hs a ?_) (fun a ha => ht a ?_) h.1,
            ih (fun a ha => hs a ?_) ts (fun a ha => ht a ?_) h.2⟩
          · simp only [annotationsOf, List.flatMap_cons]; exact List.mem_append_left _ ha
          · simp only [annotationsOf, List.flatMap_cons]; exact List.mem_append_left _ ha
          · simp only [annotationsOf, List.flatMap_cons]; exact List.mem_append_right _ ha
          · simp only [annotationsOf, List.flatMap_cons]; exact List.mem_append_right _ ha

/-- `Union[list[int], Literal['a']]` and the same the other way round. -/
def unionSample (a b : Obj) : Sig := oneOf (.alias none (.form unionForm) [a, b])

def pepInts : Obj := .pep585 11 [int_]
def literalA : Obj := .alias none (.form literalForm) [.atom (.str "a")]

theorem sample_inside {x a : Obj} (h : Inside x a)
    (ha : a = .none ∨ a = pepInts ∨ a = literalA ∨ a = .alias none (.form unionForm) [pepInts, literalA] ∨
      a = .alias none (.form unionForm) [literalA, pepInts] ∨ a = int_ ∨ a = .atom (.str "a")) :
    x = .none ∨ x = pepInts ∨ x = literalA ∨ x = .alias none (.form unionForm) [pepInts, literalA] ∨
      x = .alias none (.form unionForm) [literalA, pepInts] ∨ x = int_ ∨ x = .atom (.str "a") := by
  induction h with
  | self => exact ha
  | argument hx hs hy ih =>
    refine ih ?_
    rcases ha with rfl | rfl | rfl | rfl | rfl | rfl | rfl <;> cases hs <;>
      simp only [List.mem_cons, List.not_mem_nil, or_false] at hy
    · simp [hy]
    · simp [hy]
    · rcases hy with rfl | rfl <;> simp
    · rcases hy with rfl | rfl <;> simp
  | _ => rcases ha with h | h | h | h | h | h | h <;> cases h

/-- The hypotheses of `C107_partial` hold for these signatures, which are equal. -/
example : SameSignature (unionSample pepInts literalA) (unionSample literalA pepInts) := by
  have hm : ∀ a ∈ annotationsOf (unionSample pepInts literalA) ++
      annotationsOf (unionSample literalA pepInts), a = .none ∨ a = pepInts ∨ a = literalA ∨
        a = .alias none (.form unionForm) [pepInts, literalA] ∨
        a = .alias none (.form unionForm) [literalA, pepInts] ∨ a = int_ ∨ a = .atom (.str "a") := by
    intro a ha
    simp only [annotationsOf, unionSample, oneOf, plainAnnotations, withAnn, Param.annotation, List.map_cons,
      List.map_nil, List.cons_append, List.nil_append, List.mem_cons, List.not_mem_nil, or_false] at ha
    rcases ha with rfl | rfl | rfl | rfl <;> simp
  refine C107_partial (fun x => ∀ b, x ≠ .bool b) (fun i b _ h => h b rfl) _ _ (fun a ha x hx b hb => ?_)
    (fun a ha x o hx hs => ?_) ?_
  · subst hb
    rcases sample_inside hx (hm a ha) with h | h | h | h | h | h | h <;> cases h
  · rcases sample_inside hx (hm a ha) with rfl | rfl | rfl | rfl | rfl | rfl | rfl <;> cases hs
  · simp [unionSample, oneOf, withAnn, Sig.eq, PlainSig.eq, listEq, Param.eq, pepInts, literalA, Obj.areEqual,
      Obj.originOrSelf, Obj.getArgs, Obj.areAllAny, Obj.areAny, Obj.pyEq, Atom.eq, Obj.none, Obj.pyEqs, int_]

end Paradigm.Props
