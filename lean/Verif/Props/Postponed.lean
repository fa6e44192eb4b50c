import Verif.Lemmas.Expressions
import Verif.Props.Evaluation

/-!
# The texts of postponed annotations
-/

namespace Paradigm.Props

open Spec

/-! ### C94 -/

/-- A text has one reading. -/
theorem reads_unique {t : String} {e e' : Expr} (h : Reads t e) (h' : Reads t e') : e = e' := by
  obtain ⟨n, h⟩ := h
  obtain ⟨n', h'⟩ := h'
  have h1 := readAt_le h (Nat.le_max_left n n')
  have h2 := readAt_le h' (Nat.le_max_right n n')
  rw [h1] at h2
  cases h2
  rfl

/-- The text of an annotation that needs no parentheses is read as that annotation. -/
theorem reads_toStr (other : Atom → String) {e : Expr} (h : IsAnnotation e) (hp : WithoutParentheses e) :
    ∃ t, toStr other e = .ok t ∧ Reads t e := by
  refine ⟨_, toStr_shown other e ⟨h, hp⟩, ?_⟩
  obtain ⟨n, hn⟩ := (good_readable e ⟨h, hp⟩).at (Nat.zero_le _) (Nat.zero_le _) [] ⟨by simp [NoWord], by simp [skipBlank]⟩
  exact ⟨n, by simpa using hn⟩

/-- Postponing handles the annotations one by one. -/
theorem lazyFunction_annotations {other : Atom → String} {f g : FunctionDef}
    (h : lazyFunction other f = .ok g) :
    Pointwise (fun a b => lazyExpr other a = .ok b) (annotationsOf f) (annotationsOf g) := by
  unfold lazyFunction at h
  obtain ⟨r, hr, h⟩ := except_bind_ok.1 h
  obtain ⟨ps, hps, h⟩ := except_bind_ok.1 h
  obtain ⟨as, has, h⟩ := except_bind_ok.1 h
  obtain ⟨va, hva, h⟩ := except_bind_ok.1 h
  obtain ⟨ks, hks, h⟩ := except_bind_ok.1 h
  obtain ⟨ka, hka, h⟩ := except_bind_ok.1 h
  cases h
  simp only [annotationsOf, List.map_append]
  exact ((((lazyArgs_annotations hps).append (lazyArgs_annotations has)).append
    (lazyArgOption_annotations hva)).append (lazyArgs_annotations hks)).append
    (lazyArgOption_annotations hka) |>.append ⟨hr, trivial⟩

/-- Postponing succeeds if every annotation has a text. -/
theorem lazyFunction_total {other : Atom → String} {f : FunctionDef}
    (h : ∀ e, some e ∈ annotationsOf f → ∃ t, toStr other e = .ok t) : ∃ g, lazyFunction other f = .ok g := by
  have of : ∀ a ∈ f.args.posonlyargs ++ f.args.args ++ f.args.vararg.toList ++ f.args.kwonlyargs
      ++ f.args.kwarg.toList, ∀ e, a.annotation = some e → ∃ t, toStr other e = .ok t := by
    intro a ha e he
    refine h e ?_
    unfold annotationsOf
    exact List.mem_append.2 (.inl (List.mem_map.2 ⟨a, ha, he⟩))
  simp only [List.mem_append] at of
  obtain ⟨r, hr⟩ := lazyExpr_total (other := other) (a := f.returns) fun e he => h e (by
    unfold annotationsOf
    exact List.mem_append.2 (.inr (by simp [he])))
  obtain ⟨ps, hps⟩ := lazyArgs_total (other := other) (as := f.args.posonlyargs)
    fun a ha => of a (.inl (.inl (.inl (.inl ha))))
  obtain ⟨as, has⟩ := lazyArgs_total (other := other) (as := f.args.args)
    fun a ha => of a (.inl (.inl (.inl (.inr ha))))
  obtain ⟨va, hva⟩ := lazyArgOption_total (other := other) (a := f.args.vararg)
    fun a ha => of a (.inl (.inl (.inr ha)))
  obtain ⟨ks, hks⟩ := lazyArgs_total (other := other) (as := f.args.kwonlyargs)
    fun a ha => of a (.inl (.inr ha))
  obtain ⟨ka, hka⟩ := lazyArgOption_total (other := other) (a := f.args.kwarg)
    fun a ha => of a (.inr ha)
  exact ⟨_, by unfold lazyFunction; rw [hr, hps, has, hva, hks, hka]; rfl⟩

/-- **C94** The annotations of a function known only from stubs are postponed to texts Python reads as
the annotations of the stub. -/
def C94_statement : Prop :=
  ∀ (other : Atom → String) (f : FunctionDef), (∀ e, some e ∈ annotationsOf f → IsAnnotation e) →
    ∃ g, lazyFunction other f = .ok g ∧
      Pointwise (fun a b => ∀ e, a = some e → ∃ t, b = some (.constant (.str t)) ∧ Reads t e)
        (annotationsOf f) (annotationsOf g)

/-- Some expressions with all their parentheses, for examples. -/
def shortForm : Expr → String
  | .name id _ => id
  | .constant (.str s) => "'" ++ s ++ "'"
  | .binOp l op r => "(" ++ shortForm l ++ " " ++ op ++ " " ++ shortForm r ++ ")"
  | .subscript v w _ => shortForm v ++ "[" ++ shortForm w ++ "]"
  | _ => "?"

/-- `def f() -> Literal['a']: ...`. -/
def literalFunction : FunctionDef := {
  name := "f"
  args := {}
  returns := some (.subscript (.name "Literal" true) (.constant (.str "a")) true) }

/-- It is false: `-> Literal['a']` becomes the text `Literal[a]`, the quotes get lost. -/
theorem C94_refuted : ¬ C94_statement := by
  intro h
  obtain ⟨g, hg, h⟩ := h (fun _ => "...") literalFunction (by
    intro e he
    simp only [annotationsOf, literalFunction, List.mem_append, List.mem_singleton] at he
    rcases he with he | he
    · simp at he
    · cases he
      simp [IsAnnotation]
      decide)
  have hg' : lazyFunction (fun _ => "...") literalFunction =
    .ok { literalFunction with returns := some (.constant (.str "Literal[a]")) } := rfl
  rw [hg'] at hg
  cases hg
  obtain ⟨t, ht, h⟩ := h.1 _ rfl
  cases ht
  obtain ⟨n, h⟩ := h
  have h1 : (readAt 20 0 "Literal[a]".toList).map (fun x => shortForm x.1) = some "Literal[a]" := by
    decide +kernel
  cases hx : readAt 20 0 "Literal[a]".toList with
  | none => rw [hx] at h1; cases h1
  | some x =>
    have h2 := readAt_le hx (Nat.le_max_right n 20)
    rw [readAt_le h (Nat.le_max_left n 20)] at h2
    cases h2
    rw [hx] at h1
    exact absurd h1 (by decide)

/-- What holds: every function whose annotations are expressions of Python can be postponed, and the
texts of those annotations that contain no texts, no `...` and no parentheses but those of tuples and
signs are read as the annotations. Missing: the others, some of which are not, see `C94_refuted`. -/
theorem C94_reads_partial (other : Atom → String) (f : FunctionDef)
    (hf : ∀ e, some e ∈ annotationsOf f → IsAnnotation e) :
    ∃ g, lazyFunction other f = .ok g ∧
      Pointwise (fun a b => ∀ e, a = some e →
          ∃ t, b = some (.constant (.str t)) ∧ (WithoutParentheses e → Reads t e))
        (annotationsOf f) (annotationsOf g) := by
  obtain ⟨g, hg⟩ := lazyFunction_total (other := other) fun e he => toStr_total other e (hf e he)
  refine ⟨g, hg, ?_⟩
  refine pointwise_imp_mem (lazyFunction_annotations hg) ?_
  rintro a b ha hab e rfl
  rw [lazyExpr] at hab
  obtain ⟨t, ht⟩ := toStr_total other e (hf e ha)
  rw [ht] at hab
  cases hab
  refine ⟨t, rfl, fun hp => ?_⟩
  obtain ⟨t', ht', h⟩ := reads_toStr other (hf e ha) hp
  rw [ht] at ht'
  cases ht'
  exact h

/-- `Callable[[int, -1], tuple[a.B, ...]] | None & C` without the dots:
`Callable[[int, -1], tuple[a.B]] | None & C`. -/
def sampleAnnotation : Expr :=
  .binOp
    (.subscript (.name "Callable" true)
      (.tuple [.list [.name "int" true, .other "UnaryOp USub" [.constant (.int 1)]],
        .subscript (.name "tuple" true) (.attribute (.name "a" true) "B" true) true] true) true)
    "BitOr" (.binOp (.constant .none) "BitAnd" (.name "C" true))

example : IsAnnotation sampleAnnotation ∧ WithoutParentheses sampleAnnotation := by
  simp [sampleAnnotation, IsAnnotation, AreAnnotations, WithoutParentheses, AllWithoutParentheses,
    bindingLevel]
  decide

/-- The texts of further annotations are read as something else: `...` as a name, and the parentheses of
`a & (b | c)`, `a | (b | c)` and `(a | b)[c]` get lost. -/
example :
    (toStr (fun _ => "Ellipsis") (.constant .ellipsis)).toOption = some "Ellipsis" ∧
    (toStr (fun _ => "") (.binOp (.name "a" true) "BitAnd" (.binOp (.name "b" true) "BitOr"
      (.name "c" true)))).toOption = some "a & b | c" ∧
    (readAt 20 0 "a & b | c".toList).map (fun x => shortForm x.1) = some "((a BitAnd b) BitOr c)" ∧
    (toStr (fun _ => "") (.binOp (.name "a" true) "BitOr" (.binOp (.name "b" true) "BitOr"
      (.name "c" true)))).toOption = some "a | b | c" ∧
    (readAt 20 0 "a | b | c".toList).map (fun x => shortForm x.1) = some "((a BitOr b) BitOr c)" ∧
    (toStr (fun _ => "") (.subscript (.binOp (.name "a" true) "BitOr" (.name "b" true)) (.name "c" true)
      true)).toOption = some "a | b[c]" ∧
    (readAt 20 0 "a | b[c]".toList).map (fun x => shortForm x.1) = some "(a BitOr b[c])" := by
  refine ⟨by decide +kernel, by decide +kernel, by decide +kernel, by decide +kernel, by decide +kernel,
    by decide +kernel, by decide +kernel⟩

end Paradigm.Props
