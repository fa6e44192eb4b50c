import Verif.Spec.WellFormed

/-! Small vocabulary for statements about argument lists. -/

namespace Paradigm.Spec

open PyCall

/-- The signature has a `**kwargs` parameter. -/
def HasVarKeyword (ps : List Param) : Prop := ∃ p ∈ ps, p.kind = .variadicKeyword

/-- The parameters that the first `n` positional arguments fill. -/
def filledBy (ps : List Param) (n : Nat) : List Param := (ps.filter isPositional).take n

/-- A keyword argument carries the name of a parameter already filled positionally, while the
signature has `**kwargs`. -/
def Collides (ps : List Param) (n : Nat) (names : List String) : Prop :=
  HasVarKeyword ps ∧ ∃ p ∈ filledBy ps n, p.name ∈ names

/-- The same, restricted to positional-or-keyword parameters. -/
def KwCollides (ps : List Param) (n : Nat) (names : List String) : Prop :=
  HasVarKeyword ps ∧ ∃ p ∈ filledBy ps n, acceptsKeyword p = true ∧ p.name ∈ names

/-- `{**k, **rk}`. -/
def merge (k rk : Kwargs) : Kwargs :=
  k.map (fun kv => (kv.1, (rk.lookup kv.1).getD kv.2))
    ++ rk.filter (fun kv => !(keys k).contains kv.1)

/-- The parameters that may remain after binding `n` positional arguments and the keywords `names`:
the first `n` positional ones are gone; so is `*args` when a positional parameter that follows is
given by keyword. -/
def leftover (ps : List Param) (n : Nat) (names : List String) : List Param :=
  let tail := (ps.filter isPositional).drop n ++ ps.filter (fun p => !isPositional p)
  if ((ps.filter isPositional).drop n).any (fun p => acceptsKeyword p && names.contains p.name) then
    tail.filter (fun p => p.kind != .variadicPositional)
  else tail

/-- What `bind` may do to the `i`-th left parameter. -/
structure BoundTo (names : List String) (before : List Param) (i : Nat) (p q : Param) : Prop where
  name : q.name = p.name
  annotation : q.annotation = p.annotation
  /-- never made required -/
  staysOptional : p.isOptional = true → q.isOptional = true
  /-- not bound: same requiredness and default -/
  unbound : ¬ (acceptsKeyword p = true ∧ p.name ∈ names) →
    q.isOptional = p.isOptional ∧ q.default? = p.default?
  /-- before the first bound keyword nothing changes at all -/
  prefixSame : (∀ x ∈ before.take (i + 1), ¬ (acceptsKeyword x = true ∧ x.name ∈ names)) → q = p
  /-- from the first bound keyword on, whatever accepts keywords is keyword-only -/
  suffixKind : (∃ x ∈ before.take (i + 1), acceptsKeyword x = true ∧ x.name ∈ names) →
    q.kind = if acceptsKeyword p then .keywordOnly else p.kind

end Paradigm.Spec
