import Verif.Model.Trie

/-! # Specification vocabulary for dictionaries -/

namespace Berts.Spec

/-- `i` is the last position of `s` in the list. -/
def IsLastIndex (l : List (List Nat)) (s : List Nat) (i : Nat) : Prop :=
  l[i]? = some s ∧ ∀ j, l[j]? = some s → j ≤ i

/-- `p` is the longest prefix of `s` with property `P`. -/
def IsLongestPrefix (P : List Nat → Prop) (s p : List Nat) : Prop :=
  p <+: s ∧ P p ∧ ∀ q, q <+: s → P q → q.length ≤ p.length

/-- `p` is a non-empty entry of the dictionary. -/
def IsEntry (l : List (List Nat)) (p : List Nat) : Prop := p ≠ [] ∧ p ∈ l

/-- `p` is a non-empty initial part of some entry of the dictionary. -/
def IsPartial (l : List (List Nat)) (p : List Nat) : Prop := p ≠ [] ∧ ∃ v ∈ l, p <+: v

end Berts.Spec
