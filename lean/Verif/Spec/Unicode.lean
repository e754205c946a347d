import Verif.Model.Unicode

/-! # Specification vocabulary for strings -/

namespace Berts.Spec

open Berts.Unicode

/-- High (leading) surrogate unit. -/
def IsHigh (u : Nat) : Prop := 0xd800 ≤ u ∧ u < 0xdc00
/-- Low (trailing) surrogate unit. -/
def IsLow (u : Nat) : Prop := 0xdc00 ≤ u ∧ u < 0xe000

instance : DecidablePred IsHigh := fun u => by unfold IsHigh; infer_instance
instance : DecidablePred IsLow := fun u => by unfold IsLow; infer_instance

/-- Unicode scalar value. -/
def IsScalar (c : Nat) : Prop := c < 0xd800 ∨ (0xe000 ≤ c ∧ c ≤ 0x10ffff)

instance : DecidablePred IsScalar := fun u => by unfold IsScalar; infer_instance

/-- Standard UTF-16 decoding: a high surrogate directly followed by a low surrogate is one code
point, every other surrogate is ill formed (`none`), every other unit stands for itself. -/
def decodeUnits : List Nat → List (Option Nat)
  | [] => []
  | [u] => if IsHigh u ∨ IsLow u then [none] else [some u]
  | u :: v :: us =>
    if IsHigh u ∧ IsLow v then
      some (0x10000 + (u - 0xd800) * 0x400 + (v - 0xdc00)) :: decodeUnits us
    else if IsHigh u ∨ IsLow u then none :: decodeUnits (v :: us)
    else some u :: decodeUnits (v :: us)

/-- The units a code point record stands for: its surrogate half or halves if it has any,
otherwise the unit itself. -/
def cpUnits (p : Cp) : List Nat :=
  if p.hi ≠ 0 ∨ p.lo ≠ 0 then (if p.hi ≠ 0 then [p.hi] else []) ++ (if p.lo ≠ 0 then [p.lo] else [])
  else [p.c]

/-- The object `u` is a properly initialised string with units `l`. -/
def Rep (u : UImpl) (l : List Nat) : Prop :=
  u.size = some l.length ∧ u.str = (if l = [] then none else some l)

instance (u : UImpl) (l : List Nat) : Decidable (Rep u l) := by unfold Rep; infer_instance

/-- Lexicographic order on unit sequences: `a` is a proper prefix of `b`, or at the first
difference `a` has the smaller unit. -/
def LexLt (a b : List Nat) : Prop :=
  (∃ t, t ≠ [] ∧ b = a ++ t) ∨
  (∃ p x y s t, a = p ++ x :: s ∧ b = p ++ y :: t ∧ x < y)

/-- The matches reported by a regex engine: ordered, non-overlapping, inside the text. -/
def Matches (n : Nat) : Nat → List (Nat × Nat) → Prop
  | cur, [] => cur ≤ n
  | cur, (s, e) :: ms => cur ≤ s ∧ s ≤ e ∧ Matches n e ms

/-- The text between two positions, as a list of at most one piece. -/
def gap (text : List Nat) (a b : Nat) : List (List Nat) := if a < b then [(text.take b).drop a] else []

/-- The pieces a text is cut into by matches: each match, and the text between two matches undivided. -/
def cutAt (text : List Nat) : Nat → List (Nat × Nat) → List (List Nat)
  | cur, [] => gap text cur text.length
  | cur, (s, e) :: ms => gap text cur s ++ [(text.take e).drop s] ++ cutAt text e ms

instance (n : Nat) : (cur : Nat) → (ms : List (Nat × Nat)) → Decidable (Matches n cur ms)
  | cur, [] => by unfold Matches; infer_instance
  | cur, (s, e) :: ms => by
    unfold Matches
    have := instDecidableMatches n e ms
    infer_instance

end Berts.Spec
