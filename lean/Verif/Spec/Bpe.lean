import Verif.Spec.Unicode

/-!
# Specification of byte pair encoding

Words are lists of tokens (ids or strings); a merge table maps a pair of tokens to a rank and the
merged token.
-/

namespace Berts.Spec

open Berts.Unicode

/-- A merge table: `tbl a b = some (rank, merged)`. -/
abbrev MergeTable (α : Type) := α → α → Option (Nat × α)

/-- One merge of any adjacent pair of the table. -/
def MergeStep {α : Type} (tbl : MergeTable α) (w w' : List α) : Prop :=
  ∃ pre a b post r n, w = pre ++ a :: b :: post ∧ tbl a b = some (r, n) ∧ w' = pre ++ n :: post

/-- One step of the textbook algorithm: merge an adjacent pair of lowest rank, the leftmost one if
there are several. -/
def RefStep {α : Type} (tbl : MergeTable α) (w w' : List α) : Prop :=
  ∃ pre a b post r n, w = pre ++ a :: b :: post ∧ tbl a b = some (r, n) ∧ w' = pre ++ n :: post ∧
    ∀ pre' a' b' post' r' n', w = pre' ++ a' :: b' :: post' → tbl a' b' = some (r', n') →
      r < r' ∨ (r = r' ∧ pre.length ≤ pre'.length)

/-- Finitely many steps. -/
inductive Star {α : Type} (R : α → α → Prop) : α → α → Prop
  | refl (a : α) : Star R a a
  | head {a b c : α} : R a b → Star R b c → Star R a c

/-- No adjacent pair is in the table. -/
def Normal {α : Type} (tbl : MergeTable α) (w : List α) : Prop :=
  ∀ pre a b post, w = pre ++ a :: b :: post → tbl a b = none

/-- `v` is the result of the textbook algorithm on `w`. -/
def RefBpe {α : Type} (tbl : MergeTable α) (w v : List α) : Prop := Star (RefStep tbl) w v ∧ Normal tbl v

/-- What a sequence of characters is mapped to before any merge, when unknown characters are fused:
each known character to its id, each maximal run of unknown characters to one unknown token. -/
def fusedIds (unk : Nat) : List (Option Nat) → List Nat
  | [] => []
  | some a :: l => a :: fusedIds unk l
  | none :: l => unk :: fusedIds unk (l.dropWhile Option.isNone)
termination_by l => l.length
decreasing_by
  · simp
  · have : (l.dropWhile Option.isNone).length ≤ l.length := (List.dropWhile_suffix _).length_le
    simp; omega

/-- `i` is the last position of `x` in the list. -/
def IsLastAt {α : Type} (l : List α) (x : α) (i : Nat) : Prop :=
  l[i]? = some x ∧ ∀ j, l[j]? = some x → j ≤ i

/-- The token a pair is merged into: the second token without its first `n` code points (the
length of the continuation prefix) appended to the first. -/
def joined (n : Nat) (t0 t1 : List Nat) : List Nat := t0 ++ utf16Encode ((toCodePoints t1).drop n)

/-- The tokens for the single characters `cs` of a word: all but the first carry the continuation
prefix, the last carries the end-of-word suffix. -/
def charTokens (pre suf cs : List Nat) : List (List Nat) :=
  cs.mapIdx fun i c =>
    (if i = 0 then [] else pre) ++ utf16Of c ++ (if i + 1 = cs.length then suf else [])

end Berts.Spec
