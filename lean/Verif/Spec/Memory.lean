import Verif.Model.Memory

/-!
# What a program sees of strings, and what it must not see of memory

The value of a string is a list of 16-bit units.  Operations act on values as one would expect; no
pointers, no sizes.
-/

namespace Berts.Memory

open Berts.Unicode

/-- The strings that are alive. -/
abbrev Strings := Nat → Option (List Nat)

/-- The value of a string made from UTF-8 (ill-formed: no units). -/
def utf8Value (bs : List Nat) : List Nat :=
  match utf8Decode bs with
  | none => []
  | some cs => utf16Encode cs

/-- The value of a string made from code points (a value that is not a character: no units). -/
def utf32Value (cs : List Nat) : List Nat :=
  if ∀ c ∈ cs, c < 0xd800 ∨ (0xe000 ≤ c ∧ c ≤ 0x10ffff) then utf16Encode cs else []

/-- Value of a string (of one that does not exist: no units). -/
def Strings.val (σ : Strings) (o : Nat) : List Nat := (σ o).getD []

/-- What an operation does to the values. -/
def Strings.apply (σ : Strings) : Op → Strings
  | .default o => upd σ o (some [])
  | .units o us => upd σ o (some us)
  | .utf8 o bs => upd σ o (some (utf8Value bs))
  | .utf32 o cs => upd σ o (some (utf32Value cs))
  | .copy o q => upd σ o (some (σ.val q))
  | .move o q => upd (upd σ q (some [])) o (some (σ.val q))
  | .sum o q r => upd σ o (some (σ.val q ++ σ.val r))
  | .assign o q => upd σ o (some (σ.val q))
  | .moveAssign o q => upd (upd σ q (some [])) o (some (σ.val q))
  | .add o q => upd σ o (some (σ.val o ++ σ.val q))
  | .dispose o => upd σ o (some [])
  | .destroy o => upd σ o none

/-- The values after a history. -/
def Strings.after (σ : Strings) (ops : List Op) : Strings := ops.foldl Strings.apply σ

/-- An operation creates strings that are not alive, and uses strings that are. -/
def Strings.Allows (σ : Strings) : Op → Prop
  | .default o => σ o = none
  | .units o _ => σ o = none
  | .utf8 o _ => σ o = none
  | .utf32 o _ => σ o = none
  | .copy o q => σ o = none ∧ σ q ≠ none
  | .move o q => σ o = none ∧ σ q ≠ none
  | .sum o q r => σ o = none ∧ σ q ≠ none ∧ σ r ≠ none
  | .assign o q => σ o ≠ none ∧ σ q ≠ none
  | .moveAssign o q => σ o ≠ none ∧ σ q ≠ none
  | .add o q => σ o ≠ none ∧ σ q ≠ none
  | .dispose o => σ o ≠ none
  | .destroy o => σ o ≠ none

/-- A history in which every operation is allowed. -/
def Strings.Legal : Strings → List Op → Prop
  | _, [] => True
  | σ, op :: ops => σ.Allows op ∧ (σ.apply op).Legal ops

/-- The operation does not make a string without a size: no default construction, no input that cannot be
converted. -/
def Sized : Op → Prop
  | .default _ => False
  | .utf8 _ bs => utf8Decode bs ≠ none
  | .utf32 _ cs => ∀ c ∈ cs, c < 0xd800 ∨ (0xe000 ≤ c ∧ c ≤ 0x10ffff)
  | _ => True

/-- The number of strings an operation constructs: the variable that is created, or the temporary that
holds the sum when `+=` joins two strings that are not empty. -/
def Strings.made (σ : Strings) : Op → Nat
  | .default _ | .units _ _ | .utf8 _ _ | .utf32 _ _ | .copy _ _ | .move _ _ | .sum _ _ _ => 1
  | .add o q => if σ.val o ≠ [] ∧ σ.val q ≠ [] then 1 else 0
  | .assign _ _ | .moveAssign _ _ | .dispose _ | .destroy _ => 0

/-- The number of strings a history constructs. -/
def Strings.madeBy : Strings → List Op → Nat
  | _, [] => 0
  | σ, op :: ops => σ.made op + (σ.apply op).madeBy ops

/-- The units a variable's memory holds: those of its buffer, `size` of them. -/
def St.units (s : St) (o : Nat) : Res (List Nat) := do
  let p ← s.use o
  let i ← s.heap.get p
  match i.str with
  | none => .ok []
  | some _ => do
    let n ← i.readSize
    load s.heap i.str n

/-- Everything allocated has been released. -/
def Heap.Clean (h : Heap) : Prop := (∀ p, h.impls p = none) ∧ ∀ b, h.bufs b = none

end Berts.Memory
