import Verif.Model.Examples

/-! # What the example programs should accept -/

namespace Berts.Examples.Spec

open Berts.Vocab (ascii)

/-- The types the quantizer offers and their numbers (`enum ggml_type` of ggml.h). -/
inductive TypeName : Nat → List Nat → Prop
  | f32 : TypeName 0 (ascii "F32")
  | f16 : TypeName 1 (ascii "F16")
  | q4_0 : TypeName 2 (ascii "Q4_0")
  | q4_1 : TypeName 3 (ascii "Q4_1")
  | q5_0 : TypeName 6 (ascii "Q5_0")
  | q5_1 : TypeName 7 (ascii "Q5_1")
  | q8_0 : TypeName 8 (ascii "Q8_0")
  | q8_1 : TypeName 9 (ascii "Q8_1")
  | q2_k : TypeName 10 (ascii "Q2_K")
  | q3_k : TypeName 11 (ascii "Q3_K")
  | q4_k : TypeName 12 (ascii "Q4_K")
  | q5_k : TypeName 13 (ascii "Q5_K")
  | q6_k : TypeName 14 (ascii "Q6_K")

/-- `c` is `d` or the same letter in lower case. -/
inductive CharVariant : Nat → Nat → Prop
  | same (c : Nat) : CharVariant c c
  | lower (i : Nat) : i < 26 → CharVariant (97 + i) (65 + i)

/-- Equal up to letter case, the second one in upper case. -/
inductive CaseVariant : List Nat → List Nat → Prop
  | nil : CaseVariant [] []
  | cons {c d : Nat} {a b : List Nat} : CharVariant c d → CaseVariant a b → CaseVariant (c :: a) (d :: b)

/-- `ds` is written with decimal digits and means `v`. -/
inductive Digits : List Nat → Nat → Prop
  | one (d : Nat) : d < 10 → Digits [48 + d] d
  | snoc (ds : List Nat) (v d : Nat) : Digits ds v → d < 10 → Digits (ds ++ [48 + d]) (10 * v + d)

/-- A whole number, possibly with a minus sign. -/
inductive Number : List Nat → Int → Prop
  | nonneg (ds : List Nat) (v : Nat) : Digits ds v → Number ds v
  | neg (ds : List Nat) (v : Nat) : Digits ds v → Number (45 :: ds) (-(v : Int))

/-- White space of the C locale. -/
def Blank (c : Nat) : Prop := c ∈ [9, 10, 11, 12, 13, 32]

/-- A whole number with an optional sign, as the C library reads it. -/
inductive Signed : List Nat → Int → Prop
  | plain (ds : List Nat) (v : Nat) : Digits ds v → Signed ds v
  | plus (ds : List Nat) (v : Nat) : Digits ds v → Signed (43 :: ds) v
  | minus (ds : List Nat) (v : Nat) : Digits ds v → Signed (45 :: ds) (-(v : Int))

/-- A text that begins with white space and a number, whatever follows the last digit. -/
def BeginsWith (s : List Nat) (v : Int) : Prop :=
  ∃ ws n rest, s = ws ++ n ++ rest ∧ (∀ c ∈ ws, Blank c) ∧ Signed n v ∧ ∀ d t, rest = d :: t → ¬ (48 ≤ d ∧ d ≤ 57)

/-- `best 0`, ..., `best (k - 1)` are the `k` numbers below `V` with the largest `p`, in descending order. -/
structure Best {α : Type} (ge : α → α → Prop) (p : Nat → α) (V k : Nat) (best : Nat → Nat) : Prop where
  below : ∀ i, i < k → best i < V
  distinct : ∀ i j, i < k → j < k → best i = best j → i = j
  ordered : ∀ i j, i ≤ j → j < k → ge (p (best i)) (p (best j))
  largest : ∀ v, v < V → (∀ i, i < k → best i ≠ v) → ∀ i, i < k → ge (p (best i)) (p v)

end Berts.Examples.Spec
