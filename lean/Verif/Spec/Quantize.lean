import Verif.Model.Quantize

/-!
# Specification of the quantizer
-/

namespace Berts.Quantize

open Berts.Load (LT)
open Berts.Vocab (ascii)

variable {F : Type}

/-- The tensors to be converted: two dimensions and a name that ends in "weight". -/
def Eligible (t : LT) : Prop := t.ndims = 2 ∧ ∃ p, t.name = p ++ ascii "weight"

/-- No line terminators in a name. -/
def NoNl (t : LT) : Prop := 10 ∉ t.name ∧ 13 ∉ t.name

/-- F32 or F16. -/
def FloatType (t : LT) : Prop := t.type = 0 ∨ t.type = 1

/-- The elements of a tensor of type F32 or F16. -/
def elements (cv : Conv F) (t : LT) : List F := if t.type = 0 then cv.dec32 t.data else cv.dec16 t.data

/-- `p` is what has to be written for a tensor: type and data. -/
def Converted (cv : Conv F) (qtype : Nat) (t : LT) (p : Nat × List Nat) : Prop :=
  (Eligible t → p.1 = qtype ∧ cv.chunk qtype (elements cv t) = some p.2) ∧
  (¬ Eligible t → p = (t.type, t.data))

/-- A size rounded up to a multiple of `a`. -/
def up (a n : Nat) : Nat := (n + a - 1) / a * a

/-- The data section for the given data of the tensors. -/
def body (a : Nat) : List (List Nat) → List Nat
  | [] => []
  | d :: ds => d ++ List.replicate (up a d.length - d.length) 0 ++ body a ds

/-- Where the data of entry `i` start: after the rounded-up data of all earlier entries. -/
def offsetOf (a : Nat) (ds : List (List Nat)) (i : Nat) : Nat := ((ds.take i).map fun d => up a d.length).sum

/-- The data offset a reader computes that uses alignment `ar`: the length of the header rounded up. -/
def readerOffset (ar : Nat) (pre : List Nat) (infos : List Info) : Nat :=
  up ar (pre.length + (infos.map fun i => (infoBytes i).length).sum)

/-- The directory names of the source are distinct and the tensors carry them. -/
def SrcOk (names : List (List Nat)) (ts : List LT) : Prop := names.Nodup ∧ ts.map (·.name) = names

/-- The contract of `ggml_quantize_chunk` for the tensors to be converted: defined and at most as many bytes
as the F32 elements take. -/
def ChunkOk (cv : Conv F) (qtype : Nat) (ts : List LT) : Prop :=
  ∀ t ∈ ts, Eligible t → FloatType t → ∃ b, cv.chunk qtype (elements cv t) = some b ∧ b.length ≤ nelements t * 4

end Berts.Quantize
