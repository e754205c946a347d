import Verif.Spec.Convert
import Verif.Spec.QuantizeFile

/-!
# What a converted and quantized model is, in terms of its source

Written against the checkpoint: the parameters are rounded to the type the converter stores, the matrices among
them whose key ends in `weight` then once more to the new type.
-/

namespace Berts.Convert

open Berts.Vocab (ascii)
open Berts.Graph (T)

variable {α : Type}

/-- The quantizer rounds the parameter: a matrix whose key ends in `weight`. -/
def Reduced (p : Param α) : Bool := wide p.shape && (ascii "weight").isSuffixOf p.key

/-- The elements of a parameter as the converter stores them. -/
def stored (rnd : Bool → α → α) (f16 : Bool) (p : Param α) : List α := p.elems.map (rnd (Half f16 p))

/-- The tensor a parameter stands for after quantization to `qtype`; `qz` rounds a list of elements. -/
def quantFor (rnd : Bool → α → α) (qz : List α → List α) (qtype : Nat) (dflt : α) (f16 : Bool) (p : Param α) : T α :=
  if Reduced p then
    let n0 := p.shape.getLastD 1
    let n1 := p.shape.dropLast.headD 1
    ⟨n0, n1, 1, 1, if qtype = 1 then 2 else 4, true,
      fun i j k l => (qz (stored rnd f16 p)).getD (i + n0 * (j + n1 * (k + l))) dflt⟩
  else tensorFor rnd dflt f16 p

/-- The tensors of the quantized model by the names that the loader uses. -/
def quantAt (rnd : Bool → α → α) (qz : List α → List α) (qtype : Nat) (dflt : α) (f16 : Bool) (s : Source α)
    (name : List Nat) : Option (T α) :=
  ((s.state.find? fun p => ascii "berts.bert." ++ p.key == name).or
    (s.lm.find? fun p => (headNames s.cls).any fun k =>
      p.key == ascii k.1 && name == ascii ("berts.bert.predictions." ++ k.2))).map (quantFor rnd qz qtype dflt f16)

/-- `ggml_nbytes` of the types F32, F16, I8 and I32. -/
structure PlainSizes (nb : Nat → List Nat → Nat) : Prop where
  f32 : ∀ ne, nb 0 ne = 4 * ne.foldl (· * ·) 1
  f16 : ∀ ne, nb 1 ne = 2 * ne.foldl (· * ·) 1
  i8 : ∀ n, nb 16 [n] = n
  i32 : ∀ n, nb 18 [n] = 4 * n

/-- Sources whose converted files can be quantized: no line terminators in keys, as many elements as the shapes
say, normalisations are vectors; `ggml_quantize_chunk` accepts the matrices, gives as many bytes as a tensor of the
new type has and not more than the F32 elements take, and they are decoded to the rounded elements. -/
structure QuantOk (s : Source α) (enc : Bool → List α → List Nat) (dec : Nat → List Nat → List α)
    (rnd : Bool → α → α) (f16 : Bool) (chunk : Nat → List α → Option (List Nat)) (qz : List α → List α) (qtype : Nat)
    (nb : Nat → List Nat → Nat) : Prop where
  type : qtype < 19
  sizes : PlainSizes nb
  bytes : ∀ q xs, (enc q xs).length = (if q then 2 else 4) * xs.length
  lines : ∀ p ∈ s.state, 10 ∉ p.key ∧ 13 ∉ p.key
  elems : ∀ p ∈ s.state ++ s.lm, p.elems.length = p.shape.foldl (· * ·) 1
  norms : ∀ p ∈ s.state ++ s.lm, ascii "LayerNorm.weight" <:+ p.key ∨ ascii "layer_norm.weight" <:+ p.key →
    wide p.shape = false
  chunks : ∀ p ∈ s.state ++ s.lm, Reduced p = true → ∃ b, chunk qtype (stored rnd f16 p) = some b ∧
    b.length = nb qtype p.shape.reverse ∧ b.length ≤ p.elems.length * 4 ∧ dec qtype b = qz (stored rnd f16 p)

/-- A directory of the new file: the entries of the old one, with the new type for matrices named `…weight`; each is
stored within the data. -/
structure Described (g : Load.Gguf) (qtype : Nat) (infos : List Quantize.Info) : Prop where
  length : infos.length = g.dir.length
  entries : ∀ e ∈ infos, ∃ t ∈ g.dir, e.name = t.name ∧ e.ndims = t.ndims ∧ e.ne = t.ne ∧
    (e.type = t.type ∨ (t.ndims = 2 ∧ (∃ x, t.name = x ++ ascii "weight") ∧ e.type = qtype))
  offsets : ∀ e ∈ infos, e.offset ≤ (infos.map fun e => Quantize.up 32 e.size).sum

end Berts.Convert
