import Verif.Spec.Quantize
import Verif.Spec.Load
import Verif.Model.QuantizeFile

/-!
# Specification: a quantized file is the source with converted weights

`nb type ne` is `ggml_nbytes` of a tensor of that type and shape.
-/

namespace Berts.Quantize

open Berts.Load
open Berts.Vocab (ascii)

variable {α F : Type}

/-- The alignment a reader uses: `general.alignment`, or 32. -/
def AlignedAs (kv : List (List Nat × Kv)) (a : Nat) : Prop :=
  HasU32 ⟨kv, [], 0⟩ "general.alignment" a ∨ (NoKey ⟨kv, [], 0⟩ "general.alignment" ∧ a = 32)

/-- What `gguf_init_from_file` delivers for a file that begins with metadata `kv` (`pre` when written) and the
directory `infos`: names, shapes, types and offsets as recorded, sizes computed, data after the
directory at the next multiple of the alignment that the metadata give. -/
structure ReadBack (nb : Nat → List Nat → Nat) (kv : List (List Nat × Kv)) (pre : List Nat) (infos : List Info)
    (g : Gguf) : Prop where
  keys : g.kv = kv
  dir : g.dir = infos.map fun e => ⟨e.name, e.ndims, e.ne, e.type, nb e.type e.ne, e.offset⟩
  data : ∀ a, AlignedAs kv a → g.dataOffset = readerOffset a pre infos

/-- Sources that can be quantized: no key twice, alignment 32, no line terminators in names, eligible tensors
of type F32 or F16; `ggml_quantize_chunk` gives the number of bytes that a tensor of the new type has, and
not more than the F32 elements take. -/
structure Quantizable (cv : Conv F) (nb : Nat → List Nat → Nat) (qtype : Nat) (g : Gguf) (ts : List LT) : Prop where
  keys : (g.kv.map (·.1)).Nodup
  align : AlignedAs g.kv 32
  names : ∀ t ∈ g.dir, 10 ∉ t.name ∧ 13 ∉ t.name
  sizes : ∀ t ∈ g.dir, t.nbytes = nb t.type t.ne
  floats : ∀ t ∈ ts, Eligible t → FloatType t
  chunk : ∀ t ∈ ts, Eligible t → ∃ b, cv.chunk qtype (elements cv t) = some b ∧ b.length = nb qtype t.ne ∧
    b.length ≤ nelements t * 4

/-- The outside when a new file is opened: it is found with directory and bytes, and ggml has the memory.  Signedness
of `char` and the order of the vocabulary map are those of `w`. -/
structure Reopens (w w' : World α) (g : Gguf) (bytes : List Nat) : Prop where
  gguf : w'.gguf = some g
  file : w'.file = some bytes
  pool : w'.poolInit (needed w'.gg g.dir) = true
  align : 0 < w'.gg.align ∧ w'.gg.tensorSize % w'.gg.align = 0
  fits : needed w'.gg g.dir < 2 ^ 64 ∧ bytes.length < 2 ^ 63
  signed : w'.signed = w.signed
  order : w'.order = w.order

/-- `c'` is `c` with converted weights: same hyperparameters and vocabulary, type `qtype`; each tensor is the one
of `c` at the same place, converted if it is eligible; the weights are found in these tensors by name. -/
structure QuantizedFrom (cv : Conv F) (qtype : Nat) (conv : LT → Graph.T α) (c c' : Ctx α) : Prop where
  hp : c'.hp = c.hp
  type : c'.type = qtype
  vocab : c'.vocab = c.vocab
  length : c'.tensors.length = c.tensors.length
  tensors : ∀ (i : Nat) t, c.tensors[i]? = some t → ∃ p, Converted cv qtype t p ∧
    c'.tensors[i]? = some { t with type := p.1, data := p.2 }
  weights : Named (fun k => (getTensor c'.tensors k).map conv) c.hp.hp.nLayers c'.weights

end Berts.Quantize
