import Verif.Spec.Chain
import Verif.Model.FileFormat

/-! # Files that the format can hold -/

namespace Berts.FileFormat

open Berts.Load (Kv TInfo Gguf World)
open Berts.Quantize (Info le)

variable {α : Type}

/-- The numeric types of the format, and their sizes: 8 and 16 bits, 32 bits, float, bool, 64 bits, double. -/
def scalars : List (Nat × Nat) :=
  [(0, 1), (1, 1), (2, 2), (3, 2), (4, 4), (5, 4), (6, 4), (7, 1), (10, 8), (11, 8), (12, 8)]

/-- The bytes of a value of a type that the program does not ask for: numbers, arrays of numbers, arrays of strings. -/
inductive OtherAs : List Nat → Prop
  | scalar {t w : Nat} {d : List Nat} (h : (t, w) ∈ scalars) (ht : t ∉ [4, 7, 12]) (hd : d.length = w) :
    OtherAs (le 4 t ++ d)
  | array {t w n : Nat} {d : List Nat} (h : (t, w) ∈ scalars) (hn : n < 2 ^ 64) (hd : d.length = n * w) :
    OtherAs (le 4 9 ++ (le 4 t ++ (le 8 n ++ d)))
  | strings {ss : List (List Nat)} (hn : ss.length < 2 ^ 64) (hs : ∀ s ∈ ss, s.length < 2 ^ 64) :
    OtherAs (le 4 9 ++ (le 4 8 ++ (le 8 ss.length ++ ss.flatMap strBytes)))

/-- The value fits its field. -/
def KvOk : Kv → Prop
  | .u32 n => n < 2 ^ 32
  | .f64 n => n < 2 ^ 64
  | .bool _ => True
  | .str s => s.length < 2 ^ 64
  | .other b => OtherAs b

/-- Metadata that can be written. -/
structure MetaOk (kv : List (List Nat × Kv)) : Prop where
  count : kv.length < 2 ^ 64
  keys : ∀ p ∈ kv, p.1.length < 2 ^ 64
  values : ∀ p ∈ kv, KvOk p.2

/-- A directory entry that can be written, and that the reader accepts. -/
structure InfoOk (ok : Nat → List Nat → Bool) (i : Info) : Prop where
  name : i.name.length < 2 ^ 64
  dims : i.ne.length = i.ndims ∧ i.ndims ≤ 4
  ne : ∀ n ∈ i.ne, n < 2 ^ 64
  type : i.type < 2 ^ 32
  offset : i.offset < 2 ^ 64
  accepted : ok i.type i.ne = true

/-- A world in which the file has these contents and is read by the reader of the format, memory can be had, and the
tensors are decoded by `dec`. -/
structure Disk (nb : Nat → List Nat → Nat) (ok : Nat → List Nat → Bool) (dec : Nat → List Nat → List α) (dflt : α)
    (w : World α) (bytes : List Nat) : Prop where
  gguf : readGguf nb ok bytes = .ok w.gguf
  file : w.file = some bytes
  conv : w.conv = Convert.decoded dec dflt
  pool : ∀ g, w.gguf = some g → w.poolInit (Load.needed w.gg g.dir) = true ∧ Load.needed w.gg g.dir < 2 ^ 64
  align : 0 < w.gg.align ∧ w.gg.tensorSize % w.gg.align = 0
  length : bytes.length < 2 ^ 63

/-- Sources whose files the format can hold and the reader accepts: tensors of the types F32, F16, I8 and I32 whatever
their shape, and the quantized matrices. -/
structure FormatOk (s : Convert.Source α) (ok : Nat → List Nat → Bool) (qtype : Nat) : Prop where
  name : s.name.length < 2 ^ 64
  eps : s.config.eps < 2 ^ 64
  range : s.config.initRange < 2 ^ 64
  plain : ∀ type ∈ [0, 1, 16, 18], ∀ ne, ne.foldl (· * ·) 1 < 2 ^ 63 → ok type ne = true
  matrices : ∀ p ∈ s.state ++ s.lm, Convert.Reduced p = true → ok qtype p.shape.reverse = true

end Berts.FileFormat
