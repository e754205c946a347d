import Verif.Model.QuantizeLog
import Verif.Spec.Quantize
import Verif.Spec.LoadLog
import Verif.Spec.Roberta

/-!
# What quantizing says
-/

namespace Berts.Spec

open Berts.Vocab Berts.Quantize
open Berts.Load (LT Gguf getTensor)

variable {F : Type}

/-- What is said about a tensor: name, whether it was quantized, number of dimensions, bytes before and after; and what
it adds to the histogram. -/
structure TensorReport where
  name : List Nat
  quantized : Bool
  ndims : Nat
  org : Nat
  new : Nat
  hist : List Nat

/-- The report about the tensor with the given name. -/
def TensorReported (cv : Conv F) (sh : Show F) (qtype : Nat) (ts : List LT) (name : List Nat) (r : TensorReport) : Prop :=
  r.name = name ∧ ∃ t p, getTensor ts name = some t ∧ Converted cv qtype t p ∧ (r.quantized = true ↔ Eligible t) ∧
    r.ndims = t.ndims ∧ r.org = t.data.length ∧ r.new = p.2.length ∧
    r.hist = if r.quantized then sh.hist qtype (elements cv t) else List.replicate 16 0

/-- The line about a tensor. -/
def reportLine (sh : Show F) (r : TensorReport) : Int × List Nat :=
  line 1 (r.name ++ bytes! ":\n  quantized = " ++ showBool r.quantized ++ bytes! "\n  n_dims = " ++ decimal r.ndims ++
    bytes! "\n  size = " ++ sh.kib r.org ++ bytes! " KiB -> " ++ sh.kib r.new ++ bytes! " KiB")

/-- The number in a bin: the sum over all tensors. -/
def binOf (rs : List TensorReport) (i : Nat) : Nat := (rs.map fun r => r.hist.getD i 0).sum

/-- All numbers together. -/
def binsSum (rs : List TensorReport) : Nat := ((List.range 16).map (binOf rs)).sum

/-- The last message: the sizes of all tensors before and after, and the share of each bin of the histogram. -/
def summaryLine (sh : Show F) (rs : List TensorReport) : Int × List Nat :=
  let org := (rs.map (·.org)).sum
  let new := (rs.map (·.new)).sum
  line 1 (bytes! "========================================\noriginal size  = " ++ decimal org ++ bytes! " (" ++
    sh.mib org ++ bytes! " MiB)\nquantized size = " ++ decimal new ++ bytes! " (" ++ sh.mib new ++ bytes! " MiB)\n" ++
    (if binsSum rs = 0 then [] else bytes! "[histogram]\n" ++ (List.range 16).flatMap fun i =>
      bytes! "  bin #" ++ decimal i ++ bytes! ": " ++ sh.share (binOf rs i) (binsSum rs) ++ bytes! "\n") ++
    bytes! "========================================")

/-- What is freed at the end: the new gguf context and the model. -/
def quantizeFreed (pr : Load.Printed) (sh : Show F) : List (Int × List Nat) :=
  [objectLine (bytes! "gguf_free") sh.dst, objectLine (bytes! "berts_free") (pr.addr .ctx)]

/-- The lines of a conversion, after the lines `loaded` of loading the file `path`. -/
def quantizeLines (pr : Load.Printed) (sh : Show F) (path : List Nat) (loaded : List (Int × List Nat))
    (rs : List TensorReport) : List (Int × List Nat) :=
  [line 1 (bytes! "start quantization")] ++ loaded ++
  [objectLine (bytes! "berts_init") (pr.addr .ctx), line 1 (bytes! "model loaded: " ++ path),
   objectLine (bytes! "gguf_init") sh.dst, line 1 (bytes! "converting...")] ++ rs.map (reportLine sh) ++
  [line 1 (bytes! "writing metadata..."), summaryLine sh rs, line 1 (bytes! "quantization completed")] ++
  quantizeFreed pr sh

/-- The last lines of a conversion that fails, and what is freed afterwards. -/
def quantizeEnds (pr : Load.Printed) (sh : Show F) (inPath outPath : List Nat) :
    List (List Nat × List (Int × List Nat)) :=
  (bytes! "fail to load model: " ++ inPath, []) ::
  ([bytes! "failed to open " ++ outPath] ++ typeNames.map (bytes! "input type must be f16 or f32, but " ++ ·)).map
    (·, quantizeFreed pr sh)

end Berts.Spec
