import Verif.Model.Quantize
import Verif.Model.Examples

/-!
# The quantizer from path to path

`Verif.Model.Quantize` models the conversion of the tensors of a loaded model; here the source is loaded and
its metadata are copied, and the program around it is added.
-/

namespace Berts.Quantize

open Berts.Load (World Gguf Kv load ftype)
open Berts.Vocab (ascii)

variable {α F : Type}

/-- `gguf_set_val_…`: the value of the first entry with the key is replaced, or an entry is added. -/
def setKey (kv : List (List Nat × Kv)) (k : List Nat) (v : Kv) : List (List Nat × Kv) :=
  match kv with
  | [] => [(k, v)]
  | p :: kv => if p.1 = k then (k, v) :: kv else p :: setKey kv k v

/-- `gguf_set_kv`: all values of `src` are set in turn. -/
def copyKv (src dst : List (List Nat × Kv)) : List (List Nat × Kv) :=
  src.foldl (fun d p => setKey d p.1 p.2) dst

/-- The metadata of the new file, quantize.cpp:86-90; `ver` is `GGML_QNT_VERSION`. -/
def quantKv (ver qtype : Nat) (src : List (List Nat × Kv)) : List (List Nat × Kv) :=
  setKey (setKey (copyKv src []) (ascii "general.quantization_version") (.u32 ver))
    (ascii "general.file_type") (.u32 qtype)

/-- `berts_model_quantize`, quantize.cpp:70-218: the source is what opening the input path finds.  The
alignment of a context made by `gguf_init_empty` is 32, also after `gguf_set_kv`.  `header` are the bytes in
front of the directory for given metadata and number of tensors.  `berts_ctx` frees the source (C51). -/
def bertsModelQuantize (cv : Conv F) (ver : Nat) (header : List (List Nat × Kv) → Nat → List Nat)
    (w : World α) (room : Option Nat) (qtype : Nat) : Res (Bool × Option Out) :=
  (ftype qtype).bind fun _ =>
  (load w).bind fun r =>
  match r.1, w.gguf with
  | some c, some g =>
    modelQuantize cv 32 qtype (some (g.dir.map (·.name), c.tensors)) room
      (header (quantKv ver qtype g.kv) g.dir.length)
  | _, _ => .ok (false, none)

/-- `main` of quant.cpp:77-121 with the arguments after the program's name, as `Examples.quantMain`: the exit
status, and the file left behind at the output path.  `world` and `room` give what opening a path finds. -/
def quantProgram (cv : Conv F) (ver : Nat) (header : List (List Nat × Kv) → Nat → List Nat)
    (world : List Nat → World α) (room : List Nat → Option Nat) (args : List (List Nat)) :
    Res (Nat × Option Out) :=
  match args with
  | [model, type, out] =>
    if type.length = 0 then .ok (1, none)
    else
      (Examples.parseFtype type).bind fun f =>
        match f with
        | none => .ok (1, none)
        | some t => (bertsModelQuantize cv ver header (world model) (room out) t).bind fun r => .ok (0, r.2)
  | _ => .ok (1, none)

end Berts.Quantize
