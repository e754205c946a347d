import Verif.Model.Load

/-!
# Model of the quantizer (`berts/models/quantize.cpp`)

The conversions of ggml (`ggml_fp16_to_fp32`, `ggml_quantize_chunk`) are parameters; elements are of a
type `F`.  The gguf writer of ggml (`gguf_add_tensor`, `gguf_set_tensor_type`, `gguf_set_tensor_data`,
`gguf_get_meta_size`, `gguf_get_meta_data`) is modelled after its contract; the part of the header before
the tensor directory does not change between the two times it is serialised.  Logging is not modelled.
-/

namespace Berts.Quantize

open Berts.Load (LT getTensor ftype)
open Berts.Vocab (ascii)
open Berts.Graph (pad)

/-- The conversions: bytes as F32 and as F16 elements, and the bytes `ggml_quantize_chunk` writes
(`none`: it asserts). -/
structure Conv (F : Type) where
  dec32 : List Nat → List F
  dec16 : List Nat → List F
  chunk : Nat → List F → Option (List Nat)

variable {F : Type}

/-- `ggml_nelements`. -/
def nelements (t : LT) : Nat := t.ne.foldl (· * ·) 1

/-- `conv_buf::reserve`, quantize.cpp:22-29: the size of the buffer `f32_to_q` afterwards.  (`f16_to_f32`
has room for `nelem` elements, which is what is stored there.) -/
def reserve (cap nelem : Nat) : Nat := if cap < nelem * 4 then nelem * 4 else cap

/-- `ggml_quantize_chunk` into a buffer of `cap` bytes, quantize.cpp:62. -/
def convert (cv : Conv F) (qtype : Nat) (cap : Nat) (xs : List F) : Res (Option (List Nat) × Nat) :=
  match cv.chunk qtype xs with
  | none => .abort
  | some b => if b.length ≤ cap then .ok (some b, cap) else .ub

/-- `quantize`, quantize.cpp:41-68: the bytes in the buffer (`none`: `return false`) and the buffer size.
Types F32 and F16 are 0 and 1.  The error message needs the name of the type. -/
def quantize (cv : Conv F) (t : LT) (qtype : Nat) (cap : Nat) : Res (Option (List Nat) × Nat) :=
  let cap := reserve cap (nelements t)
  if t.type = 0 then convert cv qtype cap (cv.dec32 t.data)
  else if t.type = 1 then convert cv qtype cap (cv.dec16 t.data)
  else (ftype t.type).bind fun _ => .ok (none, cap)

/-- `std::regex_match(name, std::regex{".*weight"})`, quantize.cpp:110-112, 128: `.` is any character but
line terminators. -/
def matchWeight (name : List Nat) : Bool :=
  name.drop (name.length - 6) == ascii "weight" &&
    (name.take (name.length - 6)).all fun c => c != 10 && c != 13

/-! ## The gguf context being built -/

/-- An entry of the directory; `ne` has `ndims` entries. -/
structure Info where
  name : List Nat
  ndims : Nat
  ne : List Nat
  type : Nat
  size : Nat
  offset : Nat
deriving DecidableEq

/-- Little-endian bytes. -/
def le : Nat → Nat → List Nat
  | 0, _ => []
  | k + 1, n => n % 256 :: le k (n / 256)

/-- A directory entry as written to a file. -/
def infoBytes (i : Info) : List Nat :=
  le 8 i.name.length ++ i.name ++ le 4 i.ndims ++ i.ne.flatMap (le 8) ++ le 4 i.type ++ le 8 i.offset

/-- `gguf_get_meta_data` with alignment `aw`; `pre` are the bytes before the directory. -/
def metaData (aw : Nat) (pre : List Nat) (infos : List Info) : List Nat :=
  let raw := pre ++ infos.flatMap infoBytes
  raw ++ List.replicate (pad raw.length aw - raw.length) 0

/-- `gguf_get_meta_size`. -/
def metaSize (aw : Nat) (pre : List Nat) (infos : List Info) : Nat := (metaData aw pre infos).length

/-- The offset of an entry after `prev`. -/
def nextOffset (aw : Nat) (prev : Option Info) : Nat :=
  match prev with
  | none => 0
  | some p => p.offset + pad p.size aw

/-- `gguf_add_tensor`. -/
def addTensor (aw : Nat) (infos : List Info) (t : LT) : List Info :=
  infos ++ [⟨t.name, t.ndims, t.ne, t.type, t.data.length, nextOffset aw infos.getLast?⟩]

/-- `gguf_set_tensor_type`: the first entry of that name; stops the process if there is none. -/
def setType (name : List Nat) (type : Nat) : List Info → Res (List Info)
  | [] => .abort
  | i :: is =>
    if i.name = name then .ok ({ i with type := type } :: is)
    else (setType name type is).bind fun is => .ok (i :: is)

/-- The offsets of all entries after `p`, recomputed. -/
def relayout (aw : Nat) (p : Info) : List Info → List Info
  | [] => []
  | i :: is =>
    let i := { i with offset := p.offset + pad p.size aw }
    i :: relayout aw i is

/-- `gguf_set_tensor_data`: stores the size and recomputes the offsets of the entries after it. -/
def setData (aw : Nat) (name : List Nat) (size : Nat) : List Info → Res (List Info)
  | [] => .abort
  | i :: is =>
    if i.name = name then
      let i := { i with size := size }
      .ok (i :: relayout aw i is)
    else (setData aw name size is).bind fun is => .ok (i :: is)

/-! ## The output file -/

/-- The output stream: contents of the file, position, failed or not; the file cannot get longer than
`room` bytes. -/
structure Out where
  bytes : List Nat
  pos : Nat
  fail : Bool
  room : Nat

/-- Overwriting at a position within the file or at its end. -/
def overwrite (bytes : List Nat) (pos : Nat) (new : List Nat) : List Nat :=
  bytes.take pos ++ new ++ bytes.drop (pos + new.length)

/-- `write` (and `put`): a write that does not fit is done in part and sets the fail bit; on a failed
stream nothing happens. -/
def Out.write (o : Out) (new : List Nat) : Out :=
  if o.fail then o
  else
    let fits := new.take (o.room - o.pos)
    { o with bytes := overwrite o.bytes o.pos fits, pos := o.pos + fits.length,
             fail := decide (fits.length < new.length) }

/-- `seekp`. -/
def Out.seekp (o : Out) (pos : Nat) : Out := if o.fail then o else { o with pos := pos }

/-- `write_zeros`, quantize.cpp:35-39. -/
def writeZeros (o : Out) (n : Nat) : Out := o.write (List.replicate n 0)

/-! ## The conversion -/

/-- quantize.cpp:100-105: all tensors are added under their names.  A tensor that is not found is a null
pointer. -/
def addAll (aw : Nat) (ts : List LT) : List (List Nat) → List Info → Res (List Info)
  | [], infos => .ok infos
  | name :: names, infos =>
    match getTensor ts name with
    | none => .ub
    | some t => addAll aw ts names (addTensor aw infos t)

/-- The type and the data written for a tensor, quantize.cpp:126-153, and the buffer size; `none` is
`return false`. -/
def payload (cv : Conv F) (qtype : Nat) (name : List Nat) (t : LT) (cap : Nat) :
    Res (Option (Nat × List Nat) × Nat) :=
  if matchWeight name && t.ndims == 2 then
    (quantize cv t qtype cap).bind fun r => .ok (r.1.map fun b => (qtype, b), r.2)
  else .ok (some (t.type, t.data), cap)

/-- The loop, quantize.cpp:122-176; the directory is returned if the loop runs to its end. -/
def convLoop (cv : Conv F) (aw : Nat) (qtype : Nat) (ts : List LT) :
    List (List Nat) → List Info → Nat → Out → Res (Option (List Info) × Out)
  | [], infos, _, o => .ok (some infos, o)
  | name :: names, infos, cap, o =>
    match getTensor ts name with
    | none => .ub
    | some t =>
      (payload cv qtype name t cap).bind fun r =>
      match r.1 with
      | none => .ok (none, o)
      | some (type, data) =>
        (setType name type infos).bind fun infos =>
        (setData aw name data.length infos).bind fun infos =>
        let o := o.write data
        let o := writeZeros o (pad data.length aw - data.length)
        convLoop cv aw qtype ts names infos r.2 o

/-- Writing the metadata, quantize.cpp:183-186: the buffer has the `size` bytes reserved before. -/
def writeMeta (o : Out) (size : Nat) (md : List Nat) : Res Out :=
  if md.length ≤ size then .ok ((o.seekp 0).write (md ++ List.replicate (size - md.length) 0)) else .ub

/-- `berts_model_quantize`, quantize.cpp:70-218, for a source that was loaded (`src`: the names in its
directory and its tensors; `none`: loading failed) and an output path that can be opened (`room`: how
long the file can get) or not.  `pre` is the header up to the directory, with the metadata copied from the
source.  Result: the value returned and the file left behind.  Opening truncates the file. -/
def modelQuantize (cv : Conv F) (aw : Nat) (qtype : Nat) (src : Option (List (List Nat) × List LT))
    (room : Option Nat) (pre : List Nat) : Res (Bool × Option Out) :=
  (ftype qtype).bind fun _ =>
  match src with
  | none => .ok (false, none)
  | some (names, ts) =>
    match room with
    | none => .ok (false, none)
    | some room =>
      let o : Out := ⟨[], 0, false, room⟩
      (addAll aw ts names []).bind fun infos =>
      let size := metaSize aw pre infos
      let o := writeZeros o size
      (convLoop cv aw qtype ts names infos 0 o).bind fun r =>
      match r.1 with
      | none => .ok (false, some r.2)
      | some infos => (writeMeta r.2 size (metaData aw pre infos)).bind fun o => .ok (true, some o)

end Berts.Quantize
