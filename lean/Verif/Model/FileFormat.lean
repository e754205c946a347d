import Verif.Model.QuantizeFile
import Verif.Model.Convert

/-!
# The file format

The bytes of a GGUF file (version 3) as `gguf_get_meta_data` (used by quantize.cpp:183-186) and the Python package
`gguf` (convert_hf_to_gguf.py:480-483) write them, and `gguf_init_from_file` (gguf.cpp:61-70, utils.hpp:147-148),
which reads them.
ggml is not in the repository: this is the published format, and the reader of the ggml of that time.  Left out: its
limits on the numbers of entries (no file is as long), and `strcmp`, which ends keys at a NUL.  `ok` stands for
what the reader asks of type and shape of a tensor (whole blocks, no overflow).  Elsewhere the outcome of reading is a parameter
(`World.gguf`) with the contract `ReadBack`; here the contract is shown.
-/

namespace Berts.FileFormat

open Berts.Load (Kv TInfo Gguf World)
open Berts.Vocab (ascii)
open Berts.Quantize (Info le metaData)

variable {α β γ : Type}

/-! ## Writing -/

/-- Length and characters. -/
def strBytes (s : List Nat) : List Nat := le 8 s.length ++ s

/-- Type and bytes of a value.  The quantizer copies values of all types with `gguf_set_kv`, quantize.cpp:90. -/
def valueBytes : Kv → List Nat
  | .u32 n => le 4 4 ++ le 4 n
  | .f64 n => le 4 12 ++ le 8 n
  | .bool b => le 4 7 ++ [if b then 1 else 0]
  | .str s => le 4 8 ++ strBytes s
  | .other b => b

/-- A key and its value. -/
def entryBytes (p : List Nat × Kv) : List Nat := strBytes p.1 ++ valueBytes p.2

/-- The file up to the directory: magic, version, number of tensors, number of keys, keys and values. -/
def preamble (kv : List (List Nat × Kv)) (n : Nat) : List Nat :=
  ascii "GGUF" ++ le 4 3 ++ le 8 n ++ le 8 kv.length ++ kv.flatMap entryBytes

/-- The entry of the directory that is written for a tensor. -/
def record (t : TInfo) : Info := ⟨t.name, t.ndims, t.ne, t.type, t.nbytes, t.offset⟩

/-- The file that `convert` leaves behind, convert_hf_to_gguf.py:480-483 (`write_header_to_file`,
`write_kv_data_to_file`, `write_tensors_to_file`). -/
def convertFile (enc : Bool → List α → List Nat) (f16 : Bool) (s : Convert.Source α) : Option (List Nat) :=
  (Convert.convert enc f16 [] s).map fun r =>
    metaData 32 (preamble r.1.kv r.1.dir.length) (r.1.dir.map record) ++ r.2

/-! ## Reading -/

/-- A reader: a value and the bytes left, `none` if the reader gives up. -/
def Rd (β : Type) : Type := List Nat → Res (Option (β × List Nat))

def Rd.pure (x : β) : Rd β := fun b => .ok (some (x, b))

def Rd.bind (r : Rd β) (f : β → Rd γ) : Rd γ := fun b =>
  Res.bind (r b) fun o => match o with
    | none => .ok none
    | some (x, b) => f x b

instance : Monad Rd where
  pure := Rd.pure
  bind := Rd.bind

/-- `return NULL`. -/
def giveUp : Rd β := fun _ => .ok none

/-- `GGML_ASSERT(false)`. -/
def stop : Rd β := fun _ => .abort

/-- `gguf_fread_el`. -/
def take (k : Nat) : Rd (List Nat) := fun b => .ok (if k ≤ b.length then some (b.take k, b.drop k) else none)

/-- The value of little-endian bytes. -/
def unle : List Nat → Nat
  | [] => 0
  | x :: b => x + 256 * unle b

def num (k : Nat) : Rd Nat := do
  let b ← take k
  pure (unle b)

/-- `gguf_fread_str`. -/
def str : Rd (List Nat) := do
  let n ← num 8
  take n

/-- The same several times. -/
def many (r : Rd β) : Nat → Rd (List β)
  | 0 => pure []
  | n + 1 => do
    let x ← r
    let xs ← many r n
    pure (x :: xs)

/-- Bytes of the numeric types. -/
def width (type : Nat) : Option Nat := [some 1, some 1, some 2, some 2, some 4, some 4, some 4, some 1, none, none, some 8, some 8, some 8].getD type none

/-- The value of a key. -/
def value : Rd Kv := do
  let type ← num 4
  if type = 4 then (do let n ← num 4; pure (.u32 n))
  else if type = 12 then (do let n ← num 8; pure (.f64 n))
  else if type = 7 then (do let n ← num 1; pure (.bool (n ≠ 0)))
  else if type = 8 then (do let s ← str; pure (.str s))
  else if type = 9 then do
    let t ← num 4
    let n ← num 8
    match width t with
    | some w => (do let d ← take (n * w); pure (.other (le 4 9 ++ (le 4 t ++ (le 8 n ++ d)))))
    | none =>
      if t = 8 then (do let ss ← many str n; pure (.other (le 4 9 ++ (le 4 8 ++ (le 8 n ++ ss.flatMap strBytes))))) else stop
  else match width type with
    | some w => (do let d ← take w; pure (.other (le 4 type ++ d)))
    | none => stop

def entry : Rd (List Nat × Kv) := do
  let key ← str
  let v ← value
  pure (key, v)

/-- An entry of the directory. -/
def info (nb : Nat → List Nat → Nat) (ok : Nat → List Nat → Bool) : Rd TInfo := do
  let name ← str
  let ndims ← num 4
  if ndims ≤ 4 then do
    let ne ← many (num 8) ndims
    let type ← num 4
    let offset ← num 8
    if ok type ne then pure ⟨name, ndims, ne, type, nb type ne, offset⟩ else giveUp
  else giveUp

/-- The alignment: `gguf_get_val_u32` asserts the type; the reader divides by it. -/
def alignment (kv : List (List Nat × Kv)) : Res Nat :=
  match kv.find? (·.1 == ascii "general.alignment") with
  | none => .ok 32
  | some (_, .u32 a) => if a = 0 then .ub else .ok a
  | some _ => .abort

/-- Metadata and directory. -/
def contents (nb : Nat → List Nat → Nat) (ok : Nat → List Nat → Bool) : Rd (List (List Nat × Kv) × List TInfo) := do
  let m ← take 4
  if m = ascii "GGUF" then do
    let version ← num 4
    if version = 1 then giveUp
    else do
      let nt ← num 8
      let nk ← num 8
      let kv ← many entry nk
      let dir ← many (info nb ok) nt
      pure (kv, dir)
  else giveUp

/-- `gguf_init_from_file`: the data begin at the next multiple of the alignment. -/
def readGguf (nb : Nat → List Nat → Nat) (ok : Nat → List Nat → Bool) (file : List Nat) : Res (Option Gguf) :=
  (contents nb ok file).bind fun o =>
  match o with
  | none => .ok none
  | some ((kv, dir), rest) =>
    (alignment kv).bind fun a =>
      let used := file.length - rest.length
      .ok (some ⟨kv, dir, if used % a = 0 then used else used + (a - used % a)⟩)

end Berts.FileFormat
