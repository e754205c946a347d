import Verif.Model.Args
import Verif.Model.QuantizeFile
import Verif.Model.FileFormat

/-!
# The three programs on one file system

The converter, the quantizer and the fill-mask program run one after the other; each finds what the one before left.
The third program is `Examples.fillMaskMain`, which finds `disk (fs p)` at the path `p`.
-/

namespace Berts.Toolchain

open Berts.Load (World)

variable {α F : Type}

/-- The contents of the files, by path. -/
abbrev Files := List Nat → Option (List Nat)

/-- Writing a file. -/
def put (fs : Files) (path file : List Nat) : Files := fun p => if p = path then some file else fs p

/-- convert_hf_to_gguf.py:485-492: the files after the program has written one (what is left by a program that stops
before is not modelled).  `fsenc` gives the bytes of a path. -/
def runConvert (dig : Nat → Bool) (source : Args.Text → Option Args.Text → Option (Convert.Source α))
    (enc : Bool → List α → List Nat) (fsenc : Args.Text → List Nat) (args : List Args.Text) (fs : Files) : Option Files :=
  match Args.convertMain dig source enc args with
  | .wrote path file => some (put fs (fsenc path) file)
  | .exit _ => none

/-- quant.cpp:77-121: the exit status and the files afterwards.  The input is read before the output is opened,
quantize.cpp:77 and 93, so the paths may be equal.  `disk` is what a program gets to know of the contents of a file. -/
def runQuant (cv : Quantize.Conv F) (ver : Nat) (disk : Option (List Nat) → World α) (room : List Nat → Option Nat)
    (args : List (List Nat)) (fs : Files) : Res (Nat × Files) :=
  (Quantize.quantProgram cv ver FileFormat.preamble (fun p => disk (fs p)) room args).bind fun r =>
    .ok (r.1, match r.2, args with
      | some o, [_, _, out] => put fs out o.bytes
      | _, _ => fs)

end Berts.Toolchain
