import Verif.Model.Load

/-!
# Names of file types

`Verif.Model.Load` models only whether `ftype` aborts; here is what it returns.
-/

namespace Berts.TypeNames

open Berts.Vocab (ascii)
open Berts.Load (Gguf u32)

/-- The table of `ftype`, gguf.cpp:23-43. -/
def ftypes : List (List Nat) :=
  [ascii "ALL_F32", ascii "MOSTLY_F16", ascii "MOSTLY_Q4_0", ascii "MOSTLY_Q4_1", ascii "MOSTLY_Q4_1_SOME_F16",
   ascii "MOSTLY_Q4_2", ascii "MOSTLY_Q4_3", ascii "MOSTLY_Q8_0", ascii "MOSTLY_Q5_0", ascii "MOSTLY_Q5_1",
   ascii "MOSTLY_Q2_K", ascii "MOSTLY_Q3_K_S", ascii "MOSTLY_Q3_K_M", ascii "MOSTLY_Q3_K_L", ascii "MOSTLY_Q4_K_S",
   ascii "MOSTLY_Q4_K_M", ascii "MOSTLY_Q5_K_S", ascii "MOSTLY_Q5_K_M", ascii "MOSTLY_Q6_K"]

/-- `ftype`, gguf.cpp:21-51. -/
def ftypeName (t : Nat) : Res (List Nat) :=
  if ftypes.length ≤ t then .abort
  else
    match ftypes[t]? with
    | some s => .ok s
    | none => .ub

/-- `type_to_str`, gguf.cpp:53-55, for the number of a `ggml_type`. -/
def typeToStr (t : Nat) : Res (List Nat) := ftypeName (t % 2 ^ 32)

/-- The type in the message at gguf.cpp:82-101, gguf.cpp:81. -/
def shownType (g : Gguf) : Res (List Nat) := (u32 g "general.file_type").bind ftypeName

end Berts.TypeNames
