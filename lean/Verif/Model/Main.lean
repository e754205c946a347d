import Verif.Model.Examples
import Verif.Model.Loaded

/-!
# The whole fill-mask program

`Verif.Model.Examples` models the program after the model was loaded; here loading is included.
-/

namespace Berts.Examples

open Berts.Spec (Arith)
open Berts.Vocab (ascii)
open Berts.Graph (Gg)
open Berts.Load (World load emodel apiCtx)

variable {α : Type}

/-- `main` of fill_mask.cpp:15-186 with the arguments after the program's name: exit status and results.
`world` gives what opening a path finds. -/
def fillMaskMain (A : Arith α) (g : Gg) (u : Bert.Icu) (e : Roberta.Env)
    (setOrder : List (List Nat) → List (List Nat)) (world : List Nat → World α) (dflt : α)
    (junkI : Nat → Nat) (junk : Nat → α) (args : List (List Nat)) : Res (Nat × List (Nat × List Nat × α)) :=
  match args with
  | [model, kStr, prompt] =>
    (parseK kStr).bind fun k =>
      match k with
      | none => .ok (1, [])
      | some k =>
        (load (world model)).bind fun r =>
          match r.1 with
          | none => .ok (1, [])
          | some c =>
            fillMask A g (some (apiCtx u e setOrder c)) (some ⟨some (emodel c)⟩) dflt k.toNat prompt junkI junk
  | _ => .ok (1, [])

/-! ## The table of results -/

/-- `token_max_len`, fill_mask.cpp:157, 168-170. -/
def maxLen (rs : List (Nat × List Nat × α)) : Nat :=
  rs.foldl (fun m r => if m < r.2.1.length then r.2.1.length else m) 0

/-- `while (token.size() < token_max_len) token += ' '`, fill_mask.cpp:177-179.  The number bounds the rounds of the
loop, which adds one character in each. -/
def padLoop (w : Nat) : Nat → List Nat → List Nat
  | 0, t => t
  | n + 1, t => if t.length < w then padLoop w n (t ++ [32]) else t

/-- The loop over the results, fill_mask.cpp:175-181: what is written to the standard output, one line per result.
`fmt` gives the digits of a score. -/
def tableFrom (fmt : α → List Nat) (w : Nat) : Nat → List (Nat × List Nat × α) → List (List Nat)
  | _, [] => []
  | i, (id, token, score) :: rs =>
    (Vocab.decimal i ++ ascii ": " ++ padLoop w w token ++ ascii " (" ++ Vocab.decimal id ++ ascii "); p = " ++
      fmt score ++ [10]) :: tableFrom fmt w (i + 1) rs

/-- fill_mask.cpp:156-181. -/
def resultTable (fmt : α → List Nat) (rs : List (Nat × List Nat × α)) : List (List Nat) :=
  tableFrom fmt (maxLen rs) 0 rs

end Berts.Examples
