import Verif.Model.Api
import Verif.Model.Eval
import Verif.Model.Vocab

/-!
# Model of the example programs (berts/examples/quant.cpp, fill_mask.cpp)

Strings are lists of bytes.  Plain `char` is signed, as on x86, and the locale is "C".  The text the
programs print for humans (usage, progress) is left out.  An exception nobody catches stops the process:
outcome `abort`.
-/

namespace Berts.Examples

open Berts.Vocab (ascii)

/-! ## quant.cpp -/

/-- `quant_types`, quant.cpp:17-31: numbers of the types (ggml.h, `enum ggml_type`) and names; sizes and
descriptions are only printed and left out. -/
def quantTypes : List (Nat × List Nat) :=
  [(0, ascii "F32"), (1, ascii "F16"), (2, ascii "Q4_0"), (3, ascii "Q4_1"), (6, ascii "Q5_0"),
   (7, ascii "Q5_1"), (8, ascii "Q8_0"), (9, ascii "Q8_1"), (10, ascii "Q2_K"), (11, ascii "Q3_K"),
   (12, ascii "Q4_K"), (13, ascii "Q5_K"), (14, ascii "Q6_K")]

/-- `ftype_to_str`, quant.cpp:33-40. -/
def ftypeToStrIn : List (Nat × List Nat) → Nat → List Nat
  | [], _ => []
  | (t, name) :: rest, f => if f = t then name else ftypeToStrIn rest f

/-- `ftype_to_str`, quant.cpp:33-40. -/
def ftypeToStr (f : Nat) : List Nat := ftypeToStrIn quantTypes f

/-- `(char)std::toupper(c)` of a `char`, quant.cpp:46.  The argument must be representable as
`unsigned char` or be `EOF` (-1); the bytes 128..254 are other negative numbers. -/
def toupperC (c : Nat) : Res Nat :=
  if 128 ≤ c ∧ c < 255 then .ub
  else if 97 ≤ c ∧ c ≤ 122 then .ok (c - 32)
  else .ok c

/-- `std::transform`, quant.cpp:43-46. -/
def toupperAll : List Nat → Res (List Nat)
  | [] => .ok []
  | c :: rest => (toupperC c).bind fun d => (toupperAll rest).bind fun r => .ok (d :: r)

def isDigit (c : Nat) : Bool := 48 ≤ c && c ≤ 57

/-- Value of a string of digits. -/
def digitsVal (ds : List Nat) : Nat := ds.foldl (fun v d => v * 10 + (d - 48)) 0

/-- `std::from_chars(s0, s1, ftype)` for an `int` in base 10, quant.cpp:51: what is left of the input
(`ptr`), and the number if one was stored.  Without digits `ptr` is the beginning; a number that does not
fit is skipped but not stored. -/
def fromChars (s : List Nat) : List Nat × Option Int :=
  match s with
  | 45 :: t =>
    if (t.takeWhile isDigit).isEmpty then (s, none)
    else if digitsVal (t.takeWhile isDigit) ≤ 2 ^ 31 then
      (t.dropWhile isDigit, some (-(digitsVal (t.takeWhile isDigit) : Int)))
    else (t.dropWhile isDigit, none)
  | _ =>
    if (s.takeWhile isDigit).isEmpty then (s, none)
    else if digitsVal (s.takeWhile isDigit) < 2 ^ 31 then
      (s.dropWhile isDigit, some (digitsVal (s.takeWhile isDigit) : Int))
    else (s.dropWhile isDigit, none)

/-- The loop of `parse_ftype`, quant.cpp:56-63; `ftype` is `none` while uninitialised, and `none` as
result is `(ggml_type)-1` (a cast that compilers without strict enums carry out as expected). -/
def parseLoop (str : List Nat) (ftype : Option Int) : List (Nat × List Nat) → Res (Option Nat)
  | [] => .ok none
  | (t, name) :: rest =>
    if str = name then .ok (some t)
    else
      match ftype with
      | none => .ub
      | some f => if f = t then .ok (some t) else parseLoop str ftype rest

/-- `parse_ftype`, quant.cpp:42-66. -/
def parseFtype (arg : List Nat) : Res (Option Nat) :=
  (toupperAll arg).bind fun str =>
    let x := fromChars str
    parseLoop str (if x.1 ≠ [] then some (-1) else x.2) quantTypes

/-- `main` of quant.cpp:77-121 with the arguments after the program's name: exit status and, if it was
called, the arguments of `berts_model_quantize` (`quantize` gives its outcome). -/
def quantMain (args : List (List Nat)) (quantize : List Nat → List Nat → Nat → Res Bool) :
    Res (Nat × Option (List Nat × List Nat × Nat)) :=
  match args with
  | [model, type, out] =>
    if type.length = 0 then .ok (1, none)
    else
      (parseFtype type).bind fun f =>
        match f with
        | none => .ok (1, none)
        | some t =>
          (quantize model out t).bind fun ok =>
            if ok then .ok (0, some (model, out, t)) else .ok (0, some (model, out, t))
  | _ => .ok (1, none)

/-! ## fill_mask.cpp -/

/-- `isspace` in the "C" locale. -/
def isSpaceC (c : Nat) : Bool := (9 ≤ c && c ≤ 13) || c == 32

/-- Digits after the sign of `stoi`: no digits throws `std::invalid_argument`, a number outside `int`
throws `std::out_of_range`. -/
def stoiDigits (neg : Bool) (t : List Nat) : Option Int :=
  if (t.takeWhile isDigit).isEmpty then none
  else if neg then
    if digitsVal (t.takeWhile isDigit) ≤ 2 ^ 31 then some (-(digitsVal (t.takeWhile isDigit) : Int)) else none
  else
    if digitsVal (t.takeWhile isDigit) < 2 ^ 31 then some (digitsVal (t.takeWhile isDigit) : Int) else none

/-- `std::stoi`; `none` is an exception. -/
def stoi (s : List Nat) : Option Int :=
  match s.dropWhile isSpaceC with
  | 45 :: t => stoiDigits true t
  | 43 :: t => stoiDigits false t
  | t => stoiDigits false t

/-- fill_mask.cpp:33-48: `k`, or `none` for `return 1`.  Both exceptions of `stoi` are `std::logic_error`s,
which the handler for `std::runtime_error` (line 38) does not catch. -/
def parseK (s : List Nat) : Res (Option Int) :=
  match stoi s with
  | none => .abort
  | some k => if k ≤ 0 then .ok none else .ok (some k)

/-- Reading `tokens[0..n)`; `buf` is the whole array. -/
def readTokens (buf : List Nat) (n : Nat) : Res (List Nat) :=
  if n ≤ buf.length then .ok (buf.take n) else .ub

/-- fill_mask.cpp:74-87: the token ids the program goes on with (and prints), or `none` for `return 1`.
`junk` is what the fresh array holds. -/
def promptTokens (ctx : Option Api.Ctx) (text : List Nat) (junk : Nat → Nat) : Res (Option (List Nat)) :=
  (Api.bertsTokenize ctx text (some ((List.range text.length).map junk)) (some text.length)).bind fun o =>
    if o.ret then (readTokens (o.buf.getD []) (o.len.getD 0)).bind fun l => .ok (some l) else .ok none

/-- The search for the mask, fill_mask.cpp:91-103: `none` is `return 1`, otherwise `found` and
`mask_pos`. -/
def maskLoop (mask : Nat) : List Nat → Nat → Option Nat → Option (Option Nat)
  | [], _, found => some found
  | t :: ts, i, found =>
    if t = mask then
      match found with
      | some _ => none
      | none => maskLoop mask ts (i + 1) (some i)
    else maskLoop mask ts (i + 1) found

/-- fill_mask.cpp:90-109. -/
def findMask (mask : Nat) (tokens : List Nat) : Option Nat :=
  match maskLoop mask tokens 0 none with
  | none => none
  | some none => none
  | some (some p) => some p

open Berts.Spec (Arith)
open Berts.Graph (Gg)

variable {α : Type}

/-- fill_mask.cpp:115-130: the hidden states, or `none` for `return 1`. -/
def hiddenOf (A : Arith α) (g : Gg) (ctx : Option (Eval.ECtx α)) (tokens : List Nat) (junk : Nat → α) :
    Res (Option (List α × Nat)) :=
  (Eval.bertsEval A g ctx tokens none (some (-1, 0)) none (some 0)).bind fun d =>
    if d.1 then
      let size := d.2.2.getD 0
      (Eval.bertsEval A g ctx tokens none (some (-1, 0)) (some ((List.range size).map junk)) (some size)).bind fun o =>
        if o.1 then .ok (some (o.2.1.getD [], o.2.2.getD 0)) else .ok none
    else .ok none

/-- fill_mask.cpp:136-154: the two output arrays, or `none` for `return 1`.  The call reads
`hidden_state_size` floats. -/
def lmOf (A : Arith α) (g : Gg) (ctx : Option (Eval.ECtx α)) (hidden : List α) (size : Nat) (dflt : α) (k : Int)
    (junkI : Nat → Nat) (junk : Nat → α) : Res (Option (List Nat × List α)) :=
  if size ≤ hidden.length then
    (Eval.bertsEvalLm A g ctx (hidden.take size) dflt (some k) none none (some 0)).bind fun d =>
      if d.1 then
        let n := d.2.2.2.getD 0
        (Eval.bertsEvalLm A g ctx (hidden.take size) dflt (some k) (some ((List.range n).map junkI))
            (some ((List.range n).map junk)) (some n)).bind fun o =>
          if o.1 then .ok (some (o.2.1.getD [], o.2.2.1.getD [])) else .ok none
      else .ok none
  else .ub

/-- The name of a token, fill_mask.cpp:163-166; `erase` past the end throws `std::out_of_range`. -/
def tokenName (ctx : Option Api.Ctx) (id : Nat) : Res (List Nat) :=
  (Api.bertsIdToToken ctx id (some (List.replicate 256 0)) (some 256)).bind fun o =>
    if o.len.getD 0 ≤ (o.buf.getD []).length then .ok ((o.buf.getD []).take (o.len.getD 0)) else .abort

/-- The loop over the results, fill_mask.cpp:159-173, for the indices in `is`. -/
def results (ctx : Option Api.Ctx) (ids : List Nat) (probs : List α) (k pos : Nat) :
    List Nat → Res (List (Nat × List Nat × α))
  | [] => .ok []
  | i :: is =>
    match ids[k * pos + i]?, probs[k * pos + i]? with
    | some id, some p =>
      (tokenName ctx id).bind fun name =>
        (results ctx ids probs k pos is).bind fun r => .ok ((id, name, p) :: r)
    | _, _ => .ub

/-- `main` of fill_mask.cpp after the model was loaded, lines 60-185: exit status and results.  The two
contexts are two views of the same `berts_context`. -/
def fillMask (A : Arith α) (g : Gg) (actx : Option Api.Ctx) (ectx : Option (Eval.ECtx α)) (dflt : α) (k : Nat)
    (text : List Nat) (junkI : Nat → Nat) (junk : Nat → α) : Res (Nat × List (Nat × List Nat × α)) :=
  if Api.bertsVocabSize actx < k then .ok (1, [])
  else
    (promptTokens actx text junkI).bind fun t =>
      match t with
      | none => .ok (1, [])
      | some tokens =>
        match findMask (Api.bertsMaskId actx) tokens with
        | none => .ok (1, [])
        | some pos =>
          (hiddenOf A g ectx tokens junk).bind fun h =>
            match h with
            | none => .ok (1, [])
            | some (hidden, size) =>
              (lmOf A g ectx hidden size dflt k junkI junk).bind fun l =>
                match l with
                | none => .ok (1, [])
                | some (ids, probs) =>
                  (results actx ids probs k pos (List.range k)).bind fun r => .ok (0, r)

end Berts.Examples
