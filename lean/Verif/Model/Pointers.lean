import Verif.Model.Eval

/-!
# Model of the input pointers of the C interface (`berts/berts.cpp`)

`Model/Api.lean` and `Model/Eval.lean` take texts and arrays as lists.  Here they are what the caller passes: a null pointer
(`none`) or a pointer to memory of which the elements of a list can be read; reading a null pointer or behind the list
is undefined behaviour.
-/

namespace Berts.Pointers

open Berts.Spec (Arith)
open Berts.Api Berts.Eval Berts.Graph

/-- The loop of `strlen`: the bytes before the first null byte. -/
def scan : List Nat → Res (List Nat)
  | [] => .ub
  | b :: r => if b = 0 then .ok [] else (scan r).bind fun s => .ok (b :: s)

/-- A `const char *` read to its end: `std::strlen(text)`, berts.cpp:172, and the conversions to `std::string` of
`model.tokenize(ctx, text, ids)`, 175, and `model.token_to_id(token)`, 143 (a null pointer violates the precondition
of that constructor; libstdc++ throws `std::logic_error`). -/
def cstr : Option (List Nat) → Res (List Nat)
  | none => .ub
  | some mem => scan mem

/-- `std::copy(p, p + n, ...)`, berts.cpp:229 and 233, `std::copy_n(p, n, ...)`, bert.cpp:1076 and roberta.cpp:798. -/
def readArray {β : Type} (p : Option (List β)) (n : Nat) : Res (List β) :=
  match p with
  | none => if n = 0 then .ok [] else .ub
  | some mem => if n ≤ mem.length then .ok (mem.take n) else .ub

/-- `berts_token_to_id`, berts.cpp:141-144. -/
def tokenToIdC (ctx : Option Ctx) (token : Option (List Nat)) : Res Nat :=
  match getModel ctx with
  | none => .ok 0
  | some m => (cstr token).bind m.tokenToId

/-- `berts_tokenize`, berts.cpp:151-197: the text is first read in line 172. -/
def tokenizeC (ctx : Option Ctx) (text : Option (List Nat)) (buf : Option (List Nat)) (len : Option Nat) : Res Out :=
  match getModel ctx with
  | none => .ok ⟨false, buf, len⟩
  | some m =>
    if m.clsId = INVALID then .ok ⟨false, buf, len⟩
    else if m.sepId = INVALID then .ok ⟨false, buf, len⟩
    else
      (cstr text).bind fun t =>
        (m.tokenize t).bind fun r =>
          if r.1 then
            (emit ([m.clsId] ++ r.2 ++ [m.sepId]) buf len).bind fun o => .ok ⟨true, o.1, o.2⟩
          else .ok ⟨false, buf, len⟩

/-- `std::vector<uint32_t>(n)`, berts.cpp:228 and 232: more elements than `max_size()` are an exception
(`std::length_error`), which leaves the C function; here `abort`.  A lack of memory is not modelled. -/
def newVector (n : Nat) : Res Unit := if 2 ^ 61 ≤ n then .abort else .ok ()

variable {α : Type}

/-- `berts_eval`, berts.cpp:212-239. -/
def evalC (A : Arith α) (g : Gg) (ctx : Option (ECtx α)) (tokens segs : Option (List Nat)) (count : Nat)
    (cond : Option (Int × Nat)) (out : Option (List α)) (outCount : Option Nat) :
    Res (Bool × Option (List α) × Option Nat) :=
  match ctx.bind (·.model) with
  | none => .ok (false, out, outCount)
  | some m =>
    match cond, outCount with
    | none, _ => .ok (false, out, outCount)
    | some _, none => .ok (false, out, outCount)
    | some (layer, pool), some c =>
      (newVector count).bind fun _ =>
        (readArray tokens count).bind fun t =>
          match segs with
          | some s =>
            (newVector count).bind fun _ =>
              (readArray (some s) count).bind fun s =>
                (eval A g m t s layer pool out c).bind fun o => .ok (o.ret, o.buf, some o.count)
          | none =>
            (eval A g m t (List.replicate t.length 0) layer pool out c).bind fun o => .ok (o.ret, o.buf, some o.count)

/-- The part of `eval_lm` after the checks of the buffers, model_berts.hpp:263-345: `build_lm_graph` allocates its first
tensor and only then reads the hidden states, bert.cpp:1055-1076 and roberta.cpp:777-798. -/
def lmRunC (A : Arith α) (g : Gg) (m : EModel α) (hidden : Option (List α)) (count : Nat) (dflt : α) (topK : Int)
    (ids : List Nat) (probs : List α) (given needed : Nat) : Res (LmOut α) :=
  (lmBufferSize g m.isBert m.hp m.vocabCount (count / m.hp.hidden)).bind fun size =>
    match m.w.lm with
    | none => .ok ⟨false, some ids, some probs, needed⟩
    | some _ =>
      (newTensor1d (β := α) ⟨A, g, size.calc 0⟩ 4 count (fun _ => dflt) 0).bind fun _ =>
        (readArray hidden count).bind fun h => lmRun A g m h dflt topK ids probs given needed

/-- `berts_eval_lm`, berts.cpp:253-271 with model_berts.hpp:206-346. -/
def evalLmC (A : Arith α) (g : Gg) (ctx : Option (ECtx α)) (hidden : Option (List α)) (count : Nat) (dflt : α)
    (cond : Option Int) (ids : Option (List Nat)) (probs : Option (List α)) (outCount : Option Nat) :
    Res (Bool × Option (List Nat) × Option (List α) × Option Nat) :=
  match ctx.bind (·.model) with
  | none => .ok (false, ids, probs, outCount)
  | some m =>
    match cond, outCount with
    | none, _ => .ok (false, ids, probs, outCount)
    | some _, none => .ok (false, ids, probs, outCount)
    | some k, some c =>
      if m.hp.hidden = 0 then .ub
      else if count % m.hp.hidden ≠ 0 then .ok (false, ids, probs, some c)
      else
        let needed := outputTokens m.vocabCount k * (count / m.hp.hidden)
        match ids, probs with
        | none, none => .ok (true, none, none, some needed)
        | some i, some p =>
          (lmRunC A g m hidden count dflt k i p c needed).bind fun o => .ok (o.ret, o.ids, o.probs, some o.count)
        | i, p => .ok (false, i, p, some needed)

end Berts.Pointers
