import Verif.Model.Eval
import Verif.Model.LoadLog
import Verif.Model.BertLog
import Verif.Model.RobertaLog

/-!
# Evaluation with its messages

`Verif.Model.Eval` and the checks of `Verif.Model.Api` with the state of the log threaded through; `adr` is the
address of the ggml context a call creates (utils.hpp:127-133) and frees when it returns.  Not modelled: the messages that only exist with the macros BERTS_DEBUG and GGML_PERF.
-/

namespace Berts.Eval

open Berts.Spec (Arith)
open Berts.Graph Berts.Log Berts.Format
open Berts.Load (LogM lift say sayF sayWhen intArg addrArg)

variable {α : Type}

/-- `model_name`, bert.hpp:144-146 and roberta.hpp:54-56. -/
def modelName (isBert : Bool) : List Nat := if isBert then bytes! "BERT" else bytes! "RoBERTa"

/-- `pool_type_str`, ggml.hpp:64-74. -/
def poolTypeStr : Nat → List Nat
  | 0 => bytes! "none"
  | 1 => bytes! "cls"
  | 2 => bytes! "avg"
  | 3 => bytes! "max"
  | _ => []

/-- As `evalWith`, model_berts.hpp:144-203.  `build_graph` returns false at an activation function that is not GELU,
bert.cpp:988-990 and roberta.cpp:710-712 (the pooling types have been checked before). -/
def evalWithL (adr : Fin (2 ^ 63)) (A : Arith α) (g : Gg) (m : EModel α) (tokens segs : List Nat) (last : Int)
    (poolType : Nat) (buf : List α) (given needed : Nat) : LogM (EvalOut α) := do
  let size := (bufferSize g m.hp poolType tokens.length).calc last.toNat
  sayF .debug (bytes! "ggml_init @ {:016x}") [addrArg adr.val]
  sayF .debug (bytes! "  context buffer size = {}") [numArg size]
  let r ← lift (graphProg ⟨A, g, size⟩ m.hp m.w last poolType tokens segs (positionsOf m tokens) 0)
  match r.1 with
  | none => do
    say .error (bytes! "unknown activation function")
    sayF .debug (bytes! "ggml_free @ {:016x}") [addrArg adr.val]
    pure ⟨false, some buf, needed⟩
  | some x => do
    let _ ← lift (expandGraph m last poolType)
    let data ← lift (readRange x 0 (min given needed))
    let buf ← lift (Api.copyInto buf data (min given needed))
    sayF .info (bytes! "finish evaluating {}") [textArg (modelName m.isBert)]
    sayF .debug (bytes! "ggml_free @ {:016x}") [addrArg adr.val]
    pure ⟨true, some buf, needed⟩

/-- As `evalRun`, model_berts.hpp:127-203. -/
def evalRunL (adr : Fin (2 ^ 63)) (A : Arith α) (g : Gg) (m : EModel α) (tokens segs : List Nat) (outputLayer : Int)
    (poolType : Nat) (buf : List α) (given needed : Nat) : LogM (EvalOut α) := do
  let l ← lift (lastLayer m.hp.nLayers outputLayer)
  match l with
  | none => do
    sayF .error (bytes! "invalid output_layer_value: {} (expected: {}..{})")
      [intArg outputLayer, intArg (-(m.hp.nLayers : Int)), intArg m.hp.nLayers]
    pure ⟨false, some buf, needed⟩
  | some last => evalWithL adr A g m tokens segs last poolType buf given needed

/-- As `eval`, model_berts.hpp:53-204; `threads` is `cond.n_threads`. -/
def evalL (adr : Fin (2 ^ 63)) (A : Arith α) (g : Gg) (m : EModel α) (tokens segs : List Nat) (outputLayer : Int)
    (poolType : Nat) (threads : Int) (out : Option (List α)) (outCount : Nat) : LogM (EvalOut α) := do
  sayF .info (bytes! "start evaluating {}") [textArg (modelName m.isBert)]
  sayF .debug (bytes! "  #tokens = {}") [numArg tokens.length]
  if m.hp.maxTokens < tokens.length then do
    sayF .error (bytes! "too many tokens ({}) for this model ({})") [numArg tokens.length, numArg m.hp.maxTokens]
    pure ⟨false, out, outCount⟩
  else if tokens.length ≠ segs.length then do
    sayF .error (bytes! "segment count ({}) is not match for tokens ({})") [numArg segs.length, numArg tokens.length]
    pure ⟨false, out, outCount⟩
  else
    match segs.find? (fun s => decide (m.hp.segments ≤ s)) with
    | some s => do
      sayF .error (bytes! "invalid segment value: {} (allowed = 0..{})") [numArg s, intArg ((m.hp.segments : Int) - 1)]
      pure ⟨false, out, outCount⟩
    | none =>
      match neededCount m.hp poolType tokens.length with
      | none => do
        sayF .error (bytes! "unknown pooling type: {}") [intArg (Load.asI32 poolType)]
        pure ⟨false, out, outCount⟩
      | some needed => do
        sayWhen 1 do
          sayF .info (bytes! "  berts_eval_info {{\n    output_layer = {};\n    pool_type = {};\n    n_threads = {}\n  }}")
            [intArg outputLayer, textArg (poolTypeStr poolType), intArg threads]
          sayF .debug (bytes! "  output size = {}") [numArg needed]
          sayF .debug (bytes! "    given     = {}") [numArg outCount]
        match out with
        | none => do
          sayF .info (bytes! "finish evaluating {} (dry run)") [textArg (modelName m.isBert)]
          pure ⟨true, none, needed⟩
        | some buf => evalRunL adr A g m tokens segs outputLayer poolType buf outCount needed

/-- `check_model`, berts.cpp:75-83 with internal.hpp:131-151: the model. -/
def modelL {β γ : Type} (model : β → Option γ) (ctx : Option β) : LogM (Option γ) :=
  match ctx with
  | none => do
    say .warn (bytes! "ctx=nullptr")
    pure none
  | some c =>
    match model c with
    | none => do
      say .error (bytes! "model is not loaded")
      pure none
    | some m => pure (some m)

/-- As `bertsEval`, berts.cpp:212-239; `cond` also holds `n_threads`. -/
def bertsEvalL (adr : Fin (2 ^ 63)) (A : Arith α) (g : Gg) (ctx : Option (ECtx α)) (tokens : List Nat)
    (segs : Option (List Nat)) (cond : Option (Int × Nat × Int)) (out : Option (List α)) (outCount : Option Nat) :
    LogM (Bool × Option (List α) × Option Nat) := do
  let m ← modelL (·.model) ctx
  match m with
  | none => pure (false, out, outCount)
  | some m =>
    match cond, outCount with
    | none, _ => pure (false, out, outCount)
    | some _, none => pure (false, out, outCount)
    | some (layer, pool, threads), some c => do
      let o ← evalL adr A g m tokens (segs.getD (List.replicate tokens.length 0)) layer pool threads out c
      pure (o.ret, o.buf, some o.count)

/-! ## Language model head -/

/-- As `lmRun`, model_berts.hpp:263-345.  Both `get_context_buffer_size_for_lm` (bert.cpp:838-841) and `build_lm_graph`
(bert.cpp:1095-1098) complain about the activation number 3, but only those of BERT; `build_lm_graph` first looks for
the weights (bert.cpp:1055-1063, roberta.cpp:777-785).  (With other numbers above 2 BERT has ended in the assertion
before.) -/
def lmRunL (adr : Fin (2 ^ 63)) (A : Arith α) (g : Gg) (m : EModel α) (hidden : List α) (dflt : α) (topK : Int)
    (ids : List Nat) (probs : List α) (given needed : Nat) : LogM (LmOut α) := do
  let n := hidden.length / m.hp.hidden
  let size ← lift (lmBufferSize g m.isBert m.hp m.vocabCount n)
  if m.isBert ∧ m.hp.act = 3 then
    say .error (bytes! "gelu_new is not implmented yet")
  sayF .debug (bytes! "ggml_init @ {:016x}") [addrArg adr.val]
  sayF .debug (bytes! "  context buffer size = {}") [numArg (size.calc 0)]
  let r ← lift (lmProg ⟨A, g, size.calc 0⟩ m hidden dflt 0)
  match r.1 with
  | none => do
    say .error (match m.w.lm with
      | none => bytes! "LM weights are not loaded"
      | some _ => bytes! "gelu_new is not implmented yet")
    sayF .debug (bytes! "ggml_free @ {:016x}") [addrArg adr.val]
    pure ⟨false, some ids, some probs, needed⟩
  | some px => do
    let r ← lift (lmOutput px.2 px.1 m.vocabCount n topK ids probs given needed)
    sayF .info (bytes! "finish LM {}") [textArg (modelName m.isBert)]
    sayF .debug (bytes! "ggml_free @ {:016x}") [addrArg adr.val]
    pure ⟨true, some r.1, some r.2, needed⟩

/-- As `evalLm`, model_berts.hpp:206-346.  The first argument of the message at line 237 is a string. -/
def evalLmL (adr : Fin (2 ^ 63)) (A : Arith α) (g : Gg) (m : EModel α) (hidden : List α) (dflt : α) (topK : Int)
    (ids : Option (List Nat)) (probs : Option (List α)) (outCount : Nat) : LogM (LmOut α) := do
  sayF .info (bytes! "start LM {}") [textArg (modelName m.isBert)]
  if m.hp.hidden = 0 then lift .ub
  else if hidden.length % m.hp.hidden ≠ 0 then do
    sayF .error (bytes! "invalid size of hidden_states, expected to a multiple of {}, but {}")
      [numArg m.hp.hidden, numArg hidden.length]
    pure ⟨false, ids, probs, outCount⟩
  else do
    sayF .debug (bytes! "  #tokens = {0}\n  hidden_dim = {1}\n")
      [textArg (bytes! "  input_shape = {0}x{1}"), numArg (hidden.length / m.hp.hidden), numArg m.hp.hidden]
    let needed := outputTokens m.vocabCount topK * (hidden.length / m.hp.hidden)
    match ids, probs with
    | none, none => do
      sayF .info (bytes! "finish LM {} (dry run)") [textArg (modelName m.isBert)]
      pure ⟨true, none, none, needed⟩
    | some i, some p => lmRunL adr A g m hidden dflt topK i p outCount needed
    | i, p => do
      say .error (bytes! "output buffer is not specified")
      pure ⟨false, i, p, needed⟩

/-- As `bertsEvalLm`, berts.cpp:253-271. -/
def bertsEvalLmL (adr : Fin (2 ^ 63)) (A : Arith α) (g : Gg) (ctx : Option (ECtx α)) (hidden : List α) (dflt : α)
    (cond : Option Int) (ids : Option (List Nat)) (probs : Option (List α)) (outCount : Option Nat) :
    LogM (Bool × Option (List Nat) × Option (List α) × Option Nat) := do
  let m ← modelL (·.model) ctx
  match m with
  | none => pure (false, ids, probs, outCount)
  | some m =>
    match cond, outCount with
    | none, _ => pure (false, ids, probs, outCount)
    | some _, none => pure (false, ids, probs, outCount)
    | some k, some c => do
      let o ← evalLmL adr A g m hidden dflt k ids probs c
      pure (o.ret, o.ids, o.probs, some o.count)

/-! ## Tokenizing -/

/-- As `bertsTokenize`, berts.cpp:151-197, for a context with the hyperparameter `max_tokens`; `tok` is the tokenizer
with its messages: the return value and the ids appended, also those before a failure. -/
def bertsTokenizeL (ctx : Option Api.Ctx) (maxTokens : Nat) (tok : List Nat → LogM (Bool × List Nat))
    (text : List Nat) (buf : Option (List Nat)) (len : Option Nat) : LogM Api.Out := do
  let m ← modelL (·.model) ctx
  match m with
  | none => pure ⟨false, buf, len⟩
  | some m =>
    if m.clsId = INVALID then do
      say .error (bytes! "cls_id is not found")
      pure ⟨false, buf, len⟩
    else if m.sepId = INVALID then do
      say .error (bytes! "sep_id is not found")
      pure ⟨false, buf, len⟩
    else do
      let r ← tok text
      let ids := if r.1 then [m.clsId] ++ r.2 ++ [m.sepId] else [m.clsId] ++ r.2
      let o ← lift (if r.1 then Api.emit ids buf len else .ok (buf, len))
      if maxTokens < ids.length then
        sayF .warn (bytes! "Token count ({}) is larger than the max_position_embeddings ({}). Calling eval() with this sequence will cause a failure.")
          [numArg ids.length, numArg maxTokens]
      pure ⟨r.1, o.1, o.2⟩

/-- BERT's tokenizer, bert.cpp:630-642, as `bertsTokenizeL` calls it. -/
def bertTok (u : Bert.Icu) (cond : Bert.TokInfo) (v : Vocab.VocabT) (sp : Vocab.Special) (text : List Nat) :
    LogM (Bool × List Nat) := fun s => (Bert.tokenizeL u cond v sp text s).bind fun r => .ok ((true, r.1), r.2)

/-- RoBERTa's tokenizer, roberta.cpp:360-376, as `bertsTokenizeL` calls it; `part` stands for the ids appended before
a failure, which are not modelled. -/
def robertaTok (e : Roberta.Env) (r : Roberta.RVocab) (setOrder : List (List Nat) → List (List Nat)) (part : List Nat)
    (text : List Nat) : LogM (Bool × List Nat) := do
  let o ← Roberta.tokenizeL e r setOrder text
  match o with
  | none => pure (false, part)
  | some ids => pure (true, ids)

end Berts.Eval
