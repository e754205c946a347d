import Verif.Model.Graph
import Verif.Model.Api
import Verif.Model.Roberta
import Verif.Model.Nodes

/-!
# Model of the evaluation calls (`berts/models/model_berts.hpp`, `berts/berts.cpp`)

Buffers are lists; writing outside them or reading outside a tensor is undefined behaviour.  The
number of threads is not modelled.
-/

namespace Berts.Eval

open Berts.Spec (Arith)
open Berts.Graph

/-- A loaded model: architecture, hyperparameters, weights, number of vocabulary entries and the padding
token's id. -/
structure EModel (α : Type) where
  isBert : Bool
  hp : HParams
  w : Weights α
  vocabCount : Nat
  padId : Nat

/-- A `berts_context`: its model, if it has one. -/
structure ECtx (α : Type) where
  model : Option (EModel α)

/-- What a call leaves behind: return value, output buffer, `out_count`. -/
structure EvalOut (α : Type) where
  ret : Bool
  buf : Option (List α)
  count : Nat
deriving DecidableEq

variable {α : Type}

/-- The position tensor, bert.cpp:899-902 and roberta.cpp:614-623. -/
def positionsOf (m : EModel α) (tokens : List Nat) : List Int :=
  if m.isBert then (List.range tokens.length).map (fun i : Nat => i32 i) else Roberta.positions m.padId tokens

/-- `needed_out_count`, model_berts.hpp:94-104; `none` is an unknown pooling type. -/
def neededCount (hp : HParams) (poolType n : Nat) : Option Nat :=
  match poolType with
  | 0 => some (hp.hidden * n)
  | 1 => some (hp.hidden * 1)
  | 2 => some (hp.hidden * 1)
  | 3 => some (hp.hidden * 1)
  | _ => none

/-- The choice of the last layer, model_berts.hpp:127-142; `none` is `return false`.  Negating the
smallest 64-bit number is undefined. -/
def lastLayer (nLayers : Nat) (outputLayer : Int) : Res (Option Int) :=
  if outputLayer < 0 then
    if outputLayer = -2 ^ 63 then .ub
    else if (nLayers : Int) < -outputLayer then .ok none
    else .ok (some (outputLayer + (nLayers + 1)))
  else if (nLayers : Int) < outputLayer then .ok none
  else .ok (some outputLayer)

/-- `ggml_new_graph` after `build_graph`, model_berts.hpp:158-169. -/
def graphProg (e : Env α) (hp : HParams) (w : Weights α) (last : Int) (poolType : Nat)
    (tokens segs : List Nat) (pos : List Int) : M (Option (T α)) := do
  let o ← buildGraph e hp w last poolType tokens segs pos
  match o with
  | none => pure none
  | some x => do
    allocGraph e
    pure (some x)

/-- The `n` elements of a tensor's data from `start`. -/
def readRange {β : Type} (t : T β) (start n : Nat) : Res (List β) :=
  if start + n ≤ t.count then .ok ((List.range n).map fun i => t.flat (start + i)) else .ub

/-- `ggml_build_forward_expand`, model_berts.hpp:169. -/
def expandGraph (m : EModel α) (last : Int) (poolType : Nat) : Res Nodes.Cgraph :=
  Nodes.expand Nodes.graphSize (Nodes.build m.w.layers.length last poolType []).2
    (Nodes.build m.w.layers.length last poolType []).1

/-- Building, computing and copying, model_berts.hpp:144-203; `last` is `new_cond.output_layer`.  (Rows that do not exist
are read when the graph is computed, after its expansion; here they are undefined behaviour before.) -/
def evalWith (A : Arith α) (g : Gg) (m : EModel α) (tokens segs : List Nat) (last : Int)
    (poolType : Nat) (buf : List α) (given needed : Nat) : Res (EvalOut α) :=
  (graphProg ⟨A, g, (bufferSize g m.hp poolType tokens.length).calc last.toNat⟩ m.hp m.w last poolType
      tokens segs (positionsOf m tokens) 0).bind fun r =>
    match r.1 with
    | none => .ok ⟨false, some buf, needed⟩
    | some x =>
      (expandGraph m last poolType).bind fun _ =>
        (readRange x 0 (min given needed)).bind fun data =>
          (Api.copyInto buf data (min given needed)).bind fun buf =>
            .ok ⟨true, some buf, needed⟩

/-- The part of `eval` after the dry run check, model_berts.hpp:127-203. -/
def evalRun (A : Arith α) (g : Gg) (m : EModel α) (tokens segs : List Nat) (outputLayer : Int)
    (poolType : Nat) (buf : List α) (given needed : Nat) : Res (EvalOut α) :=
  (lastLayer m.hp.nLayers outputLayer).bind fun l =>
    match l with
    | none => .ok ⟨false, some buf, needed⟩
    | some last => evalWith A g m tokens segs last poolType buf given needed

/-- `eval`, model_berts.hpp:53-204. -/
def eval (A : Arith α) (g : Gg) (m : EModel α) (tokens segs : List Nat) (outputLayer : Int)
    (poolType : Nat) (out : Option (List α)) (outCount : Nat) : Res (EvalOut α) :=
  if m.hp.maxTokens < tokens.length then .ok ⟨false, out, outCount⟩
  else if tokens.length ≠ segs.length then .ok ⟨false, out, outCount⟩
  else if segs.any (fun s => decide (m.hp.segments ≤ s)) then .ok ⟨false, out, outCount⟩
  else
    match neededCount m.hp poolType tokens.length with
    | none => .ok ⟨false, out, outCount⟩
    | some needed =>
      match out with
      | none => .ok ⟨true, none, needed⟩
      | some buf => evalRun A g m tokens segs outputLayer poolType buf outCount needed

/-- `berts_eval`, berts.cpp:212-239, with internal.cpp:56-64 for null segments.  `cond` holds
`output_layer` and `pool_type`; `outCount` is `*out_count`.  The third component of the result is
`*out_count` afterwards. -/
def bertsEval (A : Arith α) (g : Gg) (ctx : Option (ECtx α)) (tokens : List Nat)
    (segs : Option (List Nat)) (cond : Option (Int × Nat)) (out : Option (List α)) (outCount : Option Nat) :
    Res (Bool × Option (List α) × Option Nat) :=
  match ctx.bind (·.model) with
  | none => .ok (false, out, outCount)
  | some m =>
    match cond, outCount with
    | none, _ => .ok (false, out, outCount)
    | some _, none => .ok (false, out, outCount)
    | some (layer, pool), some c =>
      (eval A g m tokens (segs.getD (List.replicate tokens.length 0)) layer pool out c).bind fun o =>
        .ok (o.ret, o.buf, some o.count)

/-! ## Language model head -/

/-- What `eval_lm` leaves behind: return value, both buffers, `out_count`. -/
structure LmOut (α : Type) where
  ret : Bool
  ids : Option (List Nat)
  probs : Option (List α)
  count : Nat
deriving DecidableEq

/-- `ggml_new_graph` after `build_lm_graph`, model_berts.hpp:278-289.  The expansion always succeeds, see `C86_lm`. -/
def lmProg (e : Env α) (m : EModel α) (hidden : List α) (dflt : α) : M (Option (T α × T Nat)) := do
  let o ← buildLm e m.isBert m.hp m.w m.vocabCount hidden dflt
  match o with
  | none => pure none
  | some x => do
    allocGraph e
    pure (some x)

/-- Writing a block at an offset of a buffer. -/
def copyAt {β : Type} (buf : List β) (off : Nat) (src : List β) : Res (List β) :=
  if off + src.length ≤ buf.length then .ok (buf.take off ++ src ++ buf.drop (off + src.length)) else .ub

/-- `probs[id]` for several ids. -/
def lookup (p : T α) (start : Nat) : List Nat → Res (List α)
  | [] => .ok []
  | i :: is =>
    (readRange p (start + i) 1).bind fun v => (lookup p start is).bind fun vs => .ok (v ++ vs)

/-- The loop over tokens for `top_k > 0`, model_berts.hpp:328-341: `k` is `cond.top_k`. -/
def topkLoop (x : T Nat) (p : T α) (maxTokens k : Nat) : List Nat → List Nat → List α →
    Res (List Nat × List α)
  | [], ids, probs => .ok (ids, probs)
  | t :: ts, ids, probs =>
    (readRange x (t * maxTokens) k).bind fun row =>
      (copyAt ids (t * k) row).bind fun ids =>
        (lookup p (t * maxTokens) row).bind fun vals =>
          (copyAt probs (t * k) vals).bind fun probs => topkLoop x p maxTokens k ts ids probs

/-- The output section of `eval_lm`, model_berts.hpp:319-342. -/
def lmOutput (x : T Nat) (p : T α) (maxTokens inputTokens : Nat) (topK : Int) (ids : List Nat)
    (probs : List α) (given needed : Nat) : Res (List Nat × List α) :=
  if topK ≤ 0 then
    (readRange x 0 (min given needed)).bind fun a =>
      (Api.copyInto ids a (min given needed)).bind fun ids =>
        (readRange p 0 (min given needed)).bind fun b =>
          (Api.copyInto probs b (min given needed)).bind fun probs => .ok (ids, probs)
  else topkLoop x p maxTokens topK.toNat (List.range inputTokens) ids probs

/-- The part of `eval_lm` after the checks of the buffers, model_berts.hpp:263-345. -/
def lmRun (A : Arith α) (g : Gg) (m : EModel α) (hidden : List α) (dflt : α) (topK : Int)
    (ids : List Nat) (probs : List α) (given needed : Nat) : Res (LmOut α) :=
  let n := hidden.length / m.hp.hidden
  (lmBufferSize g m.isBert m.hp m.vocabCount n).bind fun size =>
    (lmProg ⟨A, g, size.calc 0⟩ m hidden dflt 0).bind fun r =>
      match r.1 with
      | none => .ok ⟨false, some ids, some probs, needed⟩
      | some px =>
        (lmOutput px.2 px.1 m.vocabCount n topK ids probs given needed).bind fun r =>
          .ok ⟨true, some r.1, some r.2, needed⟩

/-- `output_tokens`, model_berts.hpp:244-247. -/
def outputTokens (vocabCount : Nat) (topK : Int) : Nat :=
  if topK ≤ 0 then vocabCount else min topK.toNat vocabCount

/-- `eval_lm`, model_berts.hpp:206-346.  `dflt` is not an input: it stands for elements beyond the
list, which are never used. -/
def evalLm (A : Arith α) (g : Gg) (m : EModel α) (hidden : List α) (dflt : α) (topK : Int)
    (ids : Option (List Nat)) (probs : Option (List α)) (outCount : Nat) : Res (LmOut α) :=
  if m.hp.hidden = 0 then .ub
  else if hidden.length % m.hp.hidden ≠ 0 then .ok ⟨false, ids, probs, outCount⟩
  else
    let needed := outputTokens m.vocabCount topK * (hidden.length / m.hp.hidden)
    match ids, probs with
    | none, none => .ok ⟨true, none, none, needed⟩
    | some i, some p => lmRun A g m hidden dflt topK i p outCount needed
    | i, p => .ok ⟨false, i, p, needed⟩

/-- `berts_eval_lm`, berts.cpp:253-271. -/
def bertsEvalLm (A : Arith α) (g : Gg) (ctx : Option (ECtx α)) (hidden : List α) (dflt : α)
    (cond : Option Int) (ids : Option (List Nat)) (probs : Option (List α)) (outCount : Option Nat) :
    Res (Bool × Option (List Nat) × Option (List α) × Option Nat) :=
  match ctx.bind (·.model) with
  | none => .ok (false, ids, probs, outCount)
  | some m =>
    match cond, outCount with
    | none, _ => .ok (false, ids, probs, outCount)
    | some _, none => .ok (false, ids, probs, outCount)
    | some k, some c =>
      (evalLm A g m hidden dflt k ids probs c).bind fun o => .ok (o.ret, o.ids, o.probs, some o.count)

end Berts.Eval
