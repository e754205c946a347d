import Verif.Model.Eval

/-!
# Model of the debug build (`BERTS_DEBUG`, berts/Makefile:109-111)

In this build the graph builders compare the memory in use with the running sums of the estimate, and stop the process
if they differ.  The message written before that is not modelled.
-/

namespace Berts.Debug

open Berts.Spec (Arith)
open Berts.Graph
open Berts.Eval

variable {α : Type}

/-- `ggml_context_for_debug::check`, ggml.hpp:54-60; the end of the last object, `current` (ggml.hpp:47-52), is the number
of bytes in use. -/
def dcheck (expected : Nat) : M Unit := fun u => if u = expected then .ok ((), u) else .abort

/-- `build_graph`, bert.cpp:871-1048 and roberta.cpp:587-770, with the checks of bert.cpp:917, 1004 and 1044 (roberta.cpp:639,
726 and 766). -/
def buildGraph (e : Env α) (hp : HParams) (w : Weights α) (last : Int) (poolType : Nat)
    (tokens segs : List Nat) (pos : List Int) : M (Option (T α)) := do
  let size := bufferSize e.g hp poolType tokens.length
  let x ← embeddings e hp w tokens segs pos
  dcheck size.emb
  if hp.heads = 0 then M.ub
  else
    let o ← layerLoop e hp tokens.length last 0 w.layers x
    match o with
    | none => pure none
    | some x => do
      dcheck (size.emb + size.layer * last.toNat)
      let o ← pooler e hp w poolType tokens.length x
      match o with
      | none => pure none
      | some x => do
        dcheck (size.emb + size.layer * last.toNat + size.pooler)
        pure (some x)

/-- `build_lm_graph`, bert.cpp:1050-1131 and roberta.cpp:772-834, with the check of bert.cpp:1126 (roberta.cpp:830), for
which the estimate is computed again after the weights have been found (bert.cpp:1070-1073, roberta.cpp:792-795). -/
def buildLm (e : Env α) (isBert : Bool) (hp : HParams) (w : Weights α) (vocabCount : Nat)
    (hidden : List α) (dflt : α) : M (Option (T α × T Nat)) :=
  match w.lm with
  | none => pure none
  | some _ => fun u =>
    (lmBufferSize e.g isBert hp vocabCount (hidden.length / hp.hidden)).bind fun size =>
      (do
        let o ← Graph.buildLm e isBert hp w vocabCount hidden dflt
        match o with
        | none => pure none
        | some x => do
          dcheck size.emb
          pure (some x) : M _) u

/-- As `Eval.graphProg`, model_berts.hpp:158-169. -/
def graphProg (e : Env α) (hp : HParams) (w : Weights α) (last : Int) (poolType : Nat)
    (tokens segs : List Nat) (pos : List Int) : M (Option (T α)) := do
  let o ← buildGraph e hp w last poolType tokens segs pos
  match o with
  | none => pure none
  | some x => do
    allocGraph e
    pure (some x)

/-- As `Eval.evalWith`, with the check of model_berts.hpp:180-183 after the computation. -/
def evalWith (A : Arith α) (g : Gg) (m : EModel α) (tokens segs : List Nat) (last : Int)
    (poolType : Nat) (buf : List α) (given needed : Nat) : Res (EvalOut α) :=
  (graphProg ⟨A, g, (bufferSize g m.hp poolType tokens.length).calc last.toNat⟩ m.hp m.w last poolType
      tokens segs (positionsOf m tokens) 0).bind fun r =>
    match r.1 with
    | none => .ok ⟨false, some buf, needed⟩
    | some x =>
      (expandGraph m last poolType).bind fun _ =>
        (dcheck ((bufferSize g m.hp poolType tokens.length).calc last.toNat) r.2).bind fun _ =>
          (readRange x 0 (min given needed)).bind fun data =>
            (Api.copyInto buf data (min given needed)).bind fun buf =>
              .ok ⟨true, some buf, needed⟩

/-- As `Eval.evalRun`, model_berts.hpp:127-203. -/
def evalRun (A : Arith α) (g : Gg) (m : EModel α) (tokens segs : List Nat) (outputLayer : Int)
    (poolType : Nat) (buf : List α) (given needed : Nat) : Res (EvalOut α) :=
  (lastLayer m.hp.nLayers outputLayer).bind fun l =>
    match l with
    | none => .ok ⟨false, some buf, needed⟩
    | some last => evalWith A g m tokens segs last poolType buf given needed

/-- As `Eval.eval`, model_berts.hpp:53-204. -/
def eval (A : Arith α) (g : Gg) (m : EModel α) (tokens segs : List Nat) (outputLayer : Int)
    (poolType : Nat) (out : Option (List α)) (outCount : Nat) : Res (EvalOut α) :=
  if m.hp.maxTokens < tokens.length then .ok ⟨false, out, outCount⟩
  else if tokens.length ≠ segs.length then .ok ⟨false, out, outCount⟩
  else if segs.any (fun s => decide (m.hp.segments ≤ s)) then .ok ⟨false, out, outCount⟩
  else
    match neededCount m.hp poolType tokens.length with
    | none => .ok ⟨false, out, outCount⟩
    | some needed =>
      match out with
      | none => .ok ⟨true, none, needed⟩
      | some buf => evalRun A g m tokens segs outputLayer poolType buf outCount needed

/-- As `Eval.lmProg`, model_berts.hpp:278-289. -/
def lmProg (e : Env α) (m : EModel α) (hidden : List α) (dflt : α) : M (Option (T α × T Nat)) := do
  let o ← buildLm e m.isBert m.hp m.w m.vocabCount hidden dflt
  match o with
  | none => pure none
  | some x => do
    allocGraph e
    pure (some x)

/-- As `Eval.lmRun`, model_berts.hpp:263-345, with the check of model_berts.hpp:301-304. -/
def lmRun (A : Arith α) (g : Gg) (m : EModel α) (hidden : List α) (dflt : α) (topK : Int)
    (ids : List Nat) (probs : List α) (given needed : Nat) : Res (LmOut α) :=
  let n := hidden.length / m.hp.hidden
  (lmBufferSize g m.isBert m.hp m.vocabCount n).bind fun size =>
    (lmProg ⟨A, g, size.calc 0⟩ m hidden dflt 0).bind fun r =>
      match r.1 with
      | none => .ok ⟨false, some ids, some probs, needed⟩
      | some px =>
        (dcheck (size.calc 0) r.2).bind fun _ =>
          (lmOutput px.2 px.1 m.vocabCount n topK ids probs given needed).bind fun r =>
            .ok ⟨true, some r.1, some r.2, needed⟩

/-- As `Eval.evalLm`, model_berts.hpp:206-346. -/
def evalLm (A : Arith α) (g : Gg) (m : EModel α) (hidden : List α) (dflt : α) (topK : Int)
    (ids : Option (List Nat)) (probs : Option (List α)) (outCount : Nat) : Res (LmOut α) :=
  if m.hp.hidden = 0 then .ub
  else if hidden.length % m.hp.hidden ≠ 0 then .ok ⟨false, ids, probs, outCount⟩
  else
    let needed := outputTokens m.vocabCount topK * (hidden.length / m.hp.hidden)
    match ids, probs with
    | none, none => .ok ⟨true, none, none, needed⟩
    | some i, some p => lmRun A g m hidden dflt topK i p outCount needed
    | i, p => .ok ⟨false, i, p, needed⟩

end Berts.Debug
