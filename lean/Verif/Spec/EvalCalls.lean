import Verif.Model.Eval
import Verif.Spec.Eval

/-! # What the evaluation calls should do -/

namespace Berts.Eval

open Berts.Spec (Arith Mat col)
open Berts.Graph

variable {α : Type}

/-- A model whose weights have the shapes of its hyperparameters. -/
structure ModelOK (m : EModel α) (V P S : Nat) : Prop where
  weights : WeightsOK m.w m.hp V P S
  hidden : 0 < m.hp.hidden
  heads : m.hp.heads ∣ m.hp.hidden
  interm : 0 < m.hp.interm
  act : m.hp.act = 0

/-- All rows looked up for an input exist. -/
def InputOK (m : EModel α) (V P S : Nat) (tokens segs : List Nat) : Prop :=
  RowsOK V P S tokens.length (fun i => i32 (tokens.getD i 0)) (fun i => i32 (segs.getD i 0))
    (fun i => (positionsOf m tokens).getD i 0)

/-- The reference value for an input. -/
def refValue (A : Arith α) (m : EModel α) (L poolType : Nat) (tokens segs : List Nat) : Mat α :=
  refEval A m.hp m.w L poolType (fun t => (i32 (tokens.getD t 0)).toNat)
    (fun t => (i32 (segs.getD t 0)).toNat) (fun t => ((positionsOf m tokens).getD t 0).toNat) tokens.length

/-- The number of layers to run. -/
def layersOf (nLayers : Nat) (outputLayer : Int) : Nat :=
  (if outputLayer < 0 then outputLayer + nLayers + 1 else outputLayer).toNat

/-- The checks before evaluation. -/
structure Accepted (m : EModel α) (tokens segs : List Nat) (poolType : Nat) : Prop where
  count : tokens.length ≤ m.hp.maxTokens
  len : segs.length = tokens.length
  segs : ∀ s ∈ segs, s < m.hp.segments
  pool : poolType < 4

/-- A model with a language model head of the right shapes. -/
structure HeadOK (m : EModel α) (lm : LmWeights α) : Prop where
  head : m.w.lm = some lm
  shapes : LmOK lm m.hp.hidden m.vocabCount
  hidden : 0 < m.hp.hidden
  vocab : 0 < m.vocabCount
  act : m.isBert = true → m.hp.act < 3

/-- The matrix of the given hidden states. -/
def inputMat (m : EModel α) (hidden : List α) (dflt : α) : Mat α :=
  fun i t => hidden.getD (i + m.hp.hidden * t) dflt

/-- The activation function of the head: in BERT that of the model (0 gelu, 1 relu, 2 silu), in RoBERTa
gelu. -/
def headAct (A : Arith α) (m : EModel α) : α → α :=
  if m.isBert = false then A.gelu
  else if m.hp.act = 1 then A.relu
  else if m.hp.act = 2 then A.silu
  else A.gelu

/-- The reference probabilities. -/
def refProbs (A : Arith α) (m : EModel α) (lm : LmWeights α) (hidden : List α) (dflt : α) : Mat α :=
  refLm A (headAct A m) lm m.hp.eps m.hp.hidden m.vocabCount (inputMat m hidden dflt)

/-- The ids of a row in the order of `argsort`. -/
def rowIds (A : Arith α) (V k : Nat) (P : Mat α) (t : Nat) : List Nat :=
  (List.range k).map (A.argsort (col V P t))

/-- A model whose weights have the right shapes with tables of `V` tokens, `P` positions and `S` segments,
and an input, such that all numbers fit `int32_t`. -/
structure Shaped (m : EModel α) (V P S : Nat) (tokens : List Nat) : Prop where
  ok : ModelOK m V P S
  v : V ≤ 2 ^ 31
  p : P ≤ 2 ^ 31
  s : S ≤ 2 ^ 31
  segments : m.hp.segments ≤ S
  layers : m.hp.nLayers < 2 ^ 32
  positions : if m.isBert then tokens.length < 2 ^ 31 else m.padId + tokens.length < 2 ^ 31
  ids : ∀ t ∈ tokens, t < 2 ^ 32

/-- In addition, the model has not more layers than the graph of ggml has room for (see C86). -/
structure Fits (m : EModel α) (V P S : Nat) (tokens : List Nat) : Prop extends Shaped m V P S tokens where
  depth : m.hp.nLayers ≤ 44

/-- The position of token `t` in RoBERTa. -/
def robertaPos (pad : Nat) (tokens : List Nat) (t : Nat) : Nat :=
  if tokens.getD t 0 = pad then 0 else pad + (tokens.take (t + 1)).countP (· ≠ pad)

/-- The position of token `t`. -/
def refPos (m : EModel α) (tokens : List Nat) (t : Nat) : Nat :=
  if m.isBert then t else robertaPos m.padId tokens t

/-- The hidden states after `L` layers, for an input. -/
def hiddenStates (A : Arith α) (m : EModel α) (L : Nat) (tokens segs : List Nat) : Mat α :=
  encoded A m.hp m.w L (tokens.getD · 0) (segs.getD · 0) (refPos m tokens) tokens.length

/-- The expected output of an evaluation. -/
def expected (A : Arith α) (m : EModel α) (L poolType : Nat) (tokens segs : List Nat) : List α :=
  flatten m.hp.hidden (outRows poolType tokens.length)
    (refOut A m.w m.hp.hidden poolType tokens.length (hiddenStates A m L tokens segs))

/-- The rows addressed by an input exist. -/
def RowsExist (m : EModel α) (V P : Nat) (tokens : List Nat) : Prop :=
  (∀ t ∈ tokens, t < V) ∧ ∀ t, t < tokens.length → refPos m tokens t < P

end Berts.Eval
