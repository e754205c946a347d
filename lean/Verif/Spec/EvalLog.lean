import Verif.Spec.BertLog
import Verif.Spec.LoadLog

/-!
# What evaluation says

Lines as in `Verif.Spec.BertLog`: the highest log level at which a line is written, and its text.
-/

namespace Berts.Spec

open Berts.Vocab

/-- How `eval` ends. -/
inductive EvalEnd where
  /-- more tokens than the model has positions -/
  | tooMany
  /-- not as many segments as tokens -/
  | segmentCount
  /-- a segment the model does not have -/
  | segment (s : Nat)
  /-- a pooling type that does not exist -/
  | pooling
  /-- no buffer was given -/
  | dry
  /-- a layer that does not exist -/
  | layer
  /-- an activation function that is not GELU -/
  | activation
  /-- everything was computed -/
  | done

/-- The return value. -/
def EvalEnd.ret : EvalEnd → Bool
  | .dry => true
  | .done => true
  | _ => false

/-- A call of `eval` as far as the messages show it: `computed` layers are computed in a memory pool of `size` bytes,
and the buffer needs `needed` numbers; `addr` is the address of the ggml context. -/
structure EvalCall where
  name : List Nat
  act : Nat
  maxTokens : Nat
  segmentCount : Nat
  layerCount : Nat
  tokens : Nat
  segments : List Nat
  layer : Int
  pool : Nat
  threads : Int
  given : Nat
  needed : Nat
  computed : Nat
  size : Nat
  addr : Nat

/-- The names of the pooling types. -/
def poolNames : List (List Nat) := [bytes! "none", bytes! "cls", bytes! "avg", bytes! "max"]

/-- The lines about the settings, which come after the checks. -/
def EvalCall.settings (c : EvalCall) : List (Int × List Nat) :=
  [line 1 (bytes! "  berts_eval_info {\n    output_layer = " ++ showInt c.layer ++ bytes! ";\n    pool_type = " ++
      poolNames.getD c.pool [] ++ bytes! ";\n    n_threads = " ++ showInt c.threads ++ bytes! "\n  }"),
   line 0 (bytes! "  output size = " ++ decimal c.needed), line 0 (bytes! "    given     = " ++ decimal c.given)]

/-- The last lines. -/
def EvalCall.last (c : EvalCall) : EvalEnd → List (Int × List Nat)
  | .tooMany => [line 1 (bytes! "too many tokens (" ++ decimal c.tokens ++ bytes! ") for this model (" ++
      decimal c.maxTokens ++ bytes! ")")]
  | .segmentCount => [line 1 (bytes! "segment count (" ++ decimal c.segments.length ++
      bytes! ") is not match for tokens (" ++ decimal c.tokens ++ bytes! ")")]
  | .segment s => [line 1 (bytes! "invalid segment value: " ++ decimal s ++ bytes! " (allowed = 0.." ++
      showInt (c.segmentCount - 1) ++ bytes! ")")]
  | .pooling => [line 1 (bytes! "unknown pooling type: " ++ showInt (signed32 c.pool))]
  | .dry => c.settings ++ [line 1 (bytes! "finish evaluating " ++ c.name ++ bytes! " (dry run)")]
  | .layer => c.settings ++ [line 1 (bytes! "invalid output_layer_value: " ++ showInt c.layer ++ bytes! " (expected: " ++
      showInt (-(c.layerCount : Int)) ++ bytes! ".." ++ decimal c.layerCount ++ bytes! ")")]
  | .activation => c.settings ++ [objectLine (bytes! "ggml_init") c.addr, line 0 (bytes! "  context buffer size = " ++ decimal c.size),
      line 3 (bytes! "unknown activation function")]
  | .done => c.settings ++ [objectLine (bytes! "ggml_init") c.addr, line 0 (bytes! "  context buffer size = " ++ decimal c.size),
      line 1 (bytes! "finish evaluating " ++ c.name)]

/-- What is said when the ggml context is freed, after everything else. -/
def EvalCall.freed (c : EvalCall) : EvalEnd → List (Int × List Nat)
  | .activation => [objectLine (bytes! "ggml_free") c.addr]
  | .done => [objectLine (bytes! "ggml_free") c.addr]
  | _ => []

/-- All lines. -/
def EvalCall.lines (c : EvalCall) (e : EvalEnd) : List (Int × List Nat) :=
  [line 1 (bytes! "start evaluating " ++ c.name), line 0 (bytes! "  #tokens = " ++ decimal c.tokens)] ++ (c.last e ++ c.freed e)

/-- The first check that fails decides about the end; `buffer` tells whether a buffer was given. -/
def EvalCall.Ends (c : EvalCall) (buffer : Bool) : EvalEnd → Prop
  | .tooMany => c.maxTokens < c.tokens
  | .segmentCount => c.tokens ≤ c.maxTokens ∧ c.tokens ≠ c.segments.length
  | .segment s => c.tokens ≤ c.maxTokens ∧ c.tokens = c.segments.length ∧
      ∃ a b, c.segments = a ++ s :: b ∧ c.segmentCount ≤ s ∧ ∀ x ∈ a, x < c.segmentCount
  | .pooling => c.tokens ≤ c.maxTokens ∧ c.tokens = c.segments.length ∧ (∀ x ∈ c.segments, x < c.segmentCount) ∧
      4 ≤ c.pool
  | .dry => c.tokens ≤ c.maxTokens ∧ c.tokens = c.segments.length ∧ (∀ x ∈ c.segments, x < c.segmentCount) ∧
      c.pool < 4 ∧ buffer = false
  | .layer => c.tokens ≤ c.maxTokens ∧ c.tokens = c.segments.length ∧ (∀ x ∈ c.segments, x < c.segmentCount) ∧
      c.pool < 4 ∧ buffer = true ∧ c.layerCount < c.layer.natAbs
  | .activation => c.tokens ≤ c.maxTokens ∧ c.tokens = c.segments.length ∧ (∀ x ∈ c.segments, x < c.segmentCount) ∧
      c.pool < 4 ∧ buffer = true ∧ c.layer.natAbs ≤ c.layerCount ∧ c.act ≠ 0 ∧ 0 < c.computed
  | .done => c.tokens ≤ c.maxTokens ∧ c.tokens = c.segments.length ∧ (∀ x ∈ c.segments, x < c.segmentCount) ∧
      c.pool < 4 ∧ buffer = true ∧ c.layer.natAbs ≤ c.layerCount ∧ (c.act = 0 ∨ c.computed = 0)

/-! ## Language model head -/

/-- How `eval_lm` ends. -/
inductive LmEnd where
  /-- not a whole number of hidden states -/
  | size
  /-- no buffer was given -/
  | dry
  /-- only one of two buffers was given -/
  | buffer
  /-- the model has no head -/
  | weights
  /-- activation number 3 -/
  | geluNew
  /-- everything was computed -/
  | done

/-- The return value. -/
def LmEnd.ret : LmEnd → Bool
  | .dry => true
  | .done => true
  | _ => false

/-- A call of `eval_lm` as far as the messages show it: the memory pool has `size` bytes, `addr` is the address of
the ggml context. -/
structure LmCall where
  isBert : Bool
  act : Nat
  hidden : Nat
  count : Nat
  size : Nat
  addr : Nat

/-- The name of the model. -/
def LmCall.name (c : LmCall) : List Nat := if c.isBert then bytes! "BERT" else bytes! "RoBERTa"

/-- BERT's head knows the activation function number 3, but not how to compute it. -/
def LmCall.Complains (c : LmCall) : Prop := c.isBert = true ∧ c.act = 3

instance (c : LmCall) : Decidable c.Complains := by unfold LmCall.Complains; infer_instance

/-- The lines once hidden states have been counted; the text in the first place of the format is a mistake of the
code. -/
def LmCall.shape (c : LmCall) : List (Int × List Nat) :=
  [line 0 (bytes! "  #tokens =   input_shape = {0}x{1}\n  hidden_dim = " ++ decimal (c.count / c.hidden) ++
    bytes! "\n")]

/-- The lines about the memory pool. -/
def LmCall.pool (c : LmCall) : List (Int × List Nat) :=
  (if c.Complains then [line 3 (bytes! "gelu_new is not implmented yet")] else []) ++
    [objectLine (bytes! "ggml_init") c.addr, line 0 (bytes! "  context buffer size = " ++ decimal c.size)]

/-- The last lines. -/
def LmCall.last (c : LmCall) : LmEnd → List (Int × List Nat)
  | .size => [line 1 (bytes! "invalid size of hidden_states, expected to a multiple of " ++ decimal c.hidden ++
      bytes! ", but " ++ decimal c.count)]
  | .dry => c.shape ++ [line 1 (bytes! "finish LM " ++ c.name ++ bytes! " (dry run)")]
  | .buffer => c.shape ++ [line 3 (bytes! "output buffer is not specified")]
  | .weights => c.shape ++ c.pool ++ [line 3 (bytes! "LM weights are not loaded")]
  | .geluNew => c.shape ++ c.pool ++ [line 3 (bytes! "gelu_new is not implmented yet")]
  | .done => c.shape ++ c.pool ++ [line 1 (bytes! "finish LM " ++ c.name)]

/-- What is said when the ggml context is freed, after everything else. -/
def LmCall.freed (c : LmCall) : LmEnd → List (Int × List Nat)
  | .weights => [objectLine (bytes! "ggml_free") c.addr]
  | .geluNew => [objectLine (bytes! "ggml_free") c.addr]
  | .done => [objectLine (bytes! "ggml_free") c.addr]
  | _ => []

/-- All lines. -/
def LmCall.lines (c : LmCall) (e : LmEnd) : List (Int × List Nat) :=
  line 1 (bytes! "start LM " ++ c.name) :: (c.last e ++ c.freed e)

/-- When the call ends how; `ids` and `probs` tell which buffers were given, `head` whether the model has one. -/
def LmCall.Ends (c : LmCall) (ids probs head : Bool) : LmEnd → Prop
  | .size => ¬ c.hidden ∣ c.count
  | .dry => c.hidden ∣ c.count ∧ ids = false ∧ probs = false
  | .buffer => c.hidden ∣ c.count ∧ ids ≠ probs
  | .weights => c.hidden ∣ c.count ∧ ids = true ∧ probs = true ∧ head = false
  | .geluNew => c.hidden ∣ c.count ∧ ids = true ∧ probs = true ∧ head = true ∧ c.Complains
  | .done => c.hidden ∣ c.count ∧ ids = true ∧ probs = true ∧ head = true ∧ ¬ c.Complains

/-! ## The C interface -/

/-- The reason why a context cannot be used. -/
def contextLines {β γ : Type} (model : β → Option γ) : Option β → List (Int × List Nat)
  | none => [line 2 (bytes! "ctx=nullptr")]
  | some c => if (model c).isNone then [line 3 (bytes! "model is not loaded")] else []

/-- The warning of `berts_tokenize`. -/
def countLine (count maxTokens : Nat) : Int × List Nat :=
  line 2 (bytes! "Token count (" ++ decimal count ++ bytes! ") is larger than the max_position_embeddings (" ++
    decimal maxTokens ++ bytes! "). Calling eval() with this sequence will cause a failure.")

/-- What is wrong with a refused call. -/
def EvalCall.reason (c : EvalCall) : EvalEnd → Option (List Nat)
  | .tooMany => some (bytes! "too many tokens (" ++ decimal c.tokens ++ bytes! ") for this model (" ++
      decimal c.maxTokens ++ bytes! ")")
  | .segmentCount => some (bytes! "segment count (" ++ decimal c.segments.length ++
      bytes! ") is not match for tokens (" ++ decimal c.tokens ++ bytes! ")")
  | .segment s => some (bytes! "invalid segment value: " ++ decimal s ++ bytes! " (allowed = 0.." ++
      showInt (c.segmentCount - 1) ++ bytes! ")")
  | .pooling => some (bytes! "unknown pooling type: " ++ showInt (signed32 c.pool))
  | .layer => some (bytes! "invalid output_layer_value: " ++ showInt c.layer ++ bytes! " (expected: " ++
      showInt (-(c.layerCount : Int)) ++ bytes! ".." ++ decimal c.layerCount ++ bytes! ")")
  | .activation => some (bytes! "unknown activation function")
  | .dry => none
  | .done => none

/-- What is wrong with a refused call of the head. -/
def LmCall.reason (c : LmCall) : LmEnd → Option (List Nat)
  | .size => some (bytes! "invalid size of hidden_states, expected to a multiple of " ++ decimal c.hidden ++
      bytes! ", but " ++ decimal c.count)
  | .buffer => some (bytes! "output buffer is not specified")
  | .weights => some (bytes! "LM weights are not loaded")
  | .geluNew => some (bytes! "gelu_new is not implmented yet")
  | .dry => none
  | .done => none

end Berts.Spec
