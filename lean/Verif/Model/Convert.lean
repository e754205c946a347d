import Verif.Model.Quantize

/-!
# Model of the converter (`berts/models/convert_hf_to_gguf.py`)

The source model (`transformers`) is a parameter: configuration, tokenizer, named parameters.  Strings are
represented by their UTF-8 bytes (a `str` with a lone surrogate, which `encode` refuses, is not
considered).  An exception of any kind is `none`.  The writer of the `gguf` package is modelled after its
contract: the file consists of a header, padded to the alignment, and the data of the tensors in the
order of `add_tensor`, each padded to the alignment; the directory stores the shapes reversed.  The bytes
of the header are a parameter.  The messages are modelled in `Verif.Model.ConvertLog`, the command line is
not.
-/

namespace Berts.Convert

open Berts.Vocab (ascii converterTokens writeBlobs)
open Berts.Load (Kv TInfo Gguf)
open Berts.Graph (pad)

variable {α : Type}

/-! ## What `transformers` delivers -/

/-- The fields of `model.config` that are used, convert_hf_to_gguf.py:76-85 and 183-192.  A double is
represented by its bits. -/
structure Config where
  vocabSize : Nat
  hidden : Nat
  layers : Nat
  heads : Nat
  maxPos : Nat
  interm : Nat
  act : List Nat
  eps : Nat
  typeVocab : Nat
  initRange : Nat

/-- The parts of the tokenizer that are used: the items of `get_vocab()`, the ids of the special tokens,
the options (`with_basic`, 144-147, included), the items of `bpe_ranks` if there is such an attribute. -/
structure Tokenizer where
  dict : List (List Nat × Nat)
  cls : Option Nat
  mask : Option Nat
  pad : Option Nat
  sep : Option Nat
  unk : Option Nat
  bos : Option Nat
  eos : Option Nat
  lowerCase : Option Bool
  basic : Option Bool
  chinese : Option Bool
  neverSplit : Option (List (List Nat))
  strip : Option Bool
  ranks : Option (List ((List Nat × List Nat) × Nat))

/-- An entry of a `state_dict`: key, shape, elements in row-major order. -/
structure Param (α : Type) where
  key : List Nat
  shape : List Nat
  elems : List α

/-- `model.__class__.__name__`. -/
inductive Cls where
  | bert
  | roberta
  | other
deriving DecidableEq

/-- What `load_diffusers` returns, convert_hf_to_gguf.py:53-70. -/
structure Source (α : Type) where
  cls : Cls
  name : List Nat
  config : Config
  tok : Tokenizer
  state : List (Param α)
  lm : List (Param α)

/-! ## Metadata -/

/-- `add_uint32`: packing a larger number raises. -/
def u32kv (k : String) (n : Nat) : Option (List (List Nat × Kv)) :=
  if n < 2 ^ 32 then some [(ascii k, .u32 n)] else none

/-- `if id is not None: add_uint32`. -/
def optU32 (k : String) : Option Nat → Option (List (List Nat × Kv))
  | none => some []
  | some n => u32kv k n

/-- `if b is not None: add_bool`. -/
def optBool (k : String) : Option Bool → List (List Nat × Kv)
  | none => []
  | some b => [(ascii k, .bool b)]

/-- The hyperparameters, convert_hf_to_gguf.py:102-113 and 209-233. -/
def hparamKv (arch act : Nat) (c : Config) : Option (List (List Nat × Kv)) := do
  let k1 ← u32kv "berts.bert_type" arch
  let k2 ← u32kv "berts.vocab_size" c.vocabSize
  let k3 ← u32kv "berts.hidden_dim" c.hidden
  let k4 ← u32kv "berts.n_layers" c.layers
  let k5 ← u32kv "berts.attn_heads" c.heads
  let k6 ← u32kv "berts.max_token" c.maxPos
  let k7 ← u32kv "berts.intermediate_dim" c.interm
  let k8 ← u32kv "berts.hidden_act" act
  let k9 ← u32kv "berts.segments" c.typeVocab
  pure (k1 ++ k2 ++ k3 ++ k4 ++ k5 ++ k6 ++ k7 ++ k8 ++ [(ascii "berts.layer_norm_eps", .f64 c.eps)] ++ k9 ++
    [(ascii "berts.initializer_range", .f64 c.initRange)])

/-- The special tokens of both models, convert_hf_to_gguf.py:132-141 and 256-265. -/
def specialKv (t : Tokenizer) : Option (List (List Nat × Kv)) := do
  let k1 ← optU32 "berts.cls_id" t.cls
  let k2 ← optU32 "berts.mask_id" t.mask
  let k3 ← optU32 "berts.pad_id" t.pad
  let k4 ← optU32 "berts.sep_id" t.sep
  let k5 ← optU32 "berts.unk_id" t.unk
  pure (k1 ++ k2 ++ k3 ++ k4 ++ k5)

/-- `write_bert`, convert_hf_to_gguf.py:72-176. -/
def writeBert (c : Config) (t : Tokenizer) : Option (List (List Nat × Kv)) := do
  let k1 ← hparamKv 0 0 c
  if c.act = ascii "gelu" then
    let k2 ← specialKv t
    match t.neverSplit with
    | some (_ :: _) => none
    | _ => pure (k1 ++ k2 ++ optBool "berts.do_lower_case" t.lowerCase ++ optBool "berts.do_basic_tokenize" t.basic ++
        optBool "berts.tokenize_chinese_chars" t.chinese ++ optBool "berts.strip_accent" t.strip)
  else none

/-- `str.lower` of an ASCII string. -/
def lower (s : List Nat) : List Nat := s.map fun c => if 65 ≤ c ∧ c ≤ 90 then c + 32 else c

/-- The activation of a RoBERTa model, convert_hf_to_gguf.py:216-229. -/
def actType (act : List Nat) : Option Nat :=
  if lower act = ascii "gelu" then some 0
  else if lower act = ascii "relu" then some 1
  else if lower act = ascii "silu" then some 2
  else if lower act = ascii "gelu_new" then some 3
  else none

/-- `write_roberta`, convert_hf_to_gguf.py:179-269. -/
def writeRoberta (c : Config) (t : Tokenizer) : Option (List (List Nat × Kv)) := do
  let act ← actType c.act
  let k1 ← hparamKv 1 act c
  let k2 ← specialKv t
  let k3 ← optU32 "berts.bos_id" t.bos
  let k4 ← optU32 "berts.eos_id" t.eos
  pure (k1 ++ k2 ++ k3 ++ k4)

/-! ## Tensors -/

/-- A tensor as handed to `add_tensor`: dimensions in ggml's order. -/
structure Tensor where
  name : List Nat
  ne : List Nat
  type : Nat
  data : List Nat
deriving DecidableEq

/-- `write_vocab`, convert_hf_to_gguf.py:275-314; `GGML_TYPE_I8` is 16. -/
def writeVocab (c : Config) (t : Tokenizer) : Option (List Tensor) := do
  let tokens ← converterTokens c.vocabSize t.dict
  let (ls, ds) ← writeBlobs tokens
  pure [⟨ascii "berts.vocab.size", [ls.length], 16, ls⟩, ⟨ascii "berts.vocab.data", [ds.length], 16, ds⟩]

/-- The loop of `write_merge`, convert_hf_to_gguf.py:330-337: `vocab.get` for both halves. -/
def mergeData (dict : List (List Nat × Nat)) : List ((List Nat × List Nat) × Nat) → Option (List Nat)
  | [] => some []
  | ((a, b), rank) :: rest => do
    let (_, i) ← dict.find? (·.1 == a)
    let (_, j) ← dict.find? (·.1 == b)
    let l ← mergeData dict rest
    pure (i :: j :: rank :: l)

/-- `write_merge`, convert_hf_to_gguf.py:324-341, called if the tokenizer has ranks, 386-388; numbers that
do not fit an `int32` raise; `GGML_TYPE_I32` is 18. -/
def writeMerge (t : Tokenizer) : Option (List Tensor) :=
  match t.ranks with
  | none => some []
  | some ranks => do
    let l ← mergeData t.dict ranks
    if l.all (· < 2 ^ 31) then
      pure [⟨ascii "berts.merge.data", [l.length], 18, l.flatMap (Quantize.le 4)⟩]
    else none

/-- `squeeze`. -/
def squeeze (shape : List Nat) : List Nat := shape.filter (· ≠ 1)

/-- Conversion of a parameter, convert_hf_to_gguf.py:396-408 and 440-452: `enc true` is the bytes of the
elements as float16, `enc false` as float32.  F32 is type 0, F16 type 1. -/
def convTensor (enc : Bool → List α → List Nat) (f16 : Bool) (name : List Nat) (p : Param α) : Tensor :=
  let shape := squeeze p.shape
  let q := f16 && shape.length == 2 && p.key.drop (p.key.length - 7) == ascii ".weight"
  ⟨name, shape.reverse, if q then 1 else 0, enc q p.elems⟩

/-- The parameters of the model, convert_hf_to_gguf.py:395-415. -/
def stateTensors (enc : Bool → List α → List Nat) (f16 : Bool) (state : List (Param α)) : List Tensor :=
  state.map fun p => convTensor enc f16 (ascii "berts.bert." ++ p.key) p

/-- `RoBERTa_to_BERT.get(key, key)`, convert_hf_to_gguf.py:429-437, 460. -/
def renameLm (key : List Nat) : List Nat :=
  if key = ascii "bias" then ascii "predictions.bias"
  else if key = ascii "dense.weight" then ascii "predictions.transform.dense.weight"
  else if key = ascii "dense.bias" then ascii "predictions.transform.dense.bias"
  else if key = ascii "layer_norm.weight" then ascii "predictions.transform.LayerNorm.weight"
  else if key = ascii "layer_norm.bias" then ascii "predictions.transform.LayerNorm.bias"
  else if key = ascii "decoder.weight" then ascii "predictions.decoder.weight"
  else if key = ascii "decoder.bias" then ascii "predictions.decoder.bias"
  else key

/-- The key under which a parameter of the head is written. -/
def lmKey (cls : Cls) (key : List Nat) : List Nat := if cls = .roberta then renameLm key else key

/-- The parameters of the head, convert_hf_to_gguf.py:425-465; the element type depends on the key before
renaming. -/
def lmTensors (enc : Bool → List α → List Nat) (f16 : Bool) (cls : Cls) (lm : List (Param α)) : List Tensor :=
  (lm.filter fun p => lmKey cls p.key ≠ ascii "predictions.bias").map fun p =>
    convTensor enc f16 (ascii "berts.bert." ++ lmKey cls p.key) p

/-! ## The file -/

/-- The directory written by `add_tensor`; `off` is `offset_tensor`. -/
def directory (off : Nat) : List Tensor → List TInfo
  | [] => []
  | t :: ts => ⟨t.name, t.ne.length, t.ne, t.type, t.data.length, off⟩ ::
      directory (off + pad t.data.length 32) ts

/-- The data section: each tensor padded to the alignment. -/
def dataBytes : List Tensor → List Nat
  | [] => []
  | t :: ts => t.data ++ List.replicate (pad t.data.length 32 - t.data.length) 0 ++ dataBytes ts

/-- `convert`, convert_hf_to_gguf.py:349-483: the metadata and the directory that a reader of the file
gets, and the bytes of the file.  `f16` is the negation of `--use-f32`; `header` are the bytes before the
data (the same that the reader sees, up to `dataOffset`).  Adding two tensors of the same name raises. -/
def convert (enc : Bool → List α → List Nat) (f16 : Bool) (header : List Nat) (s : Source α) :
    Option (Gguf × List Nat) := do
  let (arch, kv) ← (match s.cls with
    | .bert => do let kv ← writeBert s.config s.tok; pure ("BERT", kv)
    | .roberta => do let kv ← writeRoberta s.config s.tok; pure ("RoBERTa", kv)
    | .other => none)
  let vocab ← writeVocab s.config s.tok
  let merge ← writeMerge s.tok
  let ts := vocab ++ merge ++ stateTensors enc f16 s.state ++ lmTensors enc f16 s.cls s.lm
  if (ts.map (·.name)).Nodup then
    pure (⟨[(ascii "general.architecture", .str (ascii arch)), (ascii "general.name", .str s.name),
        (ascii "general.alignment", .u32 32)] ++ kv ++ [(ascii "general.file_type", .u32 (if f16 then 1 else 0))],
      directory 0 ts, header.length⟩, header ++ dataBytes ts)
  else none

end Berts.Convert
