import Verif.Spec.Loaded
import Verif.Spec.Roberta
import Verif.Model.Convert

/-!
# What a convertible source model is, and which tensors its parameters stand for

Written against the checkpoint (`state_dict` keys and torch shapes, configuration, tokenizer).
-/

namespace Berts.Convert

open Berts.Vocab (ascii decimal unusedName)
open Berts.Load (LT Hp World Gguf needed)
open Berts.Graph (T)
open Berts.Unicode (utf8Encode utf16Encode)
open Berts.Spec (IsScalar)

variable {α : Type}

/-! ## Parameters -/

/-- Parameters outside the encoder layers, with their torch shapes. -/
def baseParams (c : Config) : List (String × List Nat) :=
  [("embeddings.word_embeddings.weight", [c.vocabSize, c.hidden]),
    ("embeddings.position_embeddings.weight", [c.maxPos, c.hidden]),
    ("embeddings.token_type_embeddings.weight", [c.typeVocab, c.hidden]),
    ("embeddings.LayerNorm.weight", [c.hidden]), ("embeddings.LayerNorm.bias", [c.hidden]),
    ("pooler.dense.weight", [c.hidden, c.hidden]), ("pooler.dense.bias", [c.hidden])]

/-- Parameters of an encoder layer, with their torch shapes. -/
def layerParams (c : Config) : List (String × List Nat) :=
  [("attention.self.query.weight", [c.hidden, c.hidden]), ("attention.self.query.bias", [c.hidden]),
    ("attention.self.key.weight", [c.hidden, c.hidden]), ("attention.self.key.bias", [c.hidden]),
    ("attention.self.value.weight", [c.hidden, c.hidden]), ("attention.self.value.bias", [c.hidden]),
    ("attention.output.dense.weight", [c.hidden, c.hidden]), ("attention.output.dense.bias", [c.hidden]),
    ("attention.output.LayerNorm.weight", [c.hidden]), ("attention.output.LayerNorm.bias", [c.hidden]),
    ("intermediate.dense.weight", [c.interm, c.hidden]), ("intermediate.dense.bias", [c.interm]),
    ("output.dense.weight", [c.hidden, c.interm]), ("output.dense.bias", [c.hidden]),
    ("output.LayerNorm.weight", [c.hidden]), ("output.LayerNorm.bias", [c.hidden])]

/-- There is a parameter of that name and shape. -/
def HasParam (st : List (Param α)) (key shape : List Nat) : Prop := ∃ p ∈ st, p.key = key ∧ p.shape = shape

/-- A vector or a matrix whose rows have at least two elements. -/
def Tame (shape : List Nat) : Prop :=
  (∃ n, 2 ≤ n ∧ shape = [n]) ∨ ∃ a b, 1 ≤ a ∧ 2 ≤ b ∧ shape = [a, b]

/-- The `state_dict` of a BERT or RoBERTa model: distinct keys, all parameters with the shapes of the
configuration; further entries (such as `embeddings.position_ids`) are allowed. -/
structure StateOk (c : Config) (st : List (Param α)) : Prop where
  distinct : (st.map (·.key)).Nodup
  base : ∀ p ∈ baseParams c, HasParam st (ascii p.1) p.2
  layers : ∀ i, i < c.layers → ∀ p ∈ layerParams c,
    HasParam st (ascii "encoder.layer." ++ decimal i ++ ascii ("." ++ p.1)) p.2
  short : ∀ p ∈ st, p.key.length ≤ 52
  place : ∀ p ∈ st, ∃ r ∈ ["embeddings.", "encoder.", "pooler."], ascii r <+: p.key
  tame : ∀ p ∈ st, Tame p.shape

/-- Keys of the parameters of the language-model head, and the names they get in the file after
`berts.bert.predictions.`. -/
def headNames : Cls → List (String × String)
  | .bert => [("predictions.transform.dense.weight", "transform.dense.weight"),
      ("predictions.transform.dense.bias", "transform.dense.bias"),
      ("predictions.transform.LayerNorm.weight", "transform.LayerNorm.weight"),
      ("predictions.transform.LayerNorm.bias", "transform.LayerNorm.bias"),
      ("predictions.decoder.weight", "decoder.weight"), ("predictions.decoder.bias", "decoder.bias")]
  | .roberta => [("dense.weight", "transform.dense.weight"), ("dense.bias", "transform.dense.bias"),
      ("layer_norm.weight", "transform.LayerNorm.weight"), ("layer_norm.bias", "transform.LayerNorm.bias"),
      ("decoder.weight", "decoder.weight"), ("decoder.bias", "decoder.bias")]
  | .other => []

/-- The key of the second name of the decoder's bias. -/
def headBias : Cls → String
  | .bert => "predictions.bias"
  | _ => "bias"

/-- The `state_dict` of a language-model head. -/
structure HeadOk (cls : Cls) (lm : List (Param α)) : Prop where
  distinct : (lm.map (·.key)).Nodup
  keys : ∀ p ∈ lm, p.key = ascii (headBias cls) ∨ ∃ k ∈ headNames cls, p.key = ascii k.1
  tame : ∀ p ∈ lm, Tame p.shape

/-- Parameters of the head by the names they get in the file, with their torch shapes. -/
def headShapes (c : Config) : List (String × List Nat) :=
  [("transform.dense.weight", [c.hidden, c.hidden]), ("transform.dense.bias", [c.hidden]),
    ("transform.LayerNorm.weight", [c.hidden]), ("transform.LayerNorm.bias", [c.hidden]),
    ("decoder.weight", [c.vocabSize, c.hidden]), ("decoder.bias", [c.vocabSize])]

/-- The head is complete. -/
def HasHead (cls : Cls) (c : Config) (lm : List (Param α)) : Prop :=
  ∀ k ∈ headNames cls, ∀ shape, (k.2, shape) ∈ headShapes c → HasParam lm (ascii k.1) shape

/-! ## Configuration and tokenizer -/

/-- The numbers fit, the heads divide the hidden size. -/
structure ConfigOk (c : Config) : Prop where
  vocab : c.vocabSize ≤ 2 ^ 31
  hidden : 2 ≤ c.hidden ∧ c.hidden < 2 ^ 32
  layers : c.layers < 2 ^ 32
  heads : c.heads ∣ c.hidden
  maxPos : c.maxPos < 2 ^ 31
  interm : 2 ≤ c.interm ∧ c.interm < 2 ^ 32
  types : 1 ≤ c.typeVocab ∧ c.typeVocab ≤ 2 ^ 31
  act : c.act = ascii "gelu"

/-- A vocabulary that can be written: distinct tokens of 1 to 256 bytes, distinct ids in range. -/
structure DictOk (c : Config) (dict : List (List Nat × Nat)) : Prop where
  tokens : (dict.map (·.1)).Nodup
  ids : (dict.map (·.2)).Nodup
  range : ∀ d ∈ dict, d.2 < c.vocabSize
  sizes : ∀ d ∈ dict, d.1 ≠ [] ∧ d.1.length ≤ 256

/-- An id of the tokenizer is given and in range. -/
def IdOk (c : Config) (o : Option Nat) : Prop := ∃ i, o = some i ∧ i < c.vocabSize

/-- The tokenizer of a BERT model. -/
structure BertTok (c : Config) (t : Tokenizer) : Prop where
  dict : DictOk c t.dict
  ids : ∀ o ∈ [t.cls, t.mask, t.pad, t.sep, t.unk], IdOk c o
  never : t.neverSplit = none ∨ t.neverSplit = some []
  ranks : t.ranks = none

/-- The tokenizer of a RoBERTa model: tokens are text, the unknown token is ASCII, both halves of each
merge and the merged token are in the vocabulary. -/
structure RobertaTok (c : Config) (t : Tokenizer) (rs : List ((List Nat × List Nat) × Nat)) : Prop where
  dict : DictOk c t.dict
  ids : ∀ o ∈ [t.cls, t.mask, t.pad, t.sep, t.unk, t.bos, t.eos], IdOk c o
  text : ∀ d ∈ t.dict, ∃ cs, (∀ x ∈ cs, IsScalar x) ∧ d.1 = utf8Encode cs
  unk : ∃ d ∈ t.dict, t.unk = some d.2 ∧ ∀ b ∈ d.1, b < 0x80
  ranks : t.ranks = some rs
  merges : ∀ r ∈ rs, ∀ tok ∈ [r.1.1, r.1.2, r.1.1 ++ r.1.2], tok ∈ t.dict.map (·.1)
  rank : ∀ r ∈ rs, r.2 < 2 ^ 31

/-! ## Tensors -/

/-- Two dimensions of at least two. -/
def wide : List Nat → Bool
  | [a, b] => decide (2 ≤ a) && decide (2 ≤ b)
  | _ => false

/-- The parameter is stored as float16. -/
def Half (f16 : Bool) (p : Param α) : Bool := f16 && wide p.shape && (ascii ".weight").isSuffixOf p.key

/-- The tensor a parameter stands for: rows of the length of the last dimension, elements rounded to the
stored type (`rnd true`: float16, `rnd false`: float32). -/
def tensorFor (rnd : Bool → α → α) (dflt : α) (f16 : Bool) (p : Param α) : T α :=
  let n0 := p.shape.getLastD 1
  let n1 := p.shape.dropLast.headD 1
  ⟨n0, n1, 1, 1, if Half f16 p then 2 else 4, true,
    fun i j k l => (p.elems.map (rnd (Half f16 p))).getD (i + n0 * (j + n1 * (k + l))) dflt⟩

/-- The tensors of the source model by the names that the loader uses. -/
def sourceAt (rnd : Bool → α → α) (dflt : α) (f16 : Bool) (s : Source α) (name : List Nat) : Option (T α) :=
  ((s.state.find? fun p => ascii "berts.bert." ++ p.key == name).or
    (s.lm.find? fun p => (headNames s.cls).any fun k =>
      p.key == ascii k.1 && name == ascii ("berts.bert.predictions." ++ k.2))).map (tensorFor rnd dflt f16)

/-- How ggml sees a tensor, given the decoding of the two element types. -/
def decoded (dec : Nat → List Nat → List α) (dflt : α) (t : LT) : T α :=
  ⟨t.ne.getD 0 1, t.ne.getD 1 1, t.ne.getD 2 1, t.ne.getD 3 1, if t.type = 1 then 2 else 4, true,
    fun i j k l => (dec t.type t.data).getD
      (i + t.ne.getD 0 1 * (j + t.ne.getD 1 1 * (k + t.ne.getD 2 1 * l))) dflt⟩

/-- Decoding what was encoded gives the rounded elements. -/
def Codec (enc : Bool → List α → List Nat) (dec : Nat → List Nat → List α) (rnd : Bool → α → α) : Prop :=
  ∀ q xs, dec (if q then 1 else 0) (enc q xs) = xs.map (rnd q)

/-! ## The loaded model -/

/-- The tokens in the file agree with the dictionary; other ids get made-up names. -/
structure Tokens (c : Config) (dict : List (List Nat × Nat)) (ts : List (List Nat)) : Prop where
  length : ts.length = c.vocabSize
  nodup : ts.Nodup
  given : ∀ t i, (t, i) ∈ dict → ts[i]? = some t
  other : ∀ i, i < c.vocabSize → (∀ t, (t, i) ∉ dict) → ∃ k, ts[i]? = some (unusedName k) ∧ unusedName k ∉ dict.map (·.1)
  sizes : ∀ t ∈ ts, t ≠ [] ∧ t.length ≤ 256

/-- The hyperparameters of a converted model. -/
def hpOf (arch : Nat) (c : Config) : Hp :=
  ⟨arch, ⟨c.vocabSize, c.hidden, c.layers, c.heads, c.maxPos, c.interm, c.typeVocab, 0, c.eps⟩, c.initRange⟩

/-- The tokenizer options of a loaded BERT model: those of the source; the remaining steps of basic
tokenization are all on or all off, except that blanks always separate words. -/
structure OptionsOk (t : Tokenizer) (o : Bert.TokInfo) : Prop where
  lower : o.lowerCase = t.lowerCase.getD true
  cjk : o.addCjk = t.chinese.getD true
  strip : o.stripAcc = t.strip.getD (t.lowerCase.getD true)
  basic : o.removeNull = t.basic.getD true ∧ o.removeRepl = t.basic.getD true ∧ o.removeCtrl = t.basic.getD true ∧
    o.splitPunc = t.basic.getD true ∧ o.normWs = true

/-- What the outside must be like for a file to be loaded: it is the file that the converter wrote, ggml has
the memory, and its elements are decoded. -/
structure Opens (w : World α) (g : Gguf) (bytes : List Nat) (dec : Nat → List Nat → List α) (dflt : α) : Prop where
  gguf : w.gguf = some g
  file : w.file = some bytes
  conv : w.conv = decoded dec dflt
  pool : w.poolInit (needed w.gg g.dir) = true
  align : 0 < w.gg.align ∧ w.gg.tensorSize % w.gg.align = 0
  fits : needed w.gg g.dir < 2 ^ 64 ∧ bytes.length < 2 ^ 63

/-- The merge table of the tokenizer (`bpe_ranks`), on UTF-16 strings. -/
def RankTable (rs : List ((List Nat × List Nat) × Nat)) (tbl : Spec.MergeTable (List Nat)) : Prop :=
  ∀ s t r u, tbl s t = some (r, u) ↔ ∃ a b, (∀ c ∈ a, IsScalar c) ∧ (∀ c ∈ b, IsScalar c) ∧
    ((utf8Encode a, utf8Encode b), r) ∈ rs ∧ s = utf16Encode a ∧ t = utf16Encode b ∧ u = s ++ t

/-- The items of `bpe_ranks`: a dictionary, listed by increasing rank (as `transformers` builds it). -/
structure RanksOk (rs : List ((List Nat × List Nat) × Nat)) : Prop where
  keys : (rs.map (·.1)).Nodup
  increasing : rs.Pairwise fun a b => a.2 < b.2

end Berts.Convert
