import Verif.Model.Vocab

/-!
# Model of `load_keys` of the converter (convert_hf_to_gguf.py:27-41)

Characters are code points.  Python's `str.isspace` (also `\s`) and `\w` are parameters.  Reading the file and
splitting it into lines are not modelled: the lines are given.
-/

namespace Berts.Keys

open Berts.Vocab (ascii)

/-- `str.isspace` and `\w`. -/
structure Env where
  ws : Nat → Bool
  word : Nat → Bool

/-- `line.strip()`, convert_hf_to_gguf.py:34. -/
def strip (e : Env) (l : List Nat) : List Nat :=
  ((l.dropWhile e.ws).reverse.dropWhile e.ws).reverse

/-- `r.match(line)` and `m.group(1, 2)`, convert_hf_to_gguf.py:31, 37, 39.  The classes of the expression are
disjoint, so that there is nothing to backtrack: each repetition takes all it can.  `$` also matches before
a line feed at the end. -/
def matchLine (e : Env) (l : List Nat) : Option (List Nat × List Nat) :=
  if (ascii "#define").isPrefixOf l then
    let r := l.drop 7
    let s1 := r.takeWhile e.ws
    let r := r.drop s1.length
    let k := r.takeWhile e.word
    let r := r.drop k.length
    let s2 := r.takeWhile e.ws
    let r := r.drop s2.length
    if s1 = [] ∨ k = [] ∨ s2 = [] then none
    else
      match r with
      | 34 :: r =>
        let v := r.takeWhile (· != 34)
        let r := r.drop v.length
        if v = [] then none
        else if r = [34] ∨ r = [34, 10] then some (k, v) else none
      | _ => none
  else none

/-- `result[key] = val` on a dictionary in the order of insertion, convert_hf_to_gguf.py:40. -/
def setKey (d : List (List Nat × List Nat)) (k v : List Nat) : List (List Nat × List Nat) :=
  if d.any (·.1 == k) then d.map (fun p => if p.1 == k then (k, v) else p) else d ++ [(k, v)]

/-- The loop of `load_keys`, convert_hf_to_gguf.py:33-40; `none` is the failed assertion. -/
def loadKeys (e : Env) : List (List Nat × List Nat) → List (List Nat) → Option (List (List Nat × List Nat))
  | d, [] => some d
  | d, l :: ls =>
    let line := strip e l
    if !(ascii "#define").isPrefixOf line then loadKeys e d ls
    else
      match matchLine e line with
      | none => none
      | some (k, v) => loadKeys e (setKey d k v) ls

/-- `K[name]`: the value, or `KeyError`. -/
def get (d : List (List Nat × List Nat)) (k : List Nat) : Option (List Nat) := (d.find? (·.1 == k)).map (·.2)

/-- The lines of keys.h (1-95) that are not empty. -/
def header : List String :=
  ["#pragma once",
    "//",
    "// general variables of BERT",
    "//",
    "//",
    "// config.json",
    "//",
    "// type: u32 [bert_type]",
    "#define BERTS_KEY_HPARAM_BERT_TYPE \"berts.bert_type\"",
    "// type: u32",
    "#define BERTS_KEY_HPARAM_VOCAB_SIZE \"berts.vocab_size\"",
    "// type: u32",
    "#define BERTS_KEY_HPARAM_HIDDEN_DIM \"berts.hidden_dim\"",
    "// type: u32",
    "#define BERTS_KEY_HPARAM_N_LAYERS \"berts.n_layers\"",
    "// type: u32",
    "#define BERTS_KEY_HPARAM_ATTN_HEADS \"berts.attn_heads\"",
    "// type: u32",
    "#define BERTS_KEY_HPARAM_MAX_TOKENS \"berts.max_token\"",
    "// type: u32",
    "#define BERTS_KEY_HPARAM_INTERMEDIATE_DIM \"berts.intermediate_dim\"",
    "// type: u32 [hidden_act]",
    "#define BERTS_KEY_HPARAM_HIDDEN_ACT \"berts.hidden_act\"",
    "// type: f64 *optional, defaults to `1e-12`",
    "#define BERTS_KEY_HPARAM_LN_EPS \"berts.layer_norm_eps\"",
    "// type: u32 *optional, defaults to `2`",
    "#define BERTS_KEY_HPARAM_SEGM_COUNT \"berts.segments\"",
    "// type: f64 *optional, defaults to `0.02`",
    "#define BERTS_KEY_HPARAM_INIT_RANGE \"berts.initializer_range\"",
    "//",
    "// tokenizer_config.json",
    "//",
    "// type: u32 *optional, defaults to id of [CLS] or <s>",
    "#define BERTS_KEY_TOKENIZER_CLS_ID \"berts.cls_id\"",
    "// type: u32 *optional, defaults to id of [MASK] or <mask>",
    "#define BERTS_KEY_TOKENIZER_MASK_ID \"berts.mask_id\"",
    "// type: u32 *optional, defaults to id of [PAD] or <pad>",
    "#define BERTS_KEY_TOKENIZER_PAD_ID \"berts.pad_id\"",
    "// type: u32 *optional, defaults to id of [SEP] or </s>",
    "#define BERTS_KEY_TOKENIZER_SEP_ID \"berts.sep_id\"",
    "// type: u32 *optional, defaults to id of [UNK] or <unk>",
    "#define BERTS_KEY_TOKENIZER_UNK_ID \"berts.unk_id\"",
    "// type: u32 *optional, defaults to id of cls token",
    "#define BERTS_KEY_TOKENIZER_BOS_ID \"berts.bos_id\"",
    "// type: u32 *optional, defaults to id of sep token",
    "#define BERTS_KEY_TOKENIZER_EOS_ID \"berts.eos_id\"",
    "// type: bool *optional, defaults to `true`",
    "#define BERTS_KEY_TOKENIZER_DO_LOWER_CASE \"berts.do_lower_case\"",
    "// type: bool *optional, defaults to `true`",
    "#define BERTS_KEY_TOKENIZER_DO_BASIC_TOKENIZE \"berts.do_basic_tokenize\"",
    "// type: [i32] *optional",
    "#define BERTS_KEY_TOKENIZER_NEVER_SPLIT \"berts.never_split\"",
    "// type: bool *optional, defaults to `true`",
    "#define BERTS_KEY_TOKENIZER_CHINESE_CHARS \"berts.tokenize_chinese_chars\"",
    "// type: bool *optional, defaults to the value of `BERTS_KEY_TOKENIZER_DO_LOWER_CASE`",
    "#define BERTS_KEY_TOKENIZER_STRIP_ACCENT \"berts.strip_accent\"",
    "//",
    "// other global vars",
    "//",
    "// type: [i32]",
    "#define BERTS_KEY_ALL_VOCAB_SIZE \"berts.vocab.size\"",
    "// type: [u8]",
    "#define BERTS_KEY_ALL_VOCAB_DATA \"berts.vocab.data\"",
    "// type: [i32]",
    "#define BERTS_KEY_ALL_MERGE_DATA \"berts.merge.data\""]

end Berts.Keys
