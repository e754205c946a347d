import Verif.Model.Log
import Verif.Model.Vocab

/-!
# Formatted messages

`berts::fmt::fmt` (fmt.hpp:12-20) is `std::vformat`; the grammar of formats is that of the C++ standard
([format.string]) without nested fields.  All calls of the library with arguments are listed.
-/

namespace Berts.Format

open Berts.Vocab Berts.Log

/-- `bytes! "ab"` is the list `[97, 98]`. -/
macro "bytes! " s:str : term => do
  let ns := s.getString.toList.map fun c => Lean.Syntax.mkNumLit (toString c.toNat)
  `(([$(ns.toArray),*] : List Nat))

/-- Part of a format: a character, or the argument with a number, shown according to a specification. -/
inductive Part where
  | lit (c : Nat)
  | field (i : Nat) (spec : List Nat)
deriving DecidableEq, Repr

/-- How the fields so far were numbered: not at all, automatically (the next number), or by hand. -/
inductive Numbering where
  | open_
  | auto (next : Nat)
  | manual
deriving DecidableEq, Repr

/-- The value of a number without leading zeros. -/
def argNumber (ds : List Nat) : Option Nat :=
  if ds.all (fun d => 48 ≤ d && d ≤ 57) && (ds.length == 1 || ds.head? != some 48) then
    some (ds.foldl (fun n d => 10 * n + (d - 48)) 0)
  else none

/-- A replacement field with the text `body` between its braces: number of the argument, specification, and the
numbering afterwards.  Mixing the two ways of numbering is an error. -/
def fieldOf (num : Numbering) (body : List Nat) : Option (Nat × List Nat × Numbering) :=
  let id := body.takeWhile (· != 58)
  let spec := (body.dropWhile (· != 58)).drop 1
  if id = [] then
    match num with
    | .open_ => some (0, spec, .auto 1)
    | .auto n => some (n, spec, .auto (n + 1))
    | .manual => none
  else
    match argNumber id, num with
    | none, _ => none
    | _, .auto _ => none
    | some i, _ => some (i, spec, .manual)

/-- Where the reader of a format is: in the text, after `{`, in a field, after `}`. -/
inductive Pos where
  | text
  | opened
  | inside (body : List Nat)
  | closed
deriving DecidableEq, Repr

/-- The parts of a format; `none` is an ill-formed format (`std::format_error`). -/
def parse : Pos → Numbering → List Nat → Option (List Part)
  | .text, _, [] => some []
  | .text, num, c :: r =>
    if c = 123 then parse .opened num r
    else if c = 125 then parse .closed num r
    else (parse .text num r).map (Part.lit c :: ·)
  | .opened, _, [] => none
  | .opened, num, c :: r =>
    if c = 123 then (parse .text num r).map (Part.lit 123 :: ·)
    else if c = 125 then
      match fieldOf num [] with
      | none => none
      | some (i, spec, num) => (parse .text num r).map (Part.field i spec :: ·)
    else parse (.inside [c]) num r
  | .inside _, _, [] => none
  | .inside body, num, c :: r =>
    if c = 123 then none
    else if c = 125 then
      match fieldOf num body with
      | none => none
      | some (i, spec, num) => (parse .text num r).map (Part.field i spec :: ·)
    else parse (.inside (body ++ [c])) num r
  | .closed, _, [] => none
  | .closed, num, c :: r => if c = 125 then (parse .text num r).map (Part.lit 125 :: ·) else none

/-- An argument: its text for a specification, or `none` if the specification does not fit its type. -/
abbrev Arg := List Nat → Option (List Nat)

/-- A string as argument of a field without specification (other specifications are not modelled for strings). -/
def textArg (t : List Nat) : Arg := fun spec => if spec = [] then some t else none

/-- Lower-case hexadecimal digit. -/
def hexDigit (n : Nat) : Nat := if n % 16 < 10 then 48 + n % 16 else 87 + n % 16

/-- A number below 65536 as argument of `{}` or `{:04x}`. -/
def numArg (n : Nat) : Arg := fun spec =>
  if spec = [] then some (decimal n)
  else if spec = bytes! "04x" then some [hexDigit (n / 4096), hexDigit (n / 256), hexDigit (n / 16), hexDigit n]
  else none

/-- The message; `none` if an argument is missing or does not fit. -/
def render (args : List Arg) : List Part → Option (List Nat)
  | [] => some []
  | .lit c :: ps => (render args ps).map (c :: ·)
  | .field i spec :: ps =>
    match args[i]? with
    | none => none
    | some a =>
      match a spec with
      | none => none
      | some t => (render args ps).map (t ++ ·)

/-- `std::vformat`; `none` is an exception. -/
def vformat (fmt : List Nat) (args : List Arg) : Option (List Nat) :=
  match parse .text .open_ fmt with
  | none => none
  | some parts => render args parts

/-- `berts::fmt::fmt`, fmt.hpp:12-20.  Nothing in the library catches the exception. -/
def fmt (f : List Nat) (args : List Arg) : Res (List Nat) :=
  match vformat f args with
  | none => .abort
  | some m => .ok m

/-- A call with arguments: where it is, the log function (`none`: `fmt` itself), the format, the number of
arguments. -/
structure Site where
  file : String
  line : Nat
  sev : Option Sev
  fmt : List Nat
  argc : Nat
deriving DecidableEq

/-- A call and its effect on the log, log.hpp:38-64. -/
def Site.call (s : Site) (st : St) (args : List Arg) : Res St :=
  match s.sev with
  | some v => formatted st v (Format.fmt s.fmt args)
  | none => (Format.fmt s.fmt args).bind fun _ => .ok st

/-- All calls of `log::debug`, `log::info`, `log::warn`, `log::error` and `berts::fmt::fmt` with arguments in
berts.cpp and models/ (the file and line of each are given); those in comments and `#if 0` are left out, and
bert.cpp:292, whose format is a key (see `C95_key`). -/
def sites : List Site := [
   ⟨"berts.cpp", 189, some .warn, bytes! "Token count ({}) is larger than the max_position_embeddings ({}). Calling eval() with this sequence will cause a failure.", 2⟩,
   ⟨"bert.cpp", 122, some .info, bytes! "  cls_id:  {} ({})", 2⟩,
   ⟨"bert.cpp", 123, some .info, bytes! "  mask_id: {} ({})", 2⟩,
   ⟨"bert.cpp", 124, some .info, bytes! "  pad_id:  {} ({})", 2⟩,
   ⟨"bert.cpp", 125, some .info, bytes! "  sep_id:  {} ({})", 2⟩,
   ⟨"bert.cpp", 126, some .info, bytes! "  unk_id:  {} ({})", 2⟩,
   ⟨"bert.cpp", 176, some .info, bytes! "  do_basic_tokenize = {}", 1⟩,
   ⟨"bert.cpp", 177, some .info, bytes! "  tokenizer_info {{\n    bool normalize = {:<5s};                 // ignored, always normalized with NFC\n    bool remove_replacement_char = {:<5s};   // remove U+FFFD\n    bool remove_null_char = {:<5s};          // remove U+0000\n    bool remove_control_char = {:<5s};       // remove control chars (category C*)\n    bool normalize_whitespaces = {:<5s};     // convert all whitespaces to a normal space (U+0020)\n    bool add_space_around_cjk_char = {:<5s}; // add space around all CJK characters\n    bool do_lower_case = {:<5s};             // force input to be lowercase letters\n    bool strip_accents = {:<5s};             // remove all accent chars\n    bool split_on_punc = {:<5s};             // split words at a punctuation\n  }}", 9⟩,
   ⟨"bert.cpp", 257, some .error, bytes! "failed to read tensor: {}", 1⟩,
   ⟨"bert.cpp", 259, some .debug, bytes! "  store {}", 1⟩,
   ⟨"bert.cpp", 348, some .info, bytes! "  unused {} {}", 2⟩,
   ⟨"bert.cpp", 360, some .info, bytes! "  skipped {} {}", 2⟩,
   ⟨"bert.cpp", 417, none, bytes! "invalid sequence found: lone {} surrogate {:04x}", 2⟩,
   ⟨"bert.cpp", 588, some .debug, bytes! "  token: {} ({})", 2⟩,
   ⟨"bert.cpp", 594, some .warn, bytes! "  unknown token: {}", 1⟩,
   ⟨"bert.cpp", 785, some .error, bytes! "unknown pooling type: {}", 1⟩,
   ⟨"bert.cpp", 1031, some .error, bytes! "unknown pooling type: {}", 1⟩,
   ⟨"bpe.cpp", 172, some .error, bytes! "token id {} is not found in vocab", 1⟩,
   ⟨"bpe.cpp", 177, some .error, bytes! "token id {} is not found in vocab", 1⟩,
   ⟨"bpe.cpp", 189, some .error, bytes! "merged token {} is not found in vocab", 1⟩,
   ⟨"bpe.cpp", 210, some .error, bytes! "token {} is not found in vocab", 1⟩,
   ⟨"bpe.cpp", 216, some .error, bytes! "token {} is not found in vocab", 1⟩,
   ⟨"bpe.cpp", 236, some .debug, bytes! "  text = \"{}\"", 1⟩,
   ⟨"bpe.cpp", 301, some .debug, bytes! "  id = {}", 1⟩,
   ⟨"bpe.cpp", 373, some .debug, bytes! "  * merge ({}, {}) -> {}", 3⟩,
   ⟨"ggml.hpp", 58, some .error, bytes! "size mismatch ({}): expected = {}, but {}", 3⟩,
   ⟨"gguf.cpp", 46, some .error, bytes! "unrecognized file type: {0}", 1⟩,
   ⟨"gguf.cpp", 82, some .info, bytes! "model metadata\n  arch: {0}\n  quantization_version: {1}\n  alignment: {2}\n  name: {3}\n  author: {4}\n  url: {5}\n  description: {6}\n  license: {7}\n  type: {8}", 9⟩,
   ⟨"gguf.cpp", 106, some .info, bytes! "gguf info\n  n_tensors: {}\n  n_kv: {}", 2⟩,
   ⟨"gguf.cpp", 116, some .debug, bytes! "  key {0}: {1}", 2⟩,
   ⟨"gguf.cpp", 135, some .debug, bytes! "  tensor {}\n    name: {} ({})\n    n_dims: {}\n    size: {}\n    padded_size: {}\n    offset: {}", 7⟩,
   ⟨"gguf.cpp", 152, some .info, bytes! "  model_size: {} ({} MiB)", 2⟩,
   ⟨"gguf.cpp", 162, some .info, bytes! "loading model: {}", 1⟩,
   ⟨"gguf.cpp", 171, some .error, bytes! "fail to load gguf file: {}", 1⟩,
   ⟨"gguf.cpp", 198, some .debug, bytes! "  load {} {}", 2⟩,
   ⟨"gguf.cpp", 227, some .info, bytes! "hparams\n  arch: {}\n  vocab_size: {}\n  hidden_dim: {}\n  n_layers: {}\n  attn_heads: {}\n  max_tokens: {}\n  intermediate_dim: {}\n  segments: {}\n  hidden_act: {}\n  eps: {}\n  init_range: {}", 11⟩,
   ⟨"gguf.cpp", 264, some .error, bytes! "unknown hidden_act: {}", 1⟩,
   ⟨"gguf.cpp", 282, some .error, bytes! "unknown bert_type: {}", 1⟩,
   ⟨"gguf.hpp", 50, some .error, bytes! "key {0} is not found in gguf", 1⟩,
   ⟨"model_base.hpp", 74, some .warn, bytes! "{} is not defined; use {} instead", 2⟩,
   ⟨"model_base.hpp", 83, some .warn, bytes! "{} is not defined; use {} instead", 2⟩,
   ⟨"model_base.hpp", 97, some .error, bytes! "{} does not exist in vocab", 1⟩,
   ⟨"model_base.hpp", 131, some .error, bytes! "token id {} is not found (max={})", 2⟩,
   ⟨"model_base.hpp", 140, some .error, bytes! "token {} is not found", 1⟩,
   ⟨"model_base.hpp", 148, some .warn, bytes! "  token {} already exists", 1⟩,
   ⟨"model_base.hpp", 203, some .error, bytes! "key {} is not found", 1⟩,
   ⟨"model_base.hpp", 208, some .error, bytes! "key {} is not found", 1⟩,
   ⟨"model_base.hpp", 213, some .error, bytes! "invalid shape: vocab_size={}, vocab_data={}", 2⟩,
   ⟨"model_base.hpp", 218, some .error, bytes! "invalid type of vocab_size: {}", 1⟩,
   ⟨"model_base.hpp", 223, some .error, bytes! "invalid type of vocab_data: {}", 1⟩,
   ⟨"model_base.hpp", 227, some .debug, bytes! "  vocab count: {}", 1⟩,
   ⟨"model_base.hpp", 242, some .error, bytes! "failed to add token: {}", 1⟩,
   ⟨"model_berts.hpp", 59, some .info, bytes! "start evaluating {}", 1⟩,
   ⟨"model_berts.hpp", 74, some .debug, bytes! "  #tokens = {}", 1⟩,
   ⟨"model_berts.hpp", 77, some .error, bytes! "too many tokens ({}) for this model ({})", 2⟩,
   ⟨"model_berts.hpp", 82, some .error, bytes! "segment count ({}) is not match for tokens ({})", 2⟩,
   ⟨"model_berts.hpp", 88, some .error, bytes! "invalid segment value: {} (allowed = 0..{})", 2⟩,
   ⟨"model_berts.hpp", 102, some .error, bytes! "unknown pooling type: {}", 1⟩,
   ⟨"model_berts.hpp", 107, some .info, bytes! "  berts_eval_info {{\n    output_layer = {};\n    pool_type = {};\n    n_threads = {}\n  }}", 3⟩,
   ⟨"model_berts.hpp", 116, some .debug, bytes! "  output size = {}", 1⟩,
   ⟨"model_berts.hpp", 117, some .debug, bytes! "    given     = {}", 1⟩,
   ⟨"model_berts.hpp", 123, some .info, bytes! "finish evaluating {} (dry run)", 1⟩,
   ⟨"model_berts.hpp", 131, some .error, bytes! "invalid output_layer_value: {} (expected: {}..{})", 3⟩,
   ⟨"model_berts.hpp", 137, some .error, bytes! "invalid output_layer_value: {} (expected: {}..{})", 3⟩,
   ⟨"model_berts.hpp", 156, some .debug, bytes! "  context buffer size = {}", 1⟩,
   ⟨"model_berts.hpp", 201, some .info, bytes! "finish evaluating {}", 1⟩,
   ⟨"model_berts.hpp", 213, some .info, bytes! "start LM {}", 1⟩,
   ⟨"model_berts.hpp", 230, some .error, bytes! "invalid size of hidden_states, expected to a multiple of {}, but {}", 2⟩,
   ⟨"model_berts.hpp", 237, some .debug, bytes! "  #tokens = {0}\n  hidden_dim = {1}\n", 3⟩,
   ⟨"model_berts.hpp", 255, some .info, bytes! "finish LM {} (dry run)", 1⟩,
   ⟨"model_berts.hpp", 276, some .debug, bytes! "  context buffer size = {}", 1⟩,
   ⟨"model_berts.hpp", 344, some .info, bytes! "finish LM {}", 1⟩,
   ⟨"quantize.cpp", 57, some .error, bytes! "input type must be f16 or f32, but {}", 1⟩,
   ⟨"quantize.cpp", 79, some .error, bytes! "fail to load model: {}", 1⟩,
   ⟨"quantize.cpp", 83, some .info, bytes! "model loaded: {}", 1⟩,
   ⟨"quantize.cpp", 96, some .error, bytes! "failed to open {}", 1⟩,
   ⟨"quantize.cpp", 166, some .info, bytes! "{}:\n  quantized = {}\n  n_dims = {}\n  size = {:.1f} KiB -> {:.1f} KiB", 5⟩,
   ⟨"quantize.cpp", 194, none, bytes! "========================================\noriginal size  = {} ({:.1f} MiB)\nquantized size = {} ({:.1f} MiB)\n", 4⟩,
   ⟨"quantize.cpp", 208, none, bytes! "  bin #{}: {:.3f}\n", 2⟩,
   ⟨"roberta.cpp", 165, some .info, bytes! "  bos_id:  {} ({})", 2⟩,
   ⟨"roberta.cpp", 166, some .info, bytes! "  eos_id:  {} ({})", 2⟩,
   ⟨"roberta.cpp", 167, some .info, bytes! "  cls_id:  {} ({})", 2⟩,
   ⟨"roberta.cpp", 168, some .info, bytes! "  mask_id: {} ({})", 2⟩,
   ⟨"roberta.cpp", 169, some .info, bytes! "  pad_id:  {} ({})", 2⟩,
   ⟨"roberta.cpp", 170, some .info, bytes! "  sep_id:  {} ({})", 2⟩,
   ⟨"roberta.cpp", 171, some .info, bytes! "  unk_id:  {} ({})", 2⟩,
   ⟨"roberta.cpp", 208, some .error, bytes! "merge data ({}) is not found", 1⟩,
   ⟨"roberta.cpp", 213, some .error, bytes! "invalid shape: merge_data={}", 1⟩,
   ⟨"roberta.cpp", 218, some .error, bytes! "invalid type of merge_data: {}", 1⟩,
   ⟨"roberta.cpp", 223, some .error, bytes! "invalid size of merge_data: {}", 1⟩,
   ⟨"roberta.cpp", 228, some .debug, bytes! "  merge count: {}", 1⟩,
   ⟨"roberta.cpp", 290, some .debug, bytes! "    \"{}\" {}", 2⟩,
   ⟨"roberta.cpp", 318, some .error, bytes! "unknown special token: \"{}\"", 1⟩,
   ⟨"roberta.cpp", 322, some .debug, bytes! "special token: {} ({})", 2⟩,
   ⟨"roberta.cpp", 341, some .error, bytes! "failed to tokenize: {}", 1⟩,
   ⟨"roberta.cpp", 349, some .error, bytes! "failed to tokenize: {}", 1⟩,
   ⟨"roberta.cpp", 516, some .error, bytes! "unknown pooling type: {}", 1⟩,
   ⟨"roberta.cpp", 753, some .error, bytes! "unknown pooling type: {}", 1⟩,
   ⟨"unicode.cpp", 25, some .error, bytes! "icu error: {} [{}:{}]", 3⟩,
   ⟨"utils.hpp", 105, some .debug, bytes! "berts_init @ {:016x}", 1⟩,
   ⟨"utils.hpp", 109, some .debug, bytes! "berts_free @ {:016x}", 1⟩,
   ⟨"utils.hpp", 128, some .debug, bytes! "ggml_init @ {:016x}", 1⟩,
   ⟨"utils.hpp", 132, some .debug, bytes! "ggml_free @ {:016x}", 1⟩,
   ⟨"utils.hpp", 154, some .debug, bytes! "gguf_init @ {:016x}", 1⟩,
   ⟨"utils.hpp", 158, some .debug, bytes! "gguf_free @ {:016x}", 1⟩]

end Berts.Format
