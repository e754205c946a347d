import Verif.Model.LoadLog
import Verif.Spec.BertLog
import Verif.Spec.Load
import Verif.Spec.Vocab

/-!
# What loading says

Lines as in `Verif.Spec.BertLog`: the highest log level at which a line is written, and its text.
-/

namespace Berts.Spec

open Berts.Vocab Berts.Load
open Berts.Graph (Gg)

/-- A number with sign. -/
def showInt (z : Int) : List Nat := if z < 0 then bytes! "-" ++ decimal z.natAbs else decimal z.natAbs

/-- A 32-bit word as a signed number. -/
def signed32 (n : Nat) : Int := if n < 2 ^ 31 then n else (n : Int) - 2 ^ 32

/-- The first value of a metadata key. -/
def valueOf (g : Gguf) (k : String) : Option Kv := (g.kv.find? fun p => p.1 == ascii k).map (·.2)

/-- A text of the metadata; empty if it is missing. -/
def textOf (g : Gguf) (k : String) : List Nat :=
  match valueOf g k with
  | some (.str s) => s
  | _ => []

/-- A number of the metadata; -1 if it is missing. -/
def numberOf (g : Gguf) (k : String) : List Nat :=
  match valueOf g k with
  | some (.u32 n) => showInt (signed32 n)
  | _ => bytes! "-1"

/-- Names of the file types 0, 1, ... -/
def typeNames : List (List Nat) :=
  [bytes! "ALL_F32", bytes! "MOSTLY_F16", bytes! "MOSTLY_Q4_0", bytes! "MOSTLY_Q4_1", bytes! "MOSTLY_Q4_1_SOME_F16",
   bytes! "MOSTLY_Q4_2", bytes! "MOSTLY_Q4_3", bytes! "MOSTLY_Q8_0", bytes! "MOSTLY_Q5_0", bytes! "MOSTLY_Q5_1",
   bytes! "MOSTLY_Q2_K", bytes! "MOSTLY_Q3_K_S", bytes! "MOSTLY_Q3_K_M", bytes! "MOSTLY_Q3_K_L",
   bytes! "MOSTLY_Q4_K_S", bytes! "MOSTLY_Q4_K_M", bytes! "MOSTLY_Q5_K_S", bytes! "MOSTLY_Q5_K_M", bytes! "MOSTLY_Q6_K"]

/-- The last `k` hexadecimal digits of a number. -/
def hex : Nat → Nat → List Nat
  | 0, _ => []
  | k + 1, n => hex k (n / 16) ++ [(bytes! "0123456789abcdef").getD (n % 16) 0]

/-- What is said about an object that gets an owner or is freed by it. -/
def objectLine (what : List Nat) (addr : Nat) : Int × List Nat := line 0 (what ++ bytes! " @ " ++ hex 16 addr)

/-- The entry of the directory that ggml finds for a name: the first with that name, names being cut at 63 bytes. -/
def entryFor (g : Gguf) (t : TInfo) : TInfo := (g.dir.find? fun m => m.name.take 63 == t.name).getD t

/-- The line about an entry of the directory with the number `i`; `align` is the alignment of ggml. -/
def entryLine (align : Nat) (g : Gguf) (t : TInfo) (i : Nat) : Int × List Nat :=
  let m := entryFor g t
  line 0 (bytes! "  tensor " ++ decimal i ++ bytes! "\n    name: " ++ t.name ++ bytes! " (" ++ t.name ++
    bytes! ")\n    n_dims: " ++ decimal m.ndims ++ bytes! "\n    size: " ++ decimal m.nbytes ++
    bytes! "\n    padded_size: " ++ decimal ((m.nbytes + align - 1) / align * align) ++
    bytes! "\n    offset: " ++ decimal t.offset)

/-- The lines about all of them. -/
def dirLines (align : Nat) (g : Gguf) : List (Int × List Nat) := g.dir.zipIdx.map fun p => entryLine align g p.1 p.2

/-- The lines about the tensors that are read. -/
def readLines (g : Gguf) : List (Int × List Nat) :=
  g.dir.zipIdx.map fun p => line 0 (bytes! "  load " ++ decimal p.2 ++ bytes! " " ++ p.1.name)

/-- The lines about the file. -/
def fileLines (g : Gguf) (type : Nat) : List (Int × List Nat) :=
  [line 1 (bytes! "model metadata\n  arch: " ++ textOf g "general.architecture" ++
    bytes! "\n  quantization_version: " ++ numberOf g "general.quantization_version" ++
    bytes! "\n  alignment: " ++ numberOf g "general.alignment" ++
    bytes! "\n  name: " ++ textOf g "general.name" ++
    bytes! "\n  author: " ++ textOf g "general.author" ++
    bytes! "\n  url: " ++ textOf g "general.url" ++
    bytes! "\n  description: " ++ textOf g "general.description" ++
    bytes! "\n  license: " ++ textOf g "general.license" ++
    bytes! "\n  type: " ++ typeNames.getD type []),
   line 1 (bytes! "gguf info\n  n_tensors: " ++ decimal g.dir.length ++ bytes! "\n  n_kv: " ++ decimal g.kv.length)] ++
  g.kv.zipIdx.map fun p => line 0 (bytes! "  key " ++ decimal p.2 ++ bytes! ": " ++ p.1.1)

/-- The line about the size of the weight context. -/
def sizeLine (size : Nat) : Int × List Nat :=
  line 1 (bytes! "  model_size: " ++ decimal size ++ bytes! " (" ++ decimal (size / (1024 * 1024)) ++ bytes! " MiB)")

/-- The line about the hyperparameters; `dbl` shows a double given by its bits. -/
def hparamsLine (dbl : Nat → List Nat) (h : Hp) : Int × List Nat :=
  line 1 (bytes! "hparams\n  arch: " ++ showInt (signed32 h.arch) ++
    bytes! "\n  vocab_size: " ++ decimal h.hp.vocabSize ++ bytes! "\n  hidden_dim: " ++ decimal h.hp.hidden ++
    bytes! "\n  n_layers: " ++ decimal h.hp.nLayers ++ bytes! "\n  attn_heads: " ++ decimal h.hp.heads ++
    bytes! "\n  max_tokens: " ++ decimal h.hp.maxTokens ++ bytes! "\n  intermediate_dim: " ++ decimal h.hp.interm ++
    bytes! "\n  segments: " ++ decimal h.hp.segments ++ bytes! "\n  hidden_act: " ++ showInt (signed32 h.hp.act) ++
    bytes! "\n  eps: " ++ dbl h.hp.eps ++ bytes! "\n  init_range: " ++ dbl h.initRange)

/-- The lines about a special token without id in the metadata: `last` is missing, the names are tried in turn. -/
def fallbackLines (V : List (List Nat)) : List Nat → List (List Nat) → List (Int × List Nat)
  | last, [] => [line 1 (last ++ bytes! " does not exist in vocab")]
  | last, a :: as =>
    line 2 (last ++ bytes! " is not defined; use " ++ a ++ bytes! " instead") ::
      (if a ∈ V then [] else line 1 (bytes! "token " ++ a ++ bytes! " is not found") :: fallbackLines V a as)

/-- The lines of the search for a special token with the given key and names. -/
def searchLines (V : List (List Nat)) (g : Gguf) (k : String) (names : List (List Nat)) : List (Int × List Nat) :=
  match valueOf g k with
  | some (.u32 n) => if n = INVALID then fallbackLines V (ascii k) names else []
  | _ => fallbackLines V (ascii k) names

/-- The token with an id, or nothing; and the complaint about it. -/
def tokenAt (V : List (List Nat)) (id : Nat) : List Nat := V.getD id []

/-- The complaint about an id that is no id. -/
def noToken (V : List (List Nat)) (id : Nat) : List (Int × List Nat) :=
  if id < V.length then []
  else [line 1 (bytes! "token id " ++ decimal id ++ bytes! " is not found (max=" ++ decimal V.length ++ bytes! ")")]

/-- The line about a special id. -/
def idLine (V : List (List Nat)) (what : List Nat) (id : Nat) : Int × List Nat :=
  line 1 (what ++ decimal id ++ bytes! " (" ++ tokenAt V id ++ bytes! ")")

/-- `true` or `false`. -/
def showBool (b : Bool) : List Nat := if b then bytes! "true" else bytes! "false"

/-- The same in a field of five characters. -/
def showBool5 (b : Bool) : List Nat := if b then bytes! "true " else bytes! "false"

/-- The lines about the options of a BERT tokenizer. -/
def optionLines (basic : Bool) (c : Bert.TokInfo) : List (Int × List Nat) :=
  [line 1 (bytes! "  do_basic_tokenize = " ++ showBool basic),
   line 1 (bytes! "  tokenizer_info {\n    bool normalize = true ;                 // ignored, always normalized with NFC\n    bool remove_replacement_char = " ++ showBool5 c.removeRepl ++
    bytes! ";   // remove U+FFFD\n    bool remove_null_char = " ++ showBool5 c.removeNull ++
    bytes! ";          // remove U+0000\n    bool remove_control_char = " ++ showBool5 c.removeCtrl ++
    bytes! ";       // remove control chars (category C*)\n    bool normalize_whitespaces = " ++ showBool5 c.normWs ++
    bytes! ";     // convert all whitespaces to a normal space (U+0020)\n    bool add_space_around_cjk_char = " ++
      showBool5 c.addCjk ++
    bytes! "; // add space around all CJK characters\n    bool do_lower_case = " ++ showBool5 c.lowerCase ++
    bytes! ";             // force input to be lowercase letters\n    bool strip_accents = " ++ showBool5 c.stripAcc ++
    bytes! ";             // remove all accent chars\n    bool split_on_punc = " ++ showBool5 c.splitPunc ++
    bytes! ";             // split words at a punctuation\n  }")]

/-- The option `do_basic_tokenize`. -/
def basicOf (g : Gguf) : Bool :=
  match valueOf g "berts.do_basic_tokenize" with
  | some (.bool b) => b
  | _ => true

/-- The tokens of a loaded vocabulary. -/
def tokensOf : VocabR → List (List Nat)
  | .bert v _ _ => v.idToTok
  | .roberta r => r.v.idToTok

/-- The lines about the vocabulary of a loaded model. -/
def vocabLines (g : Gguf) : VocabR → List (Int × List Nat)
  | .bert v sp cond =>
    let V := v.idToTok
    let look k n1 n2 := searchLines V g k [ascii n1, ascii n2]
    look "berts.cls_id" "[CLS]" "<s>" ++ look "berts.mask_id" "[MASK]" "<mask>" ++
    look "berts.pad_id" "[PAD]" "<pad>" ++ look "berts.sep_id" "[SEP]" "</s>" ++
    look "berts.unk_id" "[UNK]" "<unk>" ++
    (noToken V sp.cls ++ [idLine V (bytes! "  cls_id:  ") sp.cls]) ++
    (noToken V sp.mask ++ [idLine V (bytes! "  mask_id: ") sp.mask]) ++
    (noToken V sp.pad ++ [idLine V (bytes! "  pad_id:  ") sp.pad]) ++
    (noToken V sp.sep ++ [idLine V (bytes! "  sep_id:  ") sp.sep]) ++
    (noToken V sp.unk ++ [idLine V (bytes! "  unk_id:  ") sp.unk]) ++
    optionLines (basicOf g) cond
  | .roberta r =>
    let V := r.v.idToTok
    let sp := r.special
    let look k n := searchLines V g k [ascii n]
    look "berts.bos_id" "<s>" ++ look "berts.eos_id" "</s>" ++ look "berts.cls_id" "<s>" ++
    look "berts.mask_id" "<mask>" ++ look "berts.pad_id" "<pad>" ++ look "berts.sep_id" "</s>" ++
    look "berts.unk_id" "<unk>" ++
    [sp.bos, sp.eos, sp.cls, sp.mask, sp.pad, sp.sep, sp.unk].flatMap (noToken V) ++
    [idLine V (bytes! "  bos_id:  ") sp.bos, idLine V (bytes! "  eos_id:  ") sp.eos,
     idLine V (bytes! "  cls_id:  ") sp.cls, idLine V (bytes! "  mask_id: ") sp.mask,
     idLine V (bytes! "  pad_id:  ") sp.pad, idLine V (bytes! "  sep_id:  ") sp.sep,
     idLine V (bytes! "  unk_id:  ") sp.unk] ++
    noToken V sp.unk

/-- The lines about the merges of a loaded model with the tensors `ts`: twelve bytes for each. -/
def mergeLines (ts : List LT) : VocabR → List (Int × List Nat)
  | .bert .. => []
  | .roberta _ =>
    let n := match getTensor ts (ascii "berts.merge.data") with
      | some t => t.data.length / 12
      | none => 0
    [line 0 (bytes! "  merge count: " ++ decimal n), line 0 (bytes! "loading BPE vocab"), line 0 (bytes! "  merge"),
     line 0 (bytes! "finish loading BPE vocab")]

/-- The names of the tensors every model needs, in the order in which they are looked up. -/
def lookedUp (n : Nat) : List (List Nat) :=
  ["word_embeddings.weight", "token_type_embeddings.weight", "position_embeddings.weight", "LayerNorm.weight",
    "LayerNorm.bias"].map (fun s => ascii ("berts.bert.embeddings." ++ s)) ++
  ((List.range n).flatMap fun i =>
    ["attention.self.query", "attention.self.key", "attention.self.value", "attention.output.dense",
      "attention.output.LayerNorm", "intermediate.dense", "output.dense", "output.LayerNorm"].flatMap fun s =>
      ["weight", "bias"].map fun x => ascii "berts.bert.encoder.layer." ++ decimal i ++ ascii ("." ++ s ++ "." ++ x)) ++
  ["weight", "bias"].map fun x => ascii ("berts.bert.pooler.dense." ++ x)

/-- The line about a tensor that is looked up. -/
def storeLine (k : List Nat) : Int × List Nat := line 0 (bytes! "  store " ++ k)

/-- The names of the tensors of the language-model head. -/
def headNames : List (List Nat) :=
  ["transform.dense.weight", "transform.dense.bias", "transform.LayerNorm.weight", "transform.LayerNorm.bias",
    "decoder.weight", "decoder.bias"].map fun s => ascii ("berts.bert.predictions." ++ s)

/-- The numbers and names of the tensors of a file that are no weights of a model with `n` layers, nor the vocabulary. -/
def unusedOf (g : Gguf) (n : Nat) : List (Nat × List Nat) :=
  (g.dir.zipIdx.map fun p => (p.2, p.1.name)).filter fun p =>
    p.2 ∉ requiredNames n ++ headNames ++ [ascii "berts.vocab.size", ascii "berts.vocab.data"]

/-- The lines about the weights: all names that are looked up, the tensors of the language-model head that are missing
(which are said to be stored all the same), and the unused tensors. -/
def weightLines (g : Gguf) (n : Nat) : List (Int × List Nat) :=
  (lookedUp n).map storeLine ++
  (headNames.flatMap fun k =>
    (if k ∈ g.dir.map (·.name) then [] else [line 1 (bytes! "failed to read tensor: " ++ k)]) ++ [storeLine k]) ++
  (unusedOf g n).map fun p => line 1 (bytes! "  unused " ++ decimal p.1 ++ bytes! " " ++ p.2)

/-- The lines about the contents of a model. -/
def createLines {α : Type} (g : Gguf) (c : Load.Ctx α) : List (Int × List Nat) :=
  [line 1 (bytes! "loading vocab"), line 0 (bytes! "  vocab count: " ++ decimal (tokensOf c.vocab).length)] ++
  vocabLines g c.vocab ++ mergeLines c.tensors c.vocab ++
  [line 1 (bytes! "finish loading vocab"), line 1 (bytes! "initializing weights")] ++ weightLines g c.hp.hp.nLayers ++
  [line 1 (bytes! "finish initializing weights")]

/-- All lines of a successful load of the file `path` as the model `c`: the gguf context and the weights are kept, the
ggml context of the header is freed. -/
def loadLines {α : Type} (pr : Printed) (align : Nat) (path : List Nat) (g : Gguf) (size : Nat) (c : Load.Ctx α) :
    List (Int × List Nat) :=
  [line 1 (bytes! "loading model: " ++ path), objectLine (bytes! "gguf_init") (pr.addr .gguf)] ++
  fileLines g c.type ++ dirLines align g ++ [sizeLine size, objectLine (bytes! "ggml_init") (pr.addr .weights)] ++
  readLines g ++ [hparamsLine pr.dbl c.hp] ++ createLines g c ++ [objectLine (bytes! "ggml_free") (pr.addr .meta)]

/-- What is freed at the end of a load that failed after everything was made, in this order: weights, gguf context and
the ggml context of the header. -/
def allFreed (pr : Printed) : List (Int × List Nat) :=
  [objectLine (bytes! "ggml_free") (pr.addr .weights), objectLine (bytes! "gguf_free") (pr.addr .gguf),
   objectLine (bytes! "ggml_free") (pr.addr .meta)]

/-- What is freed after one of the errors of `loudEnds`: without weights there are none to free, and once the model has
got the weights and the gguf context they are lost. -/
def freedAfter (pr : Printed) (m : List Nat) : List (Int × List Nat) :=
  if m = bytes! "fail to init ggml" then (allFreed pr).drop 1
  else if m = bytes! "fail to load vocab" ∨ m = bytes! "fail to load weights" then (allFreed pr).drop 2
  else allFreed pr

/-- Printed by `fprintf` as it is. -/
def Plain (t : List Nat) : Prop := 37 ∉ t ∧ 0 ∉ t

instance (t : List Nat) : Decidable (Plain t) := inferInstanceAs (Decidable (_ ∧ _))

/-- The repeated tokens of the vocabulary in the tensors `ts` are printed as they are. -/
def VocabPlain (ts : List Load.LT) : Prop :=
  ∀ st dt, Load.getTensor ts (ascii "berts.vocab.size") = some st →
    Load.getTensor ts (ascii "berts.vocab.data") = some dt →
    ∀ t, 2 ≤ (cut st.data dt.data).count t → Plain t

/-- The tensors read from the file have such a vocabulary. -/
def FilePlain {α : Type} (w : Load.World α) : Prop :=
  ∀ g size bytes ts, w.gguf = some g → Load.initGg w.gg g = .ok size → w.file = some bytes →
    Load.loadLoop w.gg g (Load.poolSize w.gg size) w.junk 0 g.dir 0 ⟨bytes, 0, false⟩ [] = .ok (some ts) → VocabPlain ts

/-- The errors that end failed loads and are written at every level. -/
def loudEnds : List (List Nat) :=
  [bytes! "fail to init ggml", bytes! "fail to open gguf file", bytes! "failed to seek gguf file",
   bytes! "fail to load vocab", bytes! "fail to load weights"]

/-- The message about the first merge that cannot be used: `tok` are the tokens by id, `id` the ids by token, `join` puts
two tokens together. -/
inductive MergeError (tok : Nat → Option (List Nat)) (id : List Nat → Option Nat)
    (join : List Nat → List Nat → Res (List Nat)) : List (Nat × Nat) → List Nat → Prop
  | first {a b ms} : tok a = none →
      MergeError tok id join ((a, b) :: ms) (bytes! "token id " ++ decimal a ++ bytes! " is not found in vocab")
  | second {a b x ms} : tok a = some x → tok b = none →
      MergeError tok id join ((a, b) :: ms) (bytes! "token id " ++ decimal b ++ bytes! " is not found in vocab")
  | merged {a b x y t ms} : tok a = some x → tok b = some y → join x y = .ok t → id t = none →
      MergeError tok id join ((a, b) :: ms) (bytes! "merged token " ++ unitText t ++ bytes! " is not found in vocab")
  | later {a b x y t n ms m} : tok a = some x → tok b = some y → join x y = .ok t → id t = some n →
      MergeError tok id join ms m → MergeError tok id join ((a, b) :: ms) m

end Berts.Spec
