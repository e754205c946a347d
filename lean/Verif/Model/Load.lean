import Verif.Model.Handle
import Verif.Model.Graph
import Verif.Model.Bert
import Verif.Model.Roberta

/-!
# Model of loading and freeing a model (`gguf.cpp`, `gguf.hpp`, `internal.cpp`, `bert.cpp` 208-366)

What `gguf_init_from_file` reads from the file is a parameter, like the bytes the second opening of the
file (`std::ifstream`) gives.  The contents of freshly allocated memory are a parameter as well.  Handles
are those of `Verif.Model.Handle`; logging is not modelled.  Keys and names are byte lists without NUL.
-/

namespace Berts.Load

open Berts.Vocab (ascii decimal VocabT Special Meta BlobTensor)
open Berts.Graph (T Gg HParams Layer LmWeights Weights pad)
open Berts.Roberta (RVocab MergeTensor)
open Berts.Bpe (Str)

/-! ## What ggml delivers -/

/-- A metadata value; a double is represented by its bits.  Values of the other types, which the program never asks for,
are represented by their bytes in the file (type and value). -/
inductive Kv where
  | u32 (n : Nat)
  | f64 (bits : Nat)
  | bool (b : Bool)
  | str (s : List Nat)
  | other (bytes : List Nat)

/-- An entry of the tensor directory; `nbytes` is `ggml_nbytes` of a tensor of that shape and type. -/
structure TInfo where
  name : List Nat
  ndims : Nat
  ne : List Nat
  type : Nat
  nbytes : Nat
  offset : Nat

/-- A `gguf_context` together with the tensors of the ggml context made with it (`no_alloc`). -/
structure Gguf where
  kv : List (List Nat × Kv)
  dir : List TInfo
  dataOffset : Nat

/-- A tensor in the weight context. -/
structure LT where
  name : List Nat
  ndims : Nat
  ne : List Nat
  type : Nat
  data : List Nat
deriving DecidableEq

/-- `gguf_find_key`. -/
def find (g : Gguf) (k : String) : Option Kv := (g.kv.find? fun p => p.1 == ascii k).map (·.2)

/-- `gguf_u32` without default: gguf.hpp:69-75 with `safe_index`, 47-55.  `gguf_get_val_u32` asserts the
type. -/
def u32 (g : Gguf) (k : String) : Res Nat :=
  match find g k with
  | some (.u32 n) => .ok n
  | _ => .abort

/-- `gguf_u32` of an optional key, gguf.hpp:77-87. -/
def u32Opt (g : Gguf) (k : String) : Res (Option Nat) :=
  match find g k with
  | none => .ok none
  | some (.u32 n) => .ok (some n)
  | some _ => .abort

/-- `gguf_f64` of an optional key, gguf.hpp:77-87. -/
def f64Opt (g : Gguf) (k : String) : Res (Option Nat) :=
  match find g k with
  | none => .ok none
  | some (.f64 n) => .ok (some n)
  | some _ => .abort

/-- `gguf_bool` with a default, gguf.hpp:77-87. -/
def boolOr (g : Gguf) (k : String) (d : Bool) : Res Bool :=
  match find g k with
  | none => .ok d
  | some (.bool b) => .ok b
  | some _ => .abort

/-- `gguf_str` with the default `""`, gguf.hpp:77-87. -/
def strOr (g : Gguf) (k : String) : Res (List Nat) :=
  match find g k with
  | none => .ok []
  | some (.str s) => .ok s
  | some _ => .abort

/-- The name a tensor gets from `ggml_set_name`: at most `GGML_MAX_NAME - 1` bytes. -/
def setName (n : List Nat) : List Nat := n.take 63

/-- `ggml_get_tensor` on the context made by `gguf_init_from_file`. -/
def metaTensor (g : Gguf) (name : List Nat) : Option TInfo := g.dir.find? fun t => setName t.name == name

/-- `ggml_get_tensor` on the weight context. -/
def getTensor (ts : List LT) (name : List Nat) : Option LT := ts.find? fun t => t.name == name

/-- `ftype`, gguf.cpp:21-51. -/
def ftype (t : Nat) : Res Unit := if t < 19 then .ok () else .abort

/-! ## The weight context -/

/-- The loop of `init_gg`, gguf.cpp:126-149; `size_t` arithmetic. -/
def sizeLoop (gg : Gg) (g : Gguf) : List TInfo → Nat → Res Nat
  | [], acc => .ok acc
  | t :: ts, acc =>
    match metaTensor g t.name with
    | none => .ub
    | some m => sizeLoop gg g ts ((acc + (gg.tensorSize + pad m.nbytes gg.align + gg.objectSize)) % 2 ^ 64)

/-- The metadata read for the log, gguf.cpp:73-81. -/
def general (g : Gguf) : Res Unit :=
  (strOr g "general.architecture").bind fun _ =>
  (u32Opt g "general.quantization_version").bind fun _ =>
  (u32Opt g "general.alignment").bind fun _ =>
  (strOr g "general.name").bind fun _ =>
  (strOr g "general.author").bind fun _ =>
  (strOr g "general.url").bind fun _ =>
  (strOr g "general.description").bind fun _ =>
  (strOr g "general.license").bind fun _ =>
  (u32 g "general.file_type").bind fun t => ftype t

/-- `init_gg` after the construction of the handles, gguf.cpp:70-158: the context size. -/
def initGg (gg : Gg) (g : Gguf) : Res Nat := (general g).bind fun _ => sizeLoop gg g g.dir 0

/-- The memory of a context made by `ggml_init` with the given `mem_size` and no buffer. -/
def poolSize (gg : Gg) (size : Nat) : Nat := pad (if size = 0 then gg.align else size) gg.align

/-- `ggml_dup_tensor` (`ggml_new_object`): the memory used afterwards. -/
def allocT (gg : Gg) (pool used nbytes : Nat) : Res Nat :=
  let n := gg.objectSize + pad (gg.tensorSize + nbytes) gg.align
  if used + n ≤ pool then .ok (used + n) else .abort

/-- The state of the `std::ifstream`; `eofbit` is set by a failed read only, together with `failbit`. -/
structure Stream where
  bytes : List Nat
  pos : Nat
  fail : Bool

/-- `seekg(off, beg)`: does nothing on a failed stream; seeking beyond the end succeeds; an offset that
is negative as `std::streamoff` fails. -/
def Stream.seekg (s : Stream) (off : Nat) : Stream :=
  if s.fail then s else if off < 2 ^ 63 then { s with pos := off } else { s with fail := true }

/-- `read(p, n)`: the bytes stored and the state. -/
def Stream.read (s : Stream) (n : Nat) : List Nat × Stream :=
  if s.fail then ([], s)
  else
    let got := (s.bytes.drop s.pos).take n
    (got, { s with pos := s.pos + got.length, fail := decide (got.length < n) })

/-- The data of a tensor of `n` bytes after `got` was stored over the contents `junk`. -/
def fill (got : List Nat) (junk : Nat → Nat) (n : Nat) : List Nat :=
  got ++ (List.range (n - got.length)).map fun j => junk (got.length + j)

/-- The loop of `load_from_file`, gguf.cpp:195-211, from entry `i` on; `used` is the memory used in the
weight context.  `none` is `return nullptr`. -/
def loadLoop (gg : Gg) (g : Gguf) (pool : Nat) (junk : Nat → Nat → Nat) :
    Nat → List TInfo → Nat → Stream → List LT → Res (Option (List LT))
  | _, [], _, _, acc => .ok (some acc)
  | i, t :: ts, used, s, acc =>
    match metaTensor g t.name with
    | none => .ub
    | some m =>
      (allocT gg pool used m.nbytes).bind fun used =>
      let s := s.seekg ((g.dataOffset + t.offset) % 2 ^ 64)
      if s.fail then .ok none
      else
        loadLoop gg g pool junk (i + 1) ts used (s.read m.nbytes).2
          (acc ++ [⟨setName t.name, m.ndims, m.ne, m.type, fill (s.read m.nbytes).1 (junk i) m.nbytes⟩])

/-! ## Hyperparameters -/

/-- `internal::hparams`, internal.hpp:21-33; doubles are represented by their bits. -/
structure Hp where
  arch : Nat
  hp : HParams
  initRange : Nat

/-- The bits of `1e-12`, gguf.cpp:224. -/
def defaultEps : Nat := 0x3d719799812dea11

/-- The bits of `0.02`, gguf.cpp:225. -/
def defaultRange : Nat := 0x3f947ae147ae147b

/-- gguf.cpp:214-225. -/
def hparams (g : Gguf) : Res Hp :=
  (u32 g "berts.bert_type").bind fun arch =>
  (u32 g "berts.vocab_size").bind fun vocabSize =>
  (u32 g "berts.hidden_dim").bind fun hidden =>
  (u32 g "berts.n_layers").bind fun nLayers =>
  (u32 g "berts.attn_heads").bind fun heads =>
  (u32 g "berts.max_token").bind fun maxTokens =>
  (u32 g "berts.intermediate_dim").bind fun interm =>
  (u32Opt g "berts.segments").bind fun segments =>
  (u32 g "berts.hidden_act").bind fun act =>
  (f64Opt g "berts.layer_norm_eps").bind fun eps =>
  (f64Opt g "berts.initializer_range").bind fun range =>
  .ok ⟨arch, ⟨vocabSize, hidden, nLayers, heads, maxTokens, interm, segments.getD 2, act,
    eps.getD defaultEps⟩, range.getD defaultRange⟩

/-! ## The weights -/

/-- `KEY`, bert.cpp:213-214. -/
def key (s : String) : List Nat := ascii "berts.bert." ++ ascii s

/-- `KEY_N` of the encoder layers with the number filled in, bert.cpp:215, 289-299. -/
def layerKey (n : Nat) (s : String) : List Nat :=
  ascii "berts.bert." ++ ascii "encoder.layer" ++ ascii "." ++ decimal n ++ ascii "." ++ ascii s

variable {α : Type}

/-- One round of the loop over the layers, bert.cpp:313-328, with the keys 225-240. -/
def initLayer (get : List Nat → Option (T α)) (n : Nat) : Option (Layer α) := do
  let qw ← get (layerKey n "attention.self.query.weight")
  let qb ← get (layerKey n "attention.self.query.bias")
  let kw ← get (layerKey n "attention.self.key.weight")
  let kb ← get (layerKey n "attention.self.key.bias")
  let vw ← get (layerKey n "attention.self.value.weight")
  let vb ← get (layerKey n "attention.self.value.bias")
  let ffw ← get (layerKey n "attention.output.dense.weight")
  let ffb ← get (layerKey n "attention.output.dense.bias")
  let lnffw ← get (layerKey n "attention.output.LayerNorm.weight")
  let lnffb ← get (layerKey n "attention.output.LayerNorm.bias")
  let iw ← get (layerKey n "intermediate.dense.weight")
  let ib ← get (layerKey n "intermediate.dense.bias")
  let ow ← get (layerKey n "output.dense.weight")
  let ob ← get (layerKey n "output.dense.bias")
  let lnoutw ← get (layerKey n "output.LayerNorm.weight")
  let lnoutb ← get (layerKey n "output.LayerNorm.bias")
  return ⟨qw, qb, kw, kb, vw, vb, ffw, ffb, lnffw, lnffb, iw, ib, ow, ob, lnoutw, lnoutb⟩

/-- The loop over the layers, bert.cpp:312-329: `k` layers from number `n` on. -/
def initLayers (get : List Nat → Option (T α)) : Nat → Nat → Option (List (Layer α))
  | _, 0 => some []
  | n, k + 1 => do
    let l ← initLayer get n
    let ls ← initLayers get (n + 1) k
    return l :: ls

/-- The language-model tensors, bert.cpp:334-339 with the keys 247-252.  The six pointers are used only
if none is null (bert.cpp and roberta.cpp, `build_lm_graph`); simplified to one optional record. -/
def initLm (get : List Nat → Option (T α)) : Option (LmWeights α) := do
  let dw ← get (key "predictions.transform.dense.weight")
  let db ← get (key "predictions.transform.dense.bias")
  let lnw ← get (key "predictions.transform.LayerNorm.weight")
  let lnb ← get (key "predictions.transform.LayerNorm.bias")
  let decw ← get (key "predictions.decoder.weight")
  let decb ← get (key "predictions.decoder.bias")
  return ⟨dw, db, lnw, lnb, decw, decb⟩

/-- `weights::init`, bert.cpp:263-366, used by both models; `none` is `return false`. -/
def initWeights (get : List Nat → Option (T α)) (nLayers : Nat) : Option (Weights α) := do
  let tok ← get (key "embeddings.word_embeddings.weight")
  let seg ← get (key "embeddings.token_type_embeddings.weight")
  let pos ← get (key "embeddings.position_embeddings.weight")
  let lnw ← get (key "embeddings.LayerNorm.weight")
  let lnb ← get (key "embeddings.LayerNorm.bias")
  let layers ← initLayers get 0 nLayers
  let poolw ← get (key "pooler.dense.weight")
  let poolb ← get (key "pooler.dense.bias")
  return ⟨tok, seg, pos, lnw, lnb, layers, poolw, poolb, initLm get⟩

/-! ## The vocabulary -/

/-- The vocabulary object of a model after `init_vocab`. -/
inductive VocabR where
  | bert (v : VocabT) (sp : Special) (cond : Bert.TokInfo)
  | roberta (r : RVocab)

/-- A tensor seen by `init_vocab`, model_base.hpp:212-231; `GGML_TYPE_I8` is 16. -/
def blob (t : LT) : BlobTensor := ⟨t.type == 16, t.ndims, t.data⟩

/-- Little-endian 32-bit words. -/
def words : List Nat → List Nat
  | a :: b :: c :: d :: l => (a + 256 * b + 65536 * c + 16777216 * d) :: words l
  | _ => []

/-- The merge tensor, roberta.cpp:205-235; `GGML_TYPE_I32` is 18. -/
def mergeT (t : LT) : MergeTensor := ⟨t.type == 18, t.ndims, words t.data⟩

/-- The ids read by BERT's `init`, bert.cpp:115-119. -/
def bertMeta (g : Gguf) : Res Meta :=
  (u32Opt g "berts.cls_id").bind fun cls =>
  (u32Opt g "berts.mask_id").bind fun mask =>
  (u32Opt g "berts.pad_id").bind fun pad =>
  (u32Opt g "berts.sep_id").bind fun sep =>
  (u32Opt g "berts.unk_id").bind fun unk =>
  .ok ⟨cls, mask, pad, sep, unk, none, none⟩

/-- The ids read by RoBERTa's `init`, roberta.cpp:133-139. -/
def robertaMeta (g : Gguf) : Res Meta :=
  (u32Opt g "berts.bos_id").bind fun bos =>
  (u32Opt g "berts.eos_id").bind fun eos =>
  (u32Opt g "berts.cls_id").bind fun cls =>
  (u32Opt g "berts.mask_id").bind fun mask =>
  (u32Opt g "berts.pad_id").bind fun pad =>
  (u32Opt g "berts.sep_id").bind fun sep =>
  (u32Opt g "berts.unk_id").bind fun unk =>
  .ok ⟨cls, mask, pad, sep, unk, bos, eos⟩

/-- The tokenizer options, bert.cpp:143-173. -/
def bertCond (g : Gguf) : Res Bert.TokInfo :=
  (boolOr g "berts.do_lower_case" true).bind fun lower =>
  (boolOr g "berts.do_basic_tokenize" true).bind fun basic =>
  (boolOr g "berts.tokenize_chinese_chars" true).bind fun cjk =>
  (boolOr g "berts.strip_accent" lower).bind fun strip =>
  .ok { (if basic then Bert.basicInfo else Bert.noBasicInfo) with
    lowerCase := lower, addCjk := cjk, stripAcc := strip }

/-- The five ids found by BERT's `init`, bert.cpp:115-119. -/
def bertIds (m : Meta) (v : VocabT) : List Nat :=
  [Vocab.getTokenId m.cls v.tokenToId (some (ascii "[CLS]")) (some (ascii "<s>")),
   Vocab.getTokenId m.mask v.tokenToId (some (ascii "[MASK]")) (some (ascii "<mask>")),
   Vocab.getTokenId m.pad v.tokenToId (some (ascii "[PAD]")) (some (ascii "<pad>")),
   Vocab.getTokenId m.sep v.tokenToId (some (ascii "[SEP]")) (some (ascii "</s>")),
   Vocab.getTokenId m.unk v.tokenToId (some (ascii "[UNK]")) (some (ascii "<unk>"))]

/-- BERT's `vocab::init`, bert.cpp:111-207: without all ids it returns before the options are read; that the
vocabulary is empty is noticed last (`build_trie`). -/
def bertInit (g : Gguf) (v : VocabT) : Res (Option VocabR) :=
  (bertMeta g).bind fun m =>
  if INVALID ∈ bertIds m v then .ok none
  else
    (bertCond g).bind fun cond => .ok ((Vocab.bertSpecials m v).map fun sp => .bert v sp cond)

/-- RoBERTa's `vocab::init`, roberta.cpp:129-244. -/
def robertaInit (signed : Bool) (order : List (Str × Nat) → List (Str × Nat)) (g : Gguf) (ts : List LT)
    (v : VocabT) : Res (Option VocabR) :=
  (robertaMeta g).bind fun m =>
  (Roberta.init signed m ((getTensor ts (ascii "berts.merge.data")).map mergeT) order v).bind fun r =>
  .ok (r.map .roberta)

/-- `init_vocab`, model_base.hpp:189-262, on a fresh vocabulary. -/
def vocabInit (signed : Bool) (order : List (Str × Nat) → List (Str × Nat)) (arch : Nat) (g : Gguf)
    (ts : List LT) : Res (Option VocabR) :=
  (Vocab.initVocab ((getTensor ts (ascii "berts.vocab.size")).map blob)
    ((getTensor ts (ascii "berts.vocab.data")).map blob) VocabT.new some).bind fun r =>
  match r with
  | none => .ok none
  | some v => if arch = 0 then bertInit g v else robertaInit signed order g ts v

/-! ## Loading and freeing -/

/-- What is acquired while loading: the gguf context, the ggml context made with it, the weight context,
the model object, the `berts_context`. -/
inductive Rsrc where
  | gguf
  | «meta»
  | weights
  | model
  | ctx
deriving DecidableEq, Repr

/-- The handles, what was freed (also by `delete`), and what was acquired. -/
structure Ledger where
  h : Handle.St Rsrc
  acq : List Rsrc

/-- A `berts_context`. -/
structure Ctx (α : Type) where
  hp : Hp
  type : Nat
  tensors : List LT
  vocab : VocabR
  weights : Weights α

/-- Everything outside the program: what `gguf_init_from_file` delivers, whether `ggml_init` succeeds,
the bytes of the file when opened as a stream, contents of fresh memory, the elements of a tensor, the
constants of ggml, signedness of `char`, iteration order of the vocabulary map. -/
structure World (α : Type) where
  gguf : Option Gguf
  poolInit : Nat → Bool
  file : Option (List Nat)
  junk : Nat → Nat → Nat
  conv : LT → T α
  gg : Gg
  signed : Bool
  order : List (Str × Nat) → List (Str × Nat)

/-- `new` of a raw object. -/
def acquire (l : Ledger) (r : Rsrc) : Ledger := { l with acq := l.acq ++ [r] }

/-- Freeing of a raw object. -/
def freeRaw (l : Ledger) (r : Rsrc) : Ledger := { l with h := { l.h with freed := l.h.freed ++ [r] } }

/-- `delete` of a `berts_context`: the `unique_ptr` member deletes the model; `gguf` and `ctx` are plain
pointers, internal.cpp:12-16, 47-49. -/
def deleteCtx (l : Ledger) : Ledger := freeRaw (freeRaw l .model) .ctx

/-- The destructor of the local `gg`: `second`, then `first`. -/
def closeGg (l : Ledger) : Res Ledger :=
  (Handle.dtor l.h 1).bind fun h => (Handle.dtor h 0).bind fun h => .ok { l with h := h }

/-- The end of `load_from_file` once `ggml` exists: the destructors of `ggml` and `gg`. -/
def leave (r : Option (Ctx α)) (l : Ledger) : Res (Option (Ctx α) × Ledger) :=
  (Handle.dtor l.h 2).bind fun h => (closeGg { l with h := h }).bind fun l => .ok (r, l)

/-- `berts_context::create`, internal.cpp:24-45, for a model that is not null. -/
def create (w : World α) (g : Gguf) (hp : Hp) (type : Nat) (ts : List LT) (l : Ledger) :
    Res (Option (Ctx α) × Ledger) :=
  let l := acquire l .ctx
  (vocabInit w.signed w.order hp.arch g ts).bind fun v =>
  match v with
  | none => .ok (none, deleteCtx l)
  | some v =>
    match initWeights (fun k => (getTensor ts k).map w.conv) hp.hp.nLayers with
    | none => .ok (none, deleteCtx l)
    | some ws => .ok (some ⟨hp, type, ts, v, ws⟩, l)

/-- `load_from_file` from the hyperparameters on, gguf.cpp:214-288. -/
def finish (w : World α) (g : Gguf) (ts : List LT) (l : Ledger) : Res (Option (Ctx α) × Ledger) :=
  (hparams g).bind fun hp =>
  (u32 g "general.file_type").bind fun type =>
  (ftype type).bind fun _ =>
  if hp.hp.act ≠ 0 then leave none l
  else if hp.arch ≠ 0 ∧ hp.arch ≠ 1 then leave none l
  else
    let l := acquire l .model
    (Handle.release l.h 1).bind fun r =>
    (Handle.release r.2 2).bind fun r =>
    (create w g hp type ts { l with h := r.2 }).bind fun c => leave c.1 c.2

/-- `load_from_file` from the weight context on, gguf.cpp:175-288; `gg` owns both contexts. -/
def loadWeights (w : World α) (g : Gguf) (size : Nat) (l : Ledger) : Res (Option (Ctx α) × Ledger) :=
  if w.poolInit size then
    (Handle.ctor l.h 2 (some .weights)).bind fun h =>
    let l := acquire { l with h := h } .weights
    match w.file with
    | none => leave none l
    | some bytes =>
      (loadLoop w.gg g (poolSize w.gg size) w.junk 0 g.dir 0 ⟨bytes, 0, false⟩ []).bind fun r =>
      match r with
      | none => leave none l
      | some ts => finish w g ts l
  else
    (Handle.ctor l.h 2 none).bind fun h => leave none { l with h := h }

/-- `load_from_file`, gguf.cpp:161-288, and `berts_load_from_file`, berts.cpp:57-59.  Handle 0 is the
ggml part of `gg`, 1 the gguf part, 2 the weight context, 3 a temporary.  `init_gg` returns its local `gg`
without a copy (the move that is also allowed changes nothing that is observable, C52). -/
def load (w : World α) : Res (Option (Ctx α) × Ledger) :=
  match w.gguf with
  | none =>
    (Handle.ggCtor Handle.St.init 0 1 3 none).bind fun h =>
    (closeGg ⟨h, []⟩).bind fun l => .ok (none, l)
  | some g =>
    (Handle.ggCtor Handle.St.init 0 1 3 (some (.gguf, .meta))).bind fun h =>
    (initGg w.gg g).bind fun size => loadWeights w g size ⟨h, [.gguf, .meta]⟩

/-- `berts_free`, berts.cpp:53-55 and internal.cpp:47-49, 70-72; `delete` of null does nothing. -/
def free (c : Option (Ctx α)) (l : Ledger) : Ledger :=
  match c with
  | none => l
  | some _ => deleteCtx l

end Berts.Load
