import Verif.Model.Load
import Verif.Model.TypeNames
import Verif.Model.BertLog

/-!
# Loading with its messages

`Verif.Model.Load` without the log; here the state of the log is threaded through.  A message right before a failing
assertion (gguf.cpp:46, gguf.hpp:50) is left out.  Names and keys are C strings, without zero bytes.  `init_gg` is assumed
to return its local `gg` without a move; a move would announce the two contexts once more at the level DEBUG.
-/

namespace Berts.Load

open Berts.Vocab Berts.Log Berts.Format
open Berts.Graph (T Gg HParams)
open Berts.Roberta (RVocab MergeTensor)
open Berts.Bpe (Str Bpe)

/-- A computation that may write to the log. -/
abbrev LogM (α : Type) := St → Res (α × St)

instance : Monad LogM where
  pure a := fun s => .ok (a, s)
  bind m f := fun s => (m s).bind fun x => f x.1 x.2

/-- A computation that writes nothing. -/
def lift {α : Type} (r : Res α) : LogM α := fun s => r.bind fun a => .ok (a, s)

/-- A call of `log::info(format, args...)` or another log function with arguments, log.hpp:38-64. -/
def sayF (v : Sev) (f : List Nat) (args : List Arg) : LogM Unit :=
  fun s => (formatted s v (fmt f args)).bind fun s => .ok ((), s)

/-- A call of `log::info(msg)` or another log function of a string, log.cpp:44-58. -/
def say (v : Sev) (m : List Nat) : LogM Unit := fun s => (plain s v m).bind fun s => .ok ((), s)

/-- `log::when`, log.hpp:20-28. -/
def sayWhen (l : Int) (m : LogM Unit) : LogM Unit := fun s => if isLogging s l then m s else .ok ((), s)

/-- A signed number as argument of `{}`. -/
def intArg (z : Int) : Arg :=
  fun spec => if spec = [] then some (if z < 0 then 45 :: decimal z.natAbs else decimal z.natAbs) else none

/-- `(int32_t)n` and `(int)n` of an unsigned 32-bit number. -/
def asI32 (n : Nat) : Int := if n < 2 ^ 31 then n else n - 2 ^ 32

/-- A `bool` as argument of `{}` or `{:<5s}`. -/
def boolArg (b : Bool) : Arg := fun spec =>
  if spec = [] then some (if b then bytes! "true" else bytes! "false")
  else if spec = bytes! "<5s" then some (if b then bytes! "true " else bytes! "false")
  else none

/-- What the messages need from outside: the text of a double given by its bits, and the addresses of the objects (they
are shown as `intptr_t`, and none is negative). -/
structure Printed where
  dbl : Nat → List Nat
  addr : Rsrc → Fin (2 ^ 63)

/-- Hexadecimal digits. -/
def hexText (n : Nat) : List Nat := if n < 16 then [hexDigit n] else hexText (n / 16) ++ [hexDigit n]
termination_by n

/-- An address as argument of `{:016x}`: digits, zeros before them up to a width of 16. -/
def addrArg (n : Nat) : Arg := fun spec =>
  if spec = bytes! "016x" then some (List.replicate (16 - (hexText n).length) 48 ++ hexText n) else none

/-! ## The handles -/

/-- `on_init`, utils.hpp:104-106, 127-129, 153-155; `new` of a model has none. -/
def onInit (pr : Printed) : Rsrc → LogM Unit
  | .gguf => sayF .debug (bytes! "gguf_init @ {:016x}") [addrArg (pr.addr .gguf).val]
  | .meta => sayF .debug (bytes! "ggml_init @ {:016x}") [addrArg (pr.addr .meta).val]
  | .weights => sayF .debug (bytes! "ggml_init @ {:016x}") [addrArg (pr.addr .weights).val]
  | .ctx => sayF .debug (bytes! "berts_init @ {:016x}") [addrArg (pr.addr .ctx).val]
  | .model => pure ()

/-- `on_dispose`, utils.hpp:108-110, 131-133, 157-159. -/
def onDispose (pr : Printed) : Rsrc → LogM Unit
  | .gguf => sayF .debug (bytes! "gguf_free @ {:016x}") [addrArg (pr.addr .gguf).val]
  | .meta => sayF .debug (bytes! "ggml_free @ {:016x}") [addrArg (pr.addr .meta).val]
  | .weights => sayF .debug (bytes! "ggml_free @ {:016x}") [addrArg (pr.addr .weights).val]
  | .ctx => sayF .debug (bytes! "berts_free @ {:016x}") [addrArg (pr.addr .ctx).val]
  | .model => pure ()

/-- As `Handle.ctor`, utils.hpp:36-44. -/
def ctorL (pr : Printed) (s : Handle.St Rsrc) (h : Nat) : Option Rsrc → LogM (Handle.St Rsrc)
  | none => lift (Handle.ctor s h none)
  | some r => do
    onInit pr r
    lift (Handle.ctor s h (some r))

/-- As `Handle.dispose`, utils.hpp:68-74. -/
def disposeL (pr : Printed) (s : Handle.St Rsrc) (h : Nat) : LogM (Handle.St Rsrc) :=
  match s.obj h with
  | some (some r) => do
    onDispose pr r
    lift (Handle.dispose s h)
  | _ => lift (Handle.dispose s h)

/-- As `Handle.moveAssign`, utils.hpp:55-62. -/
def moveAssignL (pr : Printed) (s : Handle.St Rsrc) (h o : Nat) : LogM (Handle.St Rsrc) :=
  match s.obj h, s.obj o with
  | some _, some p =>
    if h = o then pure s
    else do
      let s ← disposeL pr s h
      pure { s with obj := Handle.put (Handle.put s.obj h (some p)) o (some none) }
  | _, _ => lift .ub

/-- As `Handle.dtor`, utils.hpp:64-66. -/
def dtorL (pr : Printed) (s : Handle.St Rsrc) (h : Nat) : LogM (Handle.St Rsrc) := do
  let s ← disposeL pr s h
  pure { s with obj := Handle.put s.obj h none }

/-- As `Handle.ggCtor`, utils.hpp:171-174; a context that is stored through `ptr()` is not announced. -/
def ggCtorL (pr : Printed) (s : Handle.St Rsrc) (hm hg tmp : Nat) (res : Option (Rsrc × Rsrc)) :
    LogM (Handle.St Rsrc) := do
  let s ← ctorL pr s hm none
  let s ← ctorL pr s hg none
  let s ← match res with
    | none => ctorL pr s tmp none
    | some (gguf, ggml) => do
      let s ← lift (Handle.store s hm (some ggml))
      ctorL pr s tmp (some gguf)
  let s ← moveAssignL pr s hg tmp
  dtorL pr s tmp

/-- As `closeGg`. -/
def closeGgL (pr : Printed) (l : Ledger) : LogM Ledger := do
  let h ← dtorL pr l.h 1
  let h ← dtorL pr h 0
  pure { l with h := h }

/-- As `leave`. -/
def leaveL {α : Type} (pr : Printed) (r : Option (Ctx α)) (l : Ledger) : LogM (Option (Ctx α) × Ledger) := do
  let h ← dtorL pr l.h 2
  let l ← closeGgL pr { l with h := h }
  pure (r, l)

/-! ## The file -/

/-- The loop over the keys, gguf.cpp:114-117, from key `i` on. -/
def keysL : Nat → List (List Nat × Kv) → LogM Unit
  | _, [] => pure ()
  | i, p :: kv => do
    sayF .debug (bytes! "  key {0}: {1}") [numArg i, textArg p.1]
    keysL (i + 1) kv

/-- The part of `init_gg` that dumps the file, gguf.cpp:70-119; the default of the two numbers is `(uint32_t)-1`. -/
def generalL (g : Gguf) : LogM Unit := do
  let arch ← lift (strOr g "general.architecture")
  let ver ← lift (u32Opt g "general.quantization_version")
  let align ← lift (u32Opt g "general.alignment")
  let name ← lift (strOr g "general.name")
  let author ← lift (strOr g "general.author")
  let url ← lift (strOr g "general.url")
  let desc ← lift (strOr g "general.description")
  let license ← lift (strOr g "general.license")
  let t ← lift (u32 g "general.file_type")
  let type ← lift (TypeNames.ftypeName t)
  sayF .info (bytes! "model metadata\n  arch: {0}\n  quantization_version: {1}\n  alignment: {2}\n  name: {3}\n  author: {4}\n  url: {5}\n  description: {6}\n  license: {7}\n  type: {8}")
    [textArg arch, intArg (asI32 (ver.getD (2 ^ 32 - 1))), intArg (asI32 (align.getD (2 ^ 32 - 1))), textArg name,
     textArg author, textArg url, textArg desc, textArg license, textArg type]
  sayF .info (bytes! "gguf info\n  n_tensors: {}\n  n_kv: {}") [numArg g.dir.length, numArg g.kv.length]
  sayWhen 0 (keysL 0 g.kv)

/-- As `sizeLoop`, gguf.cpp:126-149, from tensor `i` on. -/
def sizeLoopL (gg : Gg) (g : Gguf) : Nat → List TInfo → Nat → LogM Nat
  | _, [], acc => pure acc
  | i, t :: ts, acc =>
    match metaTensor g t.name with
    | none => lift .ub
    | some m => do
      let padded := Graph.pad m.nbytes gg.align
      sayF .debug (bytes! "  tensor {}\n    name: {} ({})\n    n_dims: {}\n    size: {}\n    padded_size: {}\n    offset: {}")
        [numArg i, textArg (setName m.name), textArg t.name, numArg m.ndims, numArg m.nbytes, numArg padded,
         numArg t.offset]
      sizeLoopL gg g (i + 1) ts ((acc + (gg.tensorSize + padded + gg.objectSize)) % 2 ^ 64)

/-- As `initGg`, gguf.cpp:70-158. -/
def initGgL (gg : Gg) (g : Gguf) : LogM Nat := do
  generalL g
  let size ← sizeLoopL gg g 0 g.dir 0
  sayF .info (bytes! "  model_size: {} ({} MiB)") [numArg size, numArg (size / 1024 / 1024)]
  pure size

/-- As `loadLoop`, gguf.cpp:195-211. -/
def loadLoopL (gg : Gg) (g : Gguf) (pool : Nat) (junk : Nat → Nat → Nat) :
    Nat → List TInfo → Nat → Stream → List LT → LogM (Option (List LT))
  | _, [], _, _, acc => pure (some acc)
  | i, t :: ts, used, s, acc => do
    sayWhen 0 (sayF .debug (bytes! "  load {} {}") [numArg i, textArg t.name])
    match metaTensor g t.name with
    | none => lift .ub
    | some m => do
      let used ← lift (allocT gg pool used m.nbytes)
      let s := s.seekg ((g.dataOffset + t.offset) % 2 ^ 64)
      if s.fail then pure none
      else
        loadLoopL gg g pool junk (i + 1) ts used (s.read m.nbytes).2
          (acc ++ [⟨setName t.name, m.ndims, m.ne, m.type, fill (s.read m.nbytes).1 (junk i) m.nbytes⟩])

/-- As `hparams`, gguf.cpp:214-250. -/
def hparamsL (dbl : Nat → List Nat) (g : Gguf) : LogM Hp := do
  let h ← lift (hparams g)
  sayF .info (bytes! "hparams\n  arch: {}\n  vocab_size: {}\n  hidden_dim: {}\n  n_layers: {}\n  attn_heads: {}\n  max_tokens: {}\n  intermediate_dim: {}\n  segments: {}\n  hidden_act: {}\n  eps: {}\n  init_range: {}")
    [intArg (asI32 h.arch), numArg h.hp.vocabSize, numArg h.hp.hidden, numArg h.hp.nLayers, numArg h.hp.heads,
     numArg h.hp.maxTokens, numArg h.hp.interm, numArg h.hp.segments, intArg (asI32 h.hp.act), textArg (dbl h.hp.eps),
     textArg (dbl h.initRange)]
  pure h

/-! ## The vocabulary -/

/-- `token_to_id` of the base class, model_base.hpp:137-144, for a token with the id `id` that is shown as `t`. -/
def toIdL (id : Nat) (found : Bool) (t : List Nat) : LogM Nat :=
  if found then pure id
  else do
    sayF .error (bytes! "token {} is not found") [textArg t]
    pure INVALID

/-- As `getTokenId`, model_base.hpp:64-100, for a first alternative that is not null. -/
def getTokenIdL (g : Gguf) (key : String) (toId : List Nat → LogM Nat) (a1 : List Nat) (a2 : Option (List Nat)) :
    LogM Nat := do
  let id ← lift (u32Opt g key)
  if id.getD INVALID = INVALID then do
    sayF .warn (bytes! "{} is not defined; use {} instead") [textArg (ascii key), textArg a1]
    let id ← toId a1
    if id = INVALID then
      match a2 with
      | none => do
        sayF .error (bytes! "{} does not exist in vocab") [textArg a1]
        pure INVALID
      | some a2 => do
        sayF .warn (bytes! "{} is not defined; use {} instead") [textArg a1, textArg a2]
        let id ← toId a2
        if id = INVALID then do
          sayF .error (bytes! "{} does not exist in vocab") [textArg a2]
          pure INVALID
        else pure id
    else pure id
  else pure (id.getD INVALID)

/-- The message about a special id, bert.cpp:122-126; `id_to_token` is `Bert.idToTokenL`. -/
def showId (v : VocabT) (f : List Nat) (id : Nat) : LogM Unit := do
  let t ← Bert.idToTokenL v id
  sayF .info f [numArg id, textArg t]

/-- `token_to_id` of BERT's vocabulary. -/
def bertToIdL (v : VocabT) (t : List Nat) : LogM Nat := toIdL (v.tokenToId t) (v.hasToken t) t

/-- The message about the options, bert.cpp:175-198. -/
def condL (basic : Bool) (c : Bert.TokInfo) : LogM Unit := do
  sayF .info (bytes! "  do_basic_tokenize = {}") [boolArg basic]
  sayF .info (bytes! "  tokenizer_info {{\n    bool normalize = {:<5s};                 // ignored, always normalized with NFC\n    bool remove_replacement_char = {:<5s};   // remove U+FFFD\n    bool remove_null_char = {:<5s};          // remove U+0000\n    bool remove_control_char = {:<5s};       // remove control chars (category C*)\n    bool normalize_whitespaces = {:<5s};     // convert all whitespaces to a normal space (U+0020)\n    bool add_space_around_cjk_char = {:<5s}; // add space around all CJK characters\n    bool do_lower_case = {:<5s};             // force input to be lowercase letters\n    bool strip_accents = {:<5s};             // remove all accent chars\n    bool split_on_punc = {:<5s};             // split words at a punctuation\n  }}")
    [boolArg true, boolArg c.removeRepl, boolArg c.removeNull, boolArg c.removeCtrl, boolArg c.normWs,
     boolArg c.addCjk, boolArg c.lowerCase, boolArg c.stripAcc, boolArg c.splitPunc]

/-- As `bertInit`, bert.cpp:111-207. -/
def bertInitL (g : Gguf) (v : VocabT) : LogM (Option VocabR) := do
  let cls ← getTokenIdL g "berts.cls_id" (bertToIdL v) (ascii "[CLS]") (some (ascii "<s>"))
  let mask ← getTokenIdL g "berts.mask_id" (bertToIdL v) (ascii "[MASK]") (some (ascii "<mask>"))
  let pad ← getTokenIdL g "berts.pad_id" (bertToIdL v) (ascii "[PAD]") (some (ascii "<pad>"))
  let sep ← getTokenIdL g "berts.sep_id" (bertToIdL v) (ascii "[SEP]") (some (ascii "</s>"))
  let unk ← getTokenIdL g "berts.unk_id" (bertToIdL v) (ascii "[UNK]") (some (ascii "<unk>"))
  sayWhen 1 do
    showId v (bytes! "  cls_id:  {} ({})") cls
    showId v (bytes! "  mask_id: {} ({})") mask
    showId v (bytes! "  pad_id:  {} ({})") pad
    showId v (bytes! "  sep_id:  {} ({})") sep
    showId v (bytes! "  unk_id:  {} ({})") unk
  if cls = INVALID ∨ mask = INVALID ∨ pad = INVALID ∨ sep = INVALID ∨ unk = INVALID then pure none
  else do
    let lower ← lift (boolOr g "berts.do_lower_case" true)
    let basic ← lift (boolOr g "berts.do_basic_tokenize" true)
    let cjk ← lift (boolOr g "berts.tokenize_chinese_chars" true)
    let strip ← lift (boolOr g "berts.strip_accent" lower)
    let cond : Bert.TokInfo := { (if basic then Bert.basicInfo else Bert.noBasicInfo) with
      lowerCase := lower, addCjk := cjk, stripAcc := strip }
    sayWhen 1 (condL basic cond)
    if v.tokenCount = 0 then do
      say .error (bytes! "fail to build vocab")
      pure none
    else pure (some (.bert v ⟨cls, mask, pad, sep, unk, INVALID, INVALID⟩ cond))

/-- `token_to_id` of RoBERTa's vocabulary, roberta.cpp:119-127. -/
def robertaToIdL (signed : Bool) (v : VocabT) (t : List Nat) : LogM Nat := do
  let us ← lift (Roberta.encodeBytes signed t)
  let bs ← lift (Roberta.encodeUnits us)
  toIdL (v.tokenToId bs) (v.hasToken bs) bs

/-- As `Bpe.addMerges`, the loop of `load_vocab`, bpe.cpp:166-195. -/
def addMergesL (rankStart : Nat) (b : Bpe) (index : Nat) : List (Nat × Nat) → LogM (Bool × Bpe)
  | [] => pure (true, b)
  | (id0, id1) :: ms =>
    match b.idToToken id0 with
    | none => do
      sayF .error (bytes! "token id {} is not found in vocab") [numArg id0]
      pure (false, b)
    | some t0 =>
      match b.idToToken id1 with
      | none => do
        sayF .error (bytes! "token id {} is not found in vocab") [numArg id1]
        pure (false, b)
      | some t1 => do
        let t ← lift (b.concat t0 t1)
        match b.tokenToId t with
        | none => do
          let e ← lift (Roberta.encodeUnits t)
          sayF .error (bytes! "merged token {} is not found in vocab") [textArg e]
          pure (false, b)
        | some id =>
          addMergesL rankStart
            { b with merge := Bpe.assign b.merge (id0, id1) ((rankStart + index) % 2 ^ 32, id) } (index + 1) ms

/-- As `Roberta.checkMerge`, roberta.cpp:205-228; the number of elements is that of the data. -/
def checkMergeL : Option LT → LogM (Option (List (Nat × Nat)))
  | none => do
    sayF .error (bytes! "merge data ({}) is not found") [textArg (ascii "berts.merge.data")]
    pure none
  | some t =>
    if t.ndims ≠ 1 then do
      sayF .error (bytes! "invalid shape: merge_data={}") [numArg t.ndims]
      pure none
    else if t.type ≠ 18 then do
      sayF .error (bytes! "invalid type of merge_data: {}") [numArg t.type]
      pure none
    else if (words t.data).length % 3 ≠ 0 then do
      sayF .error (bytes! "invalid size of merge_data: {}") [numArg (words t.data).length]
      pure none
    else do
      sayF .debug (bytes! "  merge count: {}") [numArg ((words t.data).length / 3)]
      pure (some (Roberta.mergePairs (words t.data)))

/-- `load_vocab`, bpe.cpp:138-200. -/
def loadVocabL (b : Bpe) (vocab : List (Str × Nat)) (ms : List (Nat × Nat)) : LogM (Bool × Bpe) := do
  say .debug (bytes! "loading BPE vocab")
  say .debug (bytes! "  merge")
  let r ← addMergesL b.merge.length (b.addVocab vocab) 0 ms
  if r.1 then do
    say .debug (bytes! "finish loading BPE vocab")
    pure r
  else pure r

/-- As `Roberta.initBpe`, roberta.cpp:196-243. -/
def initBpeL (merge : Option LT) (order : List (Str × Nat) → List (Str × Nat)) (v : VocabT) (sp : Special) :
    LogM (Option VocabR) := do
  let _ ← Bert.idToTokenL v sp.unk
  let unkBytes ← lift (Roberta.idToToken v sp.unk)
  let unk ← lift (Unicode.UImpl.ofUtf8 unkBytes).readUnits
  let units ← lift (Roberta.tokenUnits v.idToTok)
  let ms ← checkMergeL merge
  match ms with
  | none => pure none
  | some ms => do
    let r ← loadVocabL (Bpe.new unk 0 true) (order (Roberta.emplaceAll [] 0 units)) ms
    if r.1 then pure (some (.roberta ⟨v, sp, r.2⟩))
    else do
      say .error (bytes! "failed to load bpe vocab")
      pure none

/-- As `robertaInit`, roberta.cpp:129-244. -/
def robertaInitL (signed : Bool) (order : List (Str × Nat) → List (Str × Nat)) (g : Gguf) (ts : List LT)
    (v : VocabT) : LogM (Option VocabR) := do
  let bos ← getTokenIdL g "berts.bos_id" (robertaToIdL signed v) (ascii "<s>") none
  let eos ← getTokenIdL g "berts.eos_id" (robertaToIdL signed v) (ascii "</s>") none
  let cls ← getTokenIdL g "berts.cls_id" (robertaToIdL signed v) (ascii "<s>") none
  let mask ← getTokenIdL g "berts.mask_id" (robertaToIdL signed v) (ascii "<mask>") none
  let pad ← getTokenIdL g "berts.pad_id" (robertaToIdL signed v) (ascii "<pad>") none
  let sep ← getTokenIdL g "berts.sep_id" (robertaToIdL signed v) (ascii "</s>") none
  let unk ← getTokenIdL g "berts.unk_id" (robertaToIdL signed v) (ascii "<unk>") none
  let bos := if bos = INVALID then cls else bos
  let eos := if eos = INVALID then sep else eos
  let cls := if cls = INVALID then bos else cls
  let sep := if sep = INVALID then eos else sep
  sayWhen 1 do
    let bosT ← Bert.idToTokenL v bos
    let eosT ← Bert.idToTokenL v eos
    let clsT ← Bert.idToTokenL v cls
    let maskT ← Bert.idToTokenL v mask
    let padT ← Bert.idToTokenL v pad
    let sepT ← Bert.idToTokenL v sep
    let unkT ← Bert.idToTokenL v unk
    sayF .info (bytes! "  bos_id:  {} ({})") [numArg bos, textArg bosT]
    sayF .info (bytes! "  eos_id:  {} ({})") [numArg eos, textArg eosT]
    sayF .info (bytes! "  cls_id:  {} ({})") [numArg cls, textArg clsT]
    sayF .info (bytes! "  mask_id: {} ({})") [numArg mask, textArg maskT]
    sayF .info (bytes! "  pad_id:  {} ({})") [numArg pad, textArg padT]
    sayF .info (bytes! "  sep_id:  {} ({})") [numArg sep, textArg sepT]
    sayF .info (bytes! "  unk_id:  {} ({})") [numArg unk, textArg unkT]
  if bos = INVALID ∨ eos = INVALID ∨ cls = INVALID ∨ mask = INVALID ∨ pad = INVALID ∨ sep = INVALID ∨
      unk = INVALID then pure none
  else initBpeL (getTensor ts (ascii "berts.merge.data")) order v ⟨cls, mask, pad, sep, unk, bos, eos⟩

/-- As `readTokens`, model_base.hpp:233-245. -/
def readTokensL (data : List Nat) : List Nat → Nat → VocabT → LogM (Option VocabT × Nat)
  | [], p, v => pure (some v, p)
  | l :: ls, p, v =>
    let len := if l = 0 then 256 else l
    if p + len ≤ data.length then do
      let token := (data.drop p).take len
      let r ← v.addTokenL token
      if r.1 then readTokensL data ls (p + len) r.2
      else do
        sayF .error (bytes! "failed to add token: {}") [textArg token]
        pure (none, p + len)
    else lift .ub

/-- As `vocabInit`, model_base.hpp:189-262; the number of elements of a tensor is that of its data. -/
def vocabInitL (signed : Bool) (order : List (Str × Nat) → List (Str × Nat)) (arch : Nat) (g : Gguf)
    (ts : List LT) : LogM (Option VocabR) := do
  say .info (bytes! "loading vocab")
  match getTensor ts (ascii "berts.vocab.size"), getTensor ts (ascii "berts.vocab.data") with
  | none, _ => do
    sayF .error (bytes! "key {} is not found") [textArg (ascii "berts.vocab.size")]
    pure none
  | some _, none => do
    sayF .error (bytes! "key {} is not found") [textArg (ascii "berts.vocab.data")]
    pure none
  | some st, some dt =>
    if st.ndims ≠ 1 ∨ dt.ndims ≠ 1 then do
      sayF .error (bytes! "invalid shape: vocab_size={}, vocab_data={}") [numArg st.ndims, numArg dt.ndims]
      pure none
    else if st.type ≠ 16 then do
      sayF .error (bytes! "invalid type of vocab_size: {}") [numArg st.type]
      pure none
    else if dt.type ≠ 16 then do
      sayF .error (bytes! "invalid type of vocab_data: {}") [numArg dt.type]
      pure none
    else do
      sayF .debug (bytes! "  vocab count: {}") [numArg st.data.length]
      let r ← readTokensL dt.data st.data 0 VocabT.new
      match r.1 with
      | none => pure none
      | some v =>
        if r.2 ≠ dt.data.length then do
          say .error (bytes! "something wrong")
          pure none
        else do
          let r ← if arch = 0 then bertInitL g v else robertaInitL signed order g ts v
          match r with
          | none => do
            say .error (bytes! "fail to build vocab")
            pure none
          | some v => do
            say .info (bytes! "finish loading vocab")
            pure (some v)

/-! ## The weights -/

/-- The names of the tensors of a layer in the order in which they are looked up, bert.cpp:313-328. -/
def layerKeys (n : Nat) : List (List Nat) :=
  [layerKey n "attention.self.query.weight", layerKey n "attention.self.query.bias",
   layerKey n "attention.self.key.weight", layerKey n "attention.self.key.bias",
   layerKey n "attention.self.value.weight", layerKey n "attention.self.value.bias",
   layerKey n "attention.output.dense.weight", layerKey n "attention.output.dense.bias",
   layerKey n "attention.output.LayerNorm.weight", layerKey n "attention.output.LayerNorm.bias",
   layerKey n "intermediate.dense.weight", layerKey n "intermediate.dense.bias",
   layerKey n "output.dense.weight", layerKey n "output.dense.bias",
   layerKey n "output.LayerNorm.weight", layerKey n "output.LayerNorm.bias"]

/-- The names of the tensors every model needs, in order, bert.cpp:301-332. -/
def neededKeys (nLayers : Nat) : List (List Nat) :=
  [key "embeddings.word_embeddings.weight", key "embeddings.token_type_embeddings.weight",
   key "embeddings.position_embeddings.weight", key "embeddings.LayerNorm.weight", key "embeddings.LayerNorm.bias"] ++
  (List.range nLayers).flatMap layerKeys ++ [key "pooler.dense.weight", key "pooler.dense.bias"]

/-- The names of the tensors of the language-model head, bert.cpp:334-339. -/
def headKeys : List (List Nat) :=
  [key "predictions.transform.dense.weight", key "predictions.transform.dense.bias",
   key "predictions.transform.LayerNorm.weight", key "predictions.transform.LayerNorm.bias",
   key "predictions.decoder.weight", key "predictions.decoder.bias"]

/-- `tensor`, bert.cpp:254-261: whether it was found; the last message comes in any case. -/
def tensorL (ts : List LT) (k : List Nat) : LogM Bool :=
  match getTensor ts k with
  | none => do
    sayF .error (bytes! "failed to read tensor: {}") [textArg k]
    sayF .debug (bytes! "  store {}") [textArg k]
    pure false
  | some _ => do
    sayF .debug (bytes! "  store {}") [textArg k]
    pure true

/-- The calls of `GET_TENSOR` and `GET_TENSOR_N` one after the other, bert.cpp:267-275, 288-332: `false` at the first
missing tensor.  `stored` gets all names if none is missing. -/
def neededL (ts : List LT) : List (List Nat) → LogM Bool
  | [] => pure true
  | k :: ks => do
    let found ← tensorL ts k
    if found then neededL ts ks else pure false

/-- The calls of `GET_TENSOR_OPT`, bert.cpp:277-287, 334-339: what they add to `stored` and `not_stored`. -/
def optionalL (ts : List LT) : List (List Nat) → LogM (List (List Nat) × List (List Nat))
  | [] => pure ([], [])
  | k :: ks => do
    let found ← tensorL ts k
    let r ← optionalL ts ks
    pure (if found then (k :: r.1, r.2) else (r.1, k :: r.2))

/-- The loop that prints unused tensors, bert.cpp:342-352, from tensor `i` on. -/
def unusedL (stored : List (List Nat)) : Nat → List TInfo → LogM Unit
  | _, [] => pure ()
  | i, t :: ts =>
    if t.name ∉ stored ∧ t.name ≠ ascii "berts.vocab.size" ∧ t.name ≠ ascii "berts.vocab.data" then do
      sayF .info (bytes! "  unused {} {}") [numArg i, textArg t.name]
      unusedL stored (i + 1) ts
    else unusedL stored (i + 1) ts

/-- The loop that prints skipped tensors, bert.cpp:355-363, from tensor `i` on. -/
def skippedL (notStored : List (List Nat)) : Nat → List TInfo → LogM Unit
  | _, [] => pure ()
  | i, t :: ts =>
    if t.name ∈ notStored then do
      sayF .info (bytes! "  skipped {} {}") [numArg i, textArg t.name]
      skippedL notStored (i + 1) ts
    else skippedL notStored (i + 1) ts

/-- `weights::init`, bert.cpp:263-366: the messages and whether it returns true.  The tensors it stores are those of
`initWeights`. -/
def weightsL (g : Gguf) (ts : List LT) (nLayers : Nat) : LogM Bool := do
  let ok ← neededL ts (neededKeys nLayers)
  if ok then do
    let r ← optionalL ts headKeys
    sayWhen 1 (unusedL (neededKeys nLayers ++ r.1) 0 g.dir)
    sayWhen 1 (skippedL r.2 0 g.dir)
    pure true
  else pure false

/-! ## Loading -/

variable {α : Type}

/-- As `create`, internal.cpp:24-45, with `init_weight`, model_base.hpp:264-282. -/
def createL (w : World α) (g : Gguf) (hp : Hp) (type : Nat) (ts : List LT) (l : Ledger) :
    LogM (Option (Ctx α) × Ledger) := do
  let l := acquire l .ctx
  let v ← vocabInitL w.signed w.order hp.arch g ts
  match v with
  | none => do
    say .error (bytes! "fail to load vocab")
    pure (none, deleteCtx l)
  | some v => do
    say .info (bytes! "initializing weights")
    let ok ← weightsL g ts hp.hp.nLayers
    match ok, initWeights (fun k => (getTensor ts k).map w.conv) hp.hp.nLayers with
    | true, some ws => do
      say .info (bytes! "finish initializing weights")
      pure (some ⟨hp, type, ts, v, ws⟩, l)
    | _, _ => do
      say .error (bytes! "fail to load weights")
      pure (none, deleteCtx l)

/-- As `finish`, gguf.cpp:214-288. -/
def finishL (pr : Printed) (w : World α) (g : Gguf) (ts : List LT) (l : Ledger) :
    LogM (Option (Ctx α) × Ledger) := do
  let hp ← hparamsL pr.dbl g
  let type ← lift (u32 g "general.file_type")
  lift (ftype type)
  if hp.hp.act ≠ 0 then do
    sayF .error (bytes! "unknown hidden_act: {}") [intArg (asI32 hp.hp.act)]
    leaveL pr none l
  else if hp.arch ≠ 0 ∧ hp.arch ≠ 1 then do
    sayF .error (bytes! "unknown bert_type: {}") [intArg (asI32 hp.arch)]
    leaveL pr none l
  else do
    let l := acquire l .model
    let r ← lift (Handle.release l.h 1)
    let r ← lift (Handle.release r.2 2)
    let c ← createL w g hp type ts { l with h := r.2 }
    leaveL pr c.1 c.2

/-- As `loadWeights`, gguf.cpp:175-288. -/
def loadWeightsL (pr : Printed) (w : World α) (g : Gguf) (size : Nat) (l : Ledger) :
    LogM (Option (Ctx α) × Ledger) :=
  if w.poolInit size then do
    let h ← ctorL pr l.h 2 (some .weights)
    let l := acquire { l with h := h } .weights
    match w.file with
    | none => do
      say .error (bytes! "fail to open gguf file")
      leaveL pr none l
    | some bytes => do
      let r ← loadLoopL w.gg g (poolSize w.gg size) w.junk 0 g.dir 0 ⟨bytes, 0, false⟩ []
      match r with
      | none => do
        say .error (bytes! "failed to seek gguf file")
        leaveL pr none l
      | some ts => finishL pr w g ts l
  else do
    let h ← ctorL pr l.h 2 none
    say .error (bytes! "fail to init ggml")
    leaveL pr none { l with h := h }

/-- As `load`, gguf.cpp:161-288, for the file name `path`. -/
def loadL (pr : Printed) (w : World α) (path : List Nat) : LogM (Option (Ctx α) × Ledger) := do
  sayF .info (bytes! "loading model: {}") [textArg path]
  match w.gguf with
  | none => do
    let h ← ggCtorL pr Handle.St.init 0 1 3 none
    sayF .error (bytes! "fail to load gguf file: {}") [textArg path]
    let l ← closeGgL pr ⟨h, []⟩
    pure (none, l)
  | some g => do
    let h ← ggCtorL pr Handle.St.init 0 1 3 (some (.gguf, .meta))
    let size ← initGgL w.gg g
    loadWeightsL pr w g size ⟨h, [.gguf, .meta]⟩

end Berts.Load
