import Verif.Model.Trie

/-!
# Model of the vocabulary classes

`vocab_base` and `vocab_base2` (berts/models/model_base.hpp), `model_base::init_vocab`
(model_base.hpp), the special-token part of `vocab::init` (bert.cpp, roberta.cpp) and `write_vocab`
of the converter (convert_hf_to_gguf.py).

Tokens are byte strings (`List Nat`).  `std::unordered_map` is a partial function.
-/

namespace Berts.Vocab

/-- `vocab_base2`, model_base.hpp:120-121. -/
structure VocabT where
  idToTok : List (List Nat)
  tokToId : List Nat → Option Nat

namespace VocabT

/-- `vocab_base2()`, model_base.hpp:123. -/
def new : VocabT := ⟨[], fun _ => none⟩

/-- `token_count`, model_base.hpp:125-127. -/
def tokenCount (v : VocabT) : Nat := v.idToTok.length

/-- `id_to_token`, model_base.hpp:129-135. -/
def idToToken (v : VocabT) (id : Nat) : List Nat :=
  if v.idToTok.length ≤ id then [] else v.idToTok[id]?.getD []

/-- `token_to_id`, model_base.hpp:137-144. -/
def tokenToId (v : VocabT) (t : List Nat) : Nat :=
  match v.tokToId t with
  | none => INVALID
  | some i => i

/-- `has_token`, model_base.hpp:159-162. -/
def hasToken (v : VocabT) (t : List Nat) : Bool := (v.tokToId t).isSome

/-- `add_token`, model_base.hpp:146-157: the return value and the new state. -/
def addToken (v : VocabT) (t : List Nat) : Bool × VocabT :=
  if v.hasToken t then (false, v)
  else
    let nextId := v.idToTok.length % 2 ^ 32
    (true, ⟨v.idToTok ++ [t], fun x => if x = t then some nextId else v.tokToId x⟩)

/-- `clear`, model_base.hpp:164-167. -/
def clear (_ : VocabT) : VocabT := new

end VocabT

/-- Modifying calls on a vocabulary. -/
inductive Op where
  | add (t : List Nat)
  | clear

/-- Effect of a call. -/
def VocabT.step (v : VocabT) : Op → VocabT
  | .add t => (v.addToken t).2
  | .clear => v.clear

/-- Effect of a sequence of calls. -/
def VocabT.run (v : VocabT) (ops : List Op) : VocabT := ops.foldl VocabT.step v

/-! ## Reading the vocabulary tensors -/

/-- The loop of `init_vocab`, model_base.hpp:233-245: `lengths` is what is left of
`token_lengths`, `p` the read position in `data`.  `std::string{&data[p], token_len}` reads
`token_len` bytes whether or not the data tensor has that many.  Result: the vocabulary (or
failure) and the final `p`. -/
def readTokens (data : List Nat) : List Nat → Nat → VocabT → Res (Option VocabT × Nat)
  | [], p, v => .ok (some v, p)
  | l :: ls, p, v =>
    let len := if l = 0 then 256 else l
    if p + len ≤ data.length then
      let token := (data.drop p).take len
      match v.addToken token with
      | (false, _) => .ok (none, p + len)
      | (true, v') => readTokens data ls (p + len) v'
    else .ub

/-- A one-dimensional tensor of the weight context: element type is I8 or not, number of
dimensions, contents. -/
structure BlobTensor where
  isI8 : Bool
  nDims : Nat
  bytes : List Nat

/-- `init_vocab`, model_base.hpp:189-262, for a context with model; `sizeT`/`dataT` are the tensors
found by name, `init` is `vocab->init`.  `none` is `return false`. -/
def initVocab (sizeT dataT : Option BlobTensor) (v0 : VocabT) (init : VocabT → Option VocabT) :
    Res (Option VocabT) :=
  match sizeT, dataT with
  | none, _ => .ok none
  | _, none => .ok none
  | some st, some dt =>
    if st.nDims ≠ 1 ∨ dt.nDims ≠ 1 then .ok none
    else if !st.isI8 then .ok none
    else if !dt.isI8 then .ok none
    else do
      let (r, p) ← readTokens dt.bytes st.bytes 0 v0
      match r with
      | none => return none
      | some v =>
        if p ≠ dt.bytes.length then return none
        else return init v

/-! ## Special tokens -/

/-- `get_token_id`, model_base.hpp:64-100.  `metaId` is the u32 stored under the key, if any;
`toId` is the virtual `token_to_id`. -/
def getTokenId (metaId : Option Nat) (toId : List Nat → Nat) (alt1 alt2 : Option (List Nat)) : Nat :=
  let id := metaId.getD INVALID
  if id = INVALID then
    match alt1 with
    | none => INVALID
    | some a1 =>
      let id := toId a1
      if id = INVALID then
        match alt2 with
        | none => INVALID
        | some a2 => toId a2
      else id
  else id

/-- ASCII bytes of a literal. -/
def ascii (s : String) : List Nat := s.toList.map Char.toNat

/-- The special-token metadata of a model file. -/
structure Meta where
  cls : Option Nat
  mask : Option Nat
  pad : Option Nat
  sep : Option Nat
  unk : Option Nat
  bos : Option Nat
  eos : Option Nat

/-- The special ids of a vocabulary. -/
structure Special where
  cls : Nat
  mask : Nat
  pad : Nat
  sep : Nat
  unk : Nat
  bos : Nat
  eos : Nat
deriving DecidableEq

/-- The special-token part of BERT's `vocab::init`, bert.cpp:115-141, and `build_trie`'s
non-emptiness test (72-75, 200-204).  BERT has no bos/eos (103-109). -/
def bertSpecials (m : Meta) (v : VocabT) : Option Special :=
  let cls := getTokenId m.cls v.tokenToId (some (ascii "[CLS]")) (some (ascii "<s>"))
  let mask := getTokenId m.mask v.tokenToId (some (ascii "[MASK]")) (some (ascii "<mask>"))
  let pad := getTokenId m.pad v.tokenToId (some (ascii "[PAD]")) (some (ascii "<pad>"))
  let sep := getTokenId m.sep v.tokenToId (some (ascii "[SEP]")) (some (ascii "</s>"))
  let unk := getTokenId m.unk v.tokenToId (some (ascii "[UNK]")) (some (ascii "<unk>"))
  if cls = INVALID ∨ mask = INVALID ∨ pad = INVALID ∨ sep = INVALID ∨ unk = INVALID then none
  else if v.tokenCount = 0 then none
  else some ⟨cls, mask, pad, sep, unk, INVALID, INVALID⟩

/-- The special-token part of RoBERTa's `vocab::init`, roberta.cpp:133-190.  `toId` is
`roberta::vocab::token_to_id`. -/
def robertaSpecials (m : Meta) (toId : List Nat → Nat) : Option Special :=
  let bos := getTokenId m.bos toId (some (ascii "<s>")) none
  let eos := getTokenId m.eos toId (some (ascii "</s>")) none
  let cls := getTokenId m.cls toId (some (ascii "<s>")) none
  let mask := getTokenId m.mask toId (some (ascii "<mask>")) none
  let pad := getTokenId m.pad toId (some (ascii "<pad>")) none
  let sep := getTokenId m.sep toId (some (ascii "</s>")) none
  let unk := getTokenId m.unk toId (some (ascii "<unk>")) none
  let bos := if bos = INVALID then cls else bos
  let eos := if eos = INVALID then sep else eos
  let cls := if cls = INVALID then bos else cls
  let sep := if sep = INVALID then eos else sep
  if bos = INVALID ∨ eos = INVALID ∨ cls = INVALID ∨ mask = INVALID ∨ pad = INVALID ∨
      sep = INVALID ∨ unk = INVALID then none
  else some ⟨cls, mask, pad, sep, unk, bos, eos⟩

/-! ## The converter -/

/-- Decimal digits as characters, `f'{k}'`. -/
def decimal (n : Nat) : List Nat :=
  if n < 10 then [48 + n] else decimal (n / 10) ++ [48 + n % 10]
termination_by n

/-- `f'[unused{k}]'`, convert_hf_to_gguf.py:292 and 295, as code points. -/
def unusedName (k : Nat) : List Nat := ascii "[unused" ++ decimal k ++ ascii "]"

/-- The first loop of `write_vocab`, convert_hf_to_gguf.py:278-283, over the items of the
tokenizer's dictionary.  `none`: an assertion fails or the index is out of range. -/
def placeTokens : List (Option (List Nat)) → List (List Nat × Nat) → Option (List (Option (List Nat)))
  | tokens, [] => some tokens
  | tokens, (t, id) :: rest =>
    match tokens[id]? with
    | some none => placeTokens (tokens.set id (some t)) rest
    | _ => none

/-- The inner `while token in tokens`, convert_hf_to_gguf.py:293-295: the first index from `k` on
whose name does not occur.  `fuel` bounds the number of iterations. -/
def freshIndex (tokens : List (Option (List Nat))) : Nat → Nat → Option Nat
  | 0, _ => none
  | fuel + 1, k => if some (unusedName k) ∈ tokens then freshIndex tokens fuel (k + 1) else some k

/-- The naming part of the second loop, convert_hf_to_gguf.py:289-297: `todo` are the tokens still
to be visited, `k` is `unused_index`.  `tokens` itself is not modified by the loop.  `none` would
mean that the inner loop exceeds `tokens.length + 1` iterations. -/
def fillLoop (tokens : List (Option (List Nat))) : List (Option (List Nat)) → Nat →
    Option (List (List Nat))
  | [], _ => some []
  | some t :: todo, k => (fillLoop tokens todo k).map (t :: ·)
  | none :: todo, k =>
    match freshIndex tokens (tokens.length + 1) k with
    | none => none
    | some j => (fillLoop tokens todo (j + 1)).map (unusedName j :: ·)

/-- The token list `write_vocab` produces from the tokenizer's dictionary. -/
def converterTokens (vocabSize : Nat) (dict : List (List Nat × Nat)) : Option (List (List Nat)) :=
  match placeTokens (List.replicate vocabSize none) dict with
  | none => none
  | some tokens => fillLoop tokens tokens 0

/-- The byte part of the second loop, convert_hf_to_gguf.py:299-311: the two blobs.  `none`: the
`ValueError` for a too long token. -/
def writeBlobs : List (List Nat) → Option (List Nat × List Nat)
  | [] => some ([], [])
  | t :: ts =>
    if 256 < t.length then none
    else
      let n := if t.length = 256 then 0 else t.length
      (writeBlobs ts).map (fun (ls, ds) => (n :: ls, t ++ ds))

end Berts.Vocab
