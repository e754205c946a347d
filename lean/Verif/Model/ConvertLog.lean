import Verif.Model.Convert

/-!
# The output of the converter (`berts/models/convert_hf_to_gguf.py`)

`convert` of `Verif.Model.Convert` again, with its `print` statements and with the tensors added one after
the other.  The bytes that `print` writes are those of the texts in UTF-8; that the terminal takes them is
assumed.  How Python shows a double and the words of `never_split` is a parameter.  Quotients of byte
counts are exact (they are dyadic fractions of integers below 2^53), so `:.1f` is modelled on integers.
A source of class `other` is one that `load_diffusers` accepts (DeBERTa).
-/

namespace Berts.ConvertLog

open Berts.Convert
open Berts.Vocab (ascii decimal placeTokens fillLoop writeBlobs)
open Berts.Load (Kv TInfo Gguf)

variable {α β γ : Type}

/-! ## Python -/

/-- What has been printed, and a value unless an exception was raised. -/
structure Py (β : Type) where
  out : List (List Nat)
  val : Option β

namespace Py

def pure (b : β) : Py β := ⟨[], some b⟩

/-- After an exception nothing is executed. -/
def bind (x : Py β) (f : β → Py γ) : Py γ :=
  match x.val with
  | none => ⟨x.out, none⟩
  | some b => ⟨x.out ++ (f b).out, (f b).val⟩

end Py

instance : Monad Py where
  pure := Py.pure
  bind := Py.bind

/-- `print(s)`. -/
def say (s : List Nat) : Py Unit := ⟨[s], some ()⟩

/-- A step that raises an exception or delivers a value, and prints nothing. -/
def try' (x : Option β) : Py β := ⟨[], x⟩

/-- The characters that `str.strip` removes, those above ASCII left out. -/
def isBlank (c : Nat) : Bool := (9 ≤ c && c ≤ 13) || (28 ≤ c && c ≤ 32)

/-- `str.strip`. -/
def strip (s : List Nat) : List Nat := ((s.dropWhile isBlank).reverse.dropWhile isBlank).reverse

/-- What Python and `transformers` contribute: `repr` of a double (given by its bits), `str` of
`never_split`, the texts of the special tokens, the bytes per element of a parameter (`itemsize`). -/
structure Env (α : Type) where
  f64 : Nat → List Nat
  never : List (List Nat) → List Nat
  clsText : Option (List Nat)
  maskText : Option (List Nat)
  padText : Option (List Nat)
  sepText : Option (List Nat)
  unkText : Option (List Nat)
  bosText : Option (List Nat)
  eosText : Option (List Nat)
  itemsize : Param α → Nat

/-- `f'{x}'` for a string or `None`. -/
def pyText : Option (List Nat) → List Nat
  | none => ascii "None"
  | some t => t

/-- `f'{x}'` for a number or `None`. -/
def pyNat : Option Nat → List Nat
  | none => ascii "None"
  | some n => decimal n

/-- `f'{x}'` for a Boolean. -/
def pyBool (b : Bool) : List Nat := if b then ascii "True" else ascii "False"

/-- `f'{x}'` for a Boolean or `None`. -/
def pyOptBool : Option Bool → List Nat
  | none => ascii "None"
  | some b => pyBool b

/-- The tenths of `n / d` to the nearest, ties to even. -/
def tenths (n d : Nat) : Nat :=
  let q := 10 * n / d
  let r := 10 * n % d
  if 2 * r < d then q else if d < 2 * r then q + 1 else if q % 2 = 0 then q else q + 1

/-- `f'{n/d:.1f}'`. -/
def fixed1 (n d : Nat) : List Nat := decimal (tenths n d / 10) ++ ascii "." ++ decimal (tenths n d % 10)

/-! ## Metadata -/

/-- The message about the hyperparameters, convert_hf_to_gguf.py:87-100 and 194-207. -/
def hparamText (E : Env α) (arch : String) (c : Config) : List Nat :=
  strip (ascii "\n[hparams]\n  arch       = " ++ ascii arch ++
    ascii "\n  vocab_size = " ++ decimal c.vocabSize ++
    ascii "\n  hidden_dim = " ++ decimal c.hidden ++
    ascii "\n  n_layers   = " ++ decimal c.layers ++
    ascii "\n  attn_heads = " ++ decimal c.heads ++
    ascii "\n  max_token  = " ++ decimal c.maxPos ++
    ascii "\n  interm_dim = " ++ decimal c.interm ++
    ascii "\n  hidden_act = " ++ c.act ++
    ascii "\n  segments   = " ++ decimal c.typeVocab ++
    ascii "\n  eps        = " ++ E.f64 c.eps ++
    ascii "\n  init_range = " ++ E.f64 c.initRange ++ ascii "\n")

/-- The lines about the special tokens of both models, convert_hf_to_gguf.py:123-130 and 245-252. -/
def specialLines (E : Env α) (t : Tokenizer) : List Nat :=
  ascii "\n[special tokens]\n  cls_id  = " ++ pyNat t.cls ++ ascii " " ++ pyText E.clsText ++
    ascii "\n  mask_id = " ++ pyNat t.mask ++ ascii " " ++ pyText E.maskText ++
    ascii "\n  pad_id  = " ++ pyNat t.pad ++ ascii " " ++ pyText E.padText ++
    ascii "\n  sep_id  = " ++ pyNat t.sep ++ ascii " " ++ pyText E.sepText ++
    ascii "\n  unk_id  = " ++ pyNat t.unk ++ ascii " " ++ pyText E.unkText

/-- convert_hf_to_gguf.py:123-130. -/
def bertSpecialText (E : Env α) (t : Tokenizer) : List Nat := strip (specialLines E t ++ ascii "\n")

/-- convert_hf_to_gguf.py:245-254. -/
def robertaSpecialText (E : Env α) (t : Tokenizer) : List Nat :=
  strip (specialLines E t ++
    ascii "\n  bos_id  = " ++ pyNat t.bos ++ ascii " " ++ pyText E.bosText ++
    ascii "\n  eos_id  = " ++ pyNat t.eos ++ ascii " " ++ pyText E.eosText ++ ascii "\n")

/-- convert_hf_to_gguf.py:155-162. -/
def optionText (E : Env α) (t : Tokenizer) : List Nat :=
  strip (ascii "\n[tokenizer params]\n  do_lower_case = " ++ pyOptBool t.lowerCase ++
    ascii "\n  do_basic_tokenize = " ++ pyOptBool t.basic ++
    ascii "\n  tokenize_chinese_chars = " ++ pyOptBool t.chinese ++
    ascii "\n  never_split = " ++ pyText (t.neverSplit.map E.never) ++
    ascii "\n  strip_accents = " ++ pyOptBool t.strip ++ ascii "\n")

/-- `write_bert`, convert_hf_to_gguf.py:72-176. -/
def writeBertP (E : Env α) (c : Config) (t : Tokenizer) : Py (List (List Nat × Kv)) := do
  say (hparamText E "BERT" c)
  let k1 ← try' (hparamKv 0 0 c)
  let _ ← try' (if c.act = ascii "gelu" then some () else none)
  say (bertSpecialText E t)
  let k2 ← try' (specialKv t)
  say (optionText E t)
  match t.neverSplit with
  | some (_ :: _) => try' none
  | _ => pure (k1 ++ k2 ++ optBool "berts.do_lower_case" t.lowerCase ++ optBool "berts.do_basic_tokenize" t.basic ++
      optBool "berts.tokenize_chinese_chars" t.chinese ++ optBool "berts.strip_accent" t.strip)

/-- `write_roberta`, convert_hf_to_gguf.py:179-269. -/
def writeRobertaP (E : Env α) (c : Config) (t : Tokenizer) : Py (List (List Nat × Kv)) := do
  say (hparamText E "RoBERTa" c)
  let act ← try' (actType c.act)
  let k1 ← try' (hparamKv 1 act c)
  say (robertaSpecialText E t)
  let k2 ← try' (specialKv t)
  let k3 ← try' (optU32 "berts.bos_id" t.bos)
  let k4 ← try' (optU32 "berts.eos_id" t.eos)
  pure (k1 ++ k2 ++ k3 ++ k4)

/-! ## Tensors -/

/-- `add_tensor`: `ts` are the tensors added so far; another one of the same name raises. -/
def add (ts : List Tensor) (t : Tensor) : Option (List Tensor) :=
  if t.name ∈ ts.map (·.name) then none else some (ts ++ [t])

/-- The message about the tokens, convert_hf_to_gguf.py:316-321; `unused` is the number of ids without a
token. -/
def tokenText (total unused : Nat) : List Nat :=
  strip (ascii "\n[tokens]\n  total  = " ++ decimal total ++
    ascii "\n  used   = " ++ decimal (total - unused) ++
    ascii "\n  unused = " ++ decimal unused ++ ascii "\n")

/-- `write_vocab`, convert_hf_to_gguf.py:272-321. -/
def writeVocabP (c : Config) (t : Tokenizer) : Py (List Tensor) := do
  say (ascii "writing vocab...")
  let tokens ← try' (placeTokens (List.replicate c.vocabSize none) t.dict)
  let filled ← try' (fillLoop tokens tokens 0)
  let (ls, ds) ← try' (writeBlobs filled)
  let ts ← try' (add [] ⟨ascii "berts.vocab.size", [ls.length], 16, ls⟩)
  let ts ← try' (add ts ⟨ascii "berts.vocab.data", [ds.length], 16, ds⟩)
  say (tokenText tokens.length (tokens.filter (·.isNone)).length)
  pure ts

/-- The message about the merges, convert_hf_to_gguf.py:343-346. -/
def mergeText (n : Nat) : List Nat :=
  strip (ascii "\n[merges]\n  total = " ++ decimal n ++ ascii "\n")

/-- `write_merge`, convert_hf_to_gguf.py:324-346, if the tokenizer has ranks, 386-388. -/
def writeMergeP (t : Tokenizer) (ts : List Tensor) : Py (List Tensor) :=
  match t.ranks with
  | none => pure ts
  | some ranks => do
    say (ascii "writing bpe merges...")
    let l ← try' (mergeData t.dict ranks)
    let _ ← try' (if l.all (· < 2 ^ 31) then some () else none)
    let ts ← try' (add ts ⟨ascii "berts.merge.data", [l.length], 18, l.flatMap (Quantize.le 4)⟩)
    say (mergeText ranks.length)
    pure ts

/-- `q`, convert_hf_to_gguf.py:400-403 and 444-447. -/
def quantized (f16 : Bool) (p : Param α) : Bool :=
  f16 && (squeeze p.shape).length == 2 && p.key.drop (p.key.length - 7) == ascii ".weight"

/-- `tensor.nbytes` of a parameter as it comes, convert_hf_to_gguf.py:398 and 442. -/
def sizeOrg (E : Env α) (p : Param α) : Nat := p.elems.length * E.itemsize p

/-- `tensor.nbytes` after the conversion, convert_hf_to_gguf.py:410 and 454. -/
def sizeNew (f16 : Bool) (p : Param α) : Nat := p.elems.length * (if quantized f16 p then 2 else 4)

/-- The message about a parameter, convert_hf_to_gguf.py:417-422 and 468-473. -/
def paramText (E : Env α) (f16 : Bool) (key : List Nat) (p : Param α) : List Nat :=
  strip (ascii "\n" ++ key ++ ascii ":\n  quantized = " ++ pyBool (quantized f16 p) ++
    ascii "\n  n_dims = " ++ decimal (squeeze p.shape).length ++
    ascii "\n  size = " ++ fixed1 (sizeOrg E p) 1024 ++ ascii " KiB -> " ++
    fixed1 (sizeNew f16 p) 1024 ++ ascii " KiB\n")

/-- What a loop carries along: the tensors added, `total_size_org`, `total_size_new`. -/
structure Acc where
  ts : List Tensor
  org : Nat
  new : Nat

/-- The loop over the parameters of the model, convert_hf_to_gguf.py:395-422. -/
def stateLoop (E : Env α) (enc : Bool → List α → List Nat) (f16 : Bool) : List (Param α) → Acc → Py Acc
  | [], a => pure a
  | p :: ps, a => do
    let ts ← try' (add a.ts (convTensor enc f16 (ascii "berts.bert." ++ p.key) p))
    say (paramText E f16 p.key p)
    stateLoop E enc f16 ps ⟨ts, a.org + sizeOrg E p, a.new + sizeNew f16 p⟩

/-- The loop over the parameters of the head, convert_hf_to_gguf.py:439-473. -/
def lmLoop (E : Env α) (enc : Bool → List α → List Nat) (f16 : Bool) (cls : Cls) : List (Param α) → Acc → Py Acc
  | [], a => pure a
  | p :: ps, a =>
    if lmKey cls p.key = ascii "predictions.bias" then
      lmLoop E enc f16 cls ps ⟨a.ts, a.org + sizeOrg E p, a.new + sizeNew f16 p⟩
    else do
      let ts ← try' (add a.ts (convTensor enc f16 (ascii "berts.bert." ++ lmKey cls p.key) p))
      say (paramText E f16 (lmKey cls p.key) p)
      lmLoop E enc f16 cls ps ⟨ts, a.org + sizeOrg E p, a.new + sizeNew f16 p⟩

/-- The line of equals signs. -/
def rule : List Nat := List.replicate 40 61

/-- The message about the totals, convert_hf_to_gguf.py:475-480. -/
def totalText (org new : Nat) : List Nat :=
  strip (ascii "\n" ++ rule ++ ascii "\noriginal size  = " ++ fixed1 org (1024 * 1024) ++
    ascii " MiB\nquantized size = " ++ fixed1 new (1024 * 1024) ++ ascii " MiB\n" ++ rule ++ ascii "\n")

/-! ## The program -/

/-- `convert`, convert_hf_to_gguf.py:349-483, with what it prints; the parameters are those of
`Convert.convert`. -/
def convertP (E : Env α) (enc : Bool → List α → List Nat) (f16 : Bool) (header : List Nat) (s : Source α) :
    Py (Gguf × List Nat) := do
  say (ascii "start quantization")
  say (ascii "model loaded: " ++ s.name)
  let (arch, kv) ← (match s.cls with
    | .bert => do let kv ← writeBertP E s.config s.tok; pure ("BERT", kv)
    | .roberta => do let kv ← writeRobertaP E s.config s.tok; pure ("RoBERTa", kv)
    | .other => try' none)
  let ts ← writeVocabP s.config s.tok
  let ts ← writeMergeP s.tok ts
  say (ascii "converting...")
  let a ← stateLoop E enc f16 s.state ⟨ts, 0, 0⟩
  let a ← lmLoop E enc f16 s.cls s.lm a
  say (totalText a.org a.new)
  let file := (⟨[(ascii "general.architecture", .str (ascii arch)), (ascii "general.name", .str s.name),
      (ascii "general.alignment", .u32 32)] ++ kv ++ [(ascii "general.file_type", .u32 (if f16 then 1 else 0))],
    directory 0 a.ts, header.length⟩, header ++ dataBytes a.ts)
  say (ascii "quantization completed")
  pure file

end Berts.ConvertLog
