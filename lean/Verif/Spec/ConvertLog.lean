import Verif.Model.ConvertLog
import Verif.Spec.Convert

/-!
# What the converter should say

The messages are described by the file that is written.
-/

namespace Berts.Spec

open Berts.Convert
open Berts.Vocab (ascii decimal)
open Berts.Load (Kv TInfo Gguf)
open Berts.ConvertLog (Env)

variable {α : Type}

/-- Lines of a message. -/
def lines : List (List Nat) → List Nat
  | [] => []
  | [l] => l
  | l :: ls => l ++ 10 :: lines ls

/-- The text shows `n / d` with one decimal place, off by at most a twentieth; between two texts that are both off by a
twentieth, the one with an even last digit. -/
def OneDecimal (n d : Nat) (t : List Nat) : Prop :=
  ∃ q, t = decimal (q / 10) ++ [46, 48 + q % 10] ∧ 20 * n ≤ (2 * q + 1) * d ∧ 2 * q * d ≤ 20 * n + d ∧
    (20 * n = (2 * q + 1) * d ∨ 2 * q * d = 20 * n + d → q % 2 = 0)

/-- The value of a metadata key. -/
def stored (g : Gguf) (k : String) : Option Kv := (g.kv.find? fun e => e.1 == ascii k).map (·.2)

/-- The file has the number `n` under the key. -/
def HasNat (g : Gguf) (k : String) (n : Nat) : Prop := stored g k = some (.u32 n)

/-- The text is the number under the key, `None` without the key. -/
def IdShown (g : Gguf) (k : String) (t : List Nat) : Prop :=
  (stored g k = none ∧ t = ascii "None") ∨ ∃ n, HasNat g k n ∧ t = decimal n

/-- The text is the Boolean under the key, `None` without the key. -/
def FlagShown (g : Gguf) (k : String) (t : List Nat) : Prop :=
  (stored g k = none ∧ t = ascii "None") ∨ (stored g k = some (.bool true) ∧ t = ascii "True") ∨
    (stored g k = some (.bool false) ∧ t = ascii "False")

/-- The names of the activations by number. -/
def actNames : List String := ["gelu", "relu", "silu", "gelu_new"]

/-- The same letters, case ignored. -/
def SameLetters (a b : List Nat) : Prop :=
  a.length = b.length ∧ ∀ x ∈ a.zip b, x.1 = x.2 ∨ (65 ≤ x.1 ∧ x.1 ≤ 90 ∧ x.2 = x.1 + 32)

/-- The message about the hyperparameters tells what is in the file. -/
def HparamsShown (f64 : Nat → List Nat) (g : Gguf) (m : List Nat) : Prop :=
  ∃ arch act a v h l n p i s e r, stored g "general.architecture" = some (.str arch) ∧ HasNat g "berts.hidden_act" a ∧
    (∃ name, actNames[a]? = some name ∧ SameLetters act (ascii name)) ∧
    HasNat g "berts.vocab_size" v ∧ HasNat g "berts.hidden_dim" h ∧ HasNat g "berts.n_layers" l ∧
    HasNat g "berts.attn_heads" n ∧ HasNat g "berts.max_token" p ∧ HasNat g "berts.intermediate_dim" i ∧
    HasNat g "berts.segments" s ∧ stored g "berts.layer_norm_eps" = some (.f64 e) ∧
    stored g "berts.initializer_range" = some (.f64 r) ∧
    m = lines [ascii "[hparams]", ascii "  arch       = " ++ arch, ascii "  vocab_size = " ++ decimal v,
      ascii "  hidden_dim = " ++ decimal h, ascii "  n_layers   = " ++ decimal l, ascii "  attn_heads = " ++ decimal n,
      ascii "  max_token  = " ++ decimal p, ascii "  interm_dim = " ++ decimal i, ascii "  hidden_act = " ++ act,
      ascii "  segments   = " ++ decimal s, ascii "  eps        = " ++ f64 e, ascii "  init_range = " ++ f64 r]

/-- A text or `None`. -/
def orNone (t : Option (List Nat)) : List Nat := t.getD (ascii "None")

/-- The message about the special tokens: the ids in the file and the texts of the tokenizer. -/
def SpecialsShown (E : Env α) (cls : Cls) (g : Gguf) (m : List Nat) : Prop :=
  ∃ c k p s u b e, IdShown g "berts.cls_id" c ∧ IdShown g "berts.mask_id" k ∧ IdShown g "berts.pad_id" p ∧
    IdShown g "berts.sep_id" s ∧ IdShown g "berts.unk_id" u ∧ IdShown g "berts.bos_id" b ∧ IdShown g "berts.eos_id" e ∧
    m = lines ([ascii "[special tokens]", ascii "  cls_id  = " ++ c ++ ascii " " ++ orNone E.clsText,
      ascii "  mask_id = " ++ k ++ ascii " " ++ orNone E.maskText, ascii "  pad_id  = " ++ p ++ ascii " " ++ orNone E.padText,
      ascii "  sep_id  = " ++ s ++ ascii " " ++ orNone E.sepText, ascii "  unk_id  = " ++ u ++ ascii " " ++ orNone E.unkText] ++
      if cls = .roberta then [ascii "  bos_id  = " ++ b ++ ascii " " ++ orNone E.bosText,
        ascii "  eos_id  = " ++ e ++ ascii " " ++ orNone E.eosText] else [])

/-- The message about the options of a BERT tokenizer. -/
def OptionsShown (g : Gguf) (m : List Nat) : Prop :=
  ∃ l b c n s, FlagShown g "berts.do_lower_case" l ∧ FlagShown g "berts.do_basic_tokenize" b ∧
    FlagShown g "berts.tokenize_chinese_chars" c ∧ FlagShown g "berts.strip_accent" s ∧
    m = lines [ascii "[tokenizer params]", ascii "  do_lower_case = " ++ l, ascii "  do_basic_tokenize = " ++ b,
      ascii "  tokenize_chinese_chars = " ++ c, ascii "  never_split = " ++ n, ascii "  strip_accents = " ++ s]

/-- The message about the tokens: how many the file has, how many are from the tokenizer, how many ids have none. -/
def TokensShown (dict : List (List Nat × Nat)) (g : Gguf) (m : List Nat) : Prop :=
  ∃ total, HasNat g "berts.vocab_size" total ∧ (∃ t ∈ g.dir, t.name = ascii "berts.vocab.size" ∧ t.ne = [total]) ∧
    m = lines [ascii "[tokens]", ascii "  total  = " ++ decimal total, ascii "  used   = " ++ decimal dict.length,
      ascii "  unused = " ++ decimal (((List.range total).filter fun i => i ∉ dict.map (·.2)).length)]

/-- The message about the merges: three numbers each. -/
def MergesShown (n : Nat) (g : Gguf) (m : List Nat) : Prop :=
  (∃ t ∈ g.dir, t.name = ascii "berts.merge.data" ∧ t.ne = [3 * n]) ∧
    m = lines [ascii "[merges]", ascii "  total = " ++ decimal n]

/-- The message about a tensor of the file which was made from `org` bytes. -/
def TensorShown (t : TInfo) (org : Nat) (m : List Nat) : Prop :=
  ∃ key a b, t.name = ascii "berts.bert." ++ key ∧ OneDecimal org 1024 a ∧ OneDecimal t.nbytes 1024 b ∧
    m = lines [key ++ ascii ":", ascii "  quantized = " ++ (if t.type = 1 then ascii "True" else ascii "False"),
      ascii "  n_dims = " ++ decimal t.ndims, ascii "  size = " ++ a ++ ascii " KiB -> " ++ b ++ ascii " KiB"]

/-- The bytes of a parameter. -/
def bytesOf (E : Env α) (p : Param α) : Nat := p.elems.length * E.itemsize p

/-- The message about the totals, with the sizes `org` and `new`. -/
def TotalShown (org new : Nat) (m : List Nat) : Prop :=
  ∃ a b, OneDecimal org (2 ^ 20) a ∧ OneDecimal new (2 ^ 20) b ∧
    m = lines [List.replicate 40 61, ascii "original size  = " ++ a ++ ascii " MiB",
      ascii "quantized size = " ++ b ++ ascii " MiB", List.replicate 40 61]

/-- The bytes of the weights in a file. -/
def weightBytes (g : Gguf) : Nat :=
  ((g.dir.filter fun t => (ascii "berts.bert.").isPrefixOf t.name).map (·.nbytes)).sum

/-- The parameter of the head that is not written. -/
def isBias (cls : Cls) (p : Param α) : Bool :=
  p.key == ascii "predictions.bias" || (cls == .roberta && p.key == ascii "bias")

/-- No blank at the beginning. -/
def NoLead (t : List Nat) : Prop := ∀ c, t.head? = some c → ¬ (9 ≤ c ∧ c ≤ 13) ∧ ¬ (28 ≤ c ∧ c ≤ 32)

/-- No blank at the end, and not empty. -/
def NoTrail (t : List Nat) : Prop := ∃ c, t.getLast? = some c ∧ ¬ (9 ≤ c ∧ c ≤ 13) ∧ ¬ (28 ≤ c ∧ c ≤ 32)

/-- Python's rendering has no blanks at the ends; the encoding takes two bytes or four. -/
structure EnvOk (E : Env α) (enc : Bool → List α → List Nat) (s : Source α) : Prop where
  f64 : ∀ x, NoTrail (E.f64 x)
  unk : NoTrail (orNone E.unkText)
  eos : NoTrail (orNone E.eosText)
  keys : ∀ p ∈ s.state ++ s.lm, NoLead p.key ∧ p.key ≠ []
  enc : ∀ q xs, (enc q xs).length = xs.length * if q then 2 else 4

/-- The output of a successful conversion to the file `g`. -/
def Reported (E : Env α) (s : Source α) (g : Gguf) (out : List (List Nat)) : Prop :=
  ∃ hp sp op tk mg ps tot vs ws org new, out = [ascii "start quantization", ascii "model loaded: " ++ s.name] ++ [hp, sp] ++ op ++
      [ascii "writing vocab...", tk] ++ mg ++ [ascii "converting..."] ++ ps ++ [tot, ascii "quantization completed"] ∧
    HparamsShown E.f64 g hp ∧ SpecialsShown E s.cls g sp ∧
    (if s.cls = .bert then ∃ o, op = [o] ∧ OptionsShown g o else op = []) ∧
    TokensShown s.tok.dict g tk ∧
    (match s.tok.ranks with
      | none => mg = []
      | some rs => ∃ m, mg = [ascii "writing bpe merges...", m] ∧ MergesShown rs.length g m) ∧
    g.dir = vs ++ ws ∧
    vs.map (·.name) = [ascii "berts.vocab.size", ascii "berts.vocab.data"] ++
      (if s.tok.ranks.isSome then [ascii "berts.merge.data"] else []) ∧
    (let qs := s.state ++ s.lm.filter fun p => !isBias s.cls p
     qs.length = ws.length ∧ ps.length = ws.length ∧
     ∀ (i : Nat) p w m, qs[i]? = some p → ws[i]? = some w → ps[i]? = some m → TensorShown w (bytesOf E p) m) ∧
    org = ((s.state ++ s.lm).map (bytesOf E)).sum ∧
    new = weightBytes g + ((s.lm.filter (isBias s.cls)).map fun p => 4 * p.elems.length).sum ∧
    TotalShown org new tot

end Berts.Spec
