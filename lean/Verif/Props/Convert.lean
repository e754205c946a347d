import Verif.Proofs.ConvertRank

/-! # Properties C75, C76, C77: from the converter to the loaded model -/

namespace Berts.Props

open Berts.Convert
open Berts.Load
open Berts.Vocab (ascii decimal VocabT Special Holds)
open Berts.Graph (T Gg Weights)
open Berts.Eval (EModel ECtx expected layersOf bertsEval)
open Berts.Spec
open Berts.Unicode
open Berts.Bpe (Str)

variable {α : Type}

/-! ## C75 -/

/-- C75, BERT (partial: see `ConfigOk`, `StateOk`, `BertTok`): the converter succeeds, and the file it writes is
loaded as the same model: the configuration, the kind of file, the vocabulary with its made-up names for
unused ids, the special tokens, the options of the tokenizer, and all weights, rounded to their stored
type. -/
theorem C75_bert_partial {s : Source α} (hcls : s.cls = .bert) (hc : ConfigOk s.config) (hst : StateOk s.config s.state)
    (hlm : HeadOk s.cls s.lm) (ht : BertTok s.config s.tok) {enc : Bool → List α → List Nat}
    {dec : Nat → List Nat → List α} {rnd : Bool → α → α} (hd : Codec enc dec rnd) (dflt : α) (f16 : Bool)
    (header : List Nat) :
    ∃ g bytes, convert enc f16 header s = some (g, bytes) ∧ ∀ w : World α, Opens w g bytes dec dflt →
      ∃ k l v sp cond ts, load w = .ok (some k, l) ∧ k.hp = hpOf 0 s.config ∧ k.type = (if f16 then 1 else 0) ∧
        k.vocab = .bert v sp cond ∧ Tokens s.config s.tok.dict ts ∧ Spec.Shows v ts ∧ OptionsOk s.tok cond ∧
        some sp.cls = s.tok.cls ∧ some sp.mask = s.tok.mask ∧ some sp.pad = s.tok.pad ∧ some sp.sep = s.tok.sep ∧
        some sp.unk = s.tok.unk ∧ sp.bos = INVALID ∧ sp.eos = INVALID ∧
        Load.Named (sourceAt rnd dflt f16 s) s.config.layers k.weights := by
  obtain ⟨g, bytes, h1, _, h3⟩ := bert_file hcls hc hst hlm ht hd dflt f16 header
  refine ⟨g, bytes, h1, fun w ho => ?_⟩
  obtain ⟨k, l, v, cls, mask, pad, sep, unk, cond, ts, e1, e2, e3, e4, e5, e6, e7, e8, e9⟩ := h3 w ho
  exact ⟨k, l, v, _, cond, ts, e1, e2, e3, e4, e5, Vocab.holds_shows e6, e7, e8.cls.1.symm, e8.mask.1.symm, e8.pad.1.symm,
    e8.sep.1.symm, e8.unk.1.symm, rfl, rfl, e9⟩

/-- C75, RoBERTa (partial: see `ConfigOk`, `StateOk`, `RobertaTok`). -/
theorem C75_roberta_partial {s : Source α} (hcls : s.cls = .roberta) (hc : ConfigOk s.config)
    (hst : StateOk s.config s.state) (hlm : HeadOk s.cls s.lm) {rs : List ((List Nat × List Nat) × Nat)}
    (ht : RobertaTok s.config s.tok rs) {enc : Bool → List α → List Nat}
    {dec : Nat → List Nat → List α} {rnd : Bool → α → α} (hd : Codec enc dec rnd) (dflt : α) (f16 : Bool)
    (header : List Nat) :
    ∃ g bytes, convert enc f16 header s = some (g, bytes) ∧
      ∀ w : World α, Opens w g bytes dec dflt → (∀ m, (w.order m).Perm m) →
      ∃ k l r ts, load w = .ok (some k, l) ∧ k.hp = hpOf 1 s.config ∧ k.type = (if f16 then 1 else 0) ∧
        k.vocab = .roberta r ∧ Tokens s.config s.tok.dict ts ∧ Spec.Shows r.v ts ∧
        some r.special.cls = s.tok.cls ∧ some r.special.mask = s.tok.mask ∧ some r.special.pad = s.tok.pad ∧
        some r.special.sep = s.tok.sep ∧ some r.special.unk = s.tok.unk ∧ some r.special.bos = s.tok.bos ∧
        some r.special.eos = s.tok.eos ∧ Load.Named (sourceAt rnd dflt f16 s) s.config.layers k.weights := by
  obtain ⟨g, bytes, h1, _, h3⟩ := roberta_file hcls hc hst hlm ht hd dflt f16 header
  refine ⟨g, bytes, h1, fun w ho hord => ?_⟩
  obtain ⟨k, l, r, ts, tcs, data, e1, e2, e3, e4, e5, e6, _, e8, e9, _⟩ := h3 w ho hord
  exact ⟨k, l, r, ts, e1, e2, e3, e4, e5, Vocab.holds_shows e6, e8.base.cls.1.symm, e8.base.mask.1.symm,
    e8.base.pad.1.symm, e8.base.sep.1.symm, e8.base.unk.1.symm, e8.bos.1.symm, e8.eos.1.symm, e9⟩

/-- C75, the description is exact: there is only one set of weights with these names. -/
theorem C75_unique {f : List Nat → Option (T α)} {n : Nat} {w w' : Weights α} (h : Load.Named f n w) (h' : Load.Named f n w') :
    w = w' := named_unique h h'

/-! A small source model. -/

/-- Parameters for a configuration, with the elements 0, 1, 2, ... -/
def exParams (c : Config) : List (Param Int) :=
  ((baseParams c).map fun p => ⟨ascii p.1, p.2, (List.range p.2.prod).map Int.ofNat⟩) ++
  (List.range c.layers).flatMap fun i => (layerParams c).map fun p =>
    ⟨ascii "encoder.layer." ++ decimal i ++ ascii ("." ++ p.1), p.2, (List.range p.2.prod).map Int.ofNat⟩

def exConfig (V : Nat) : Config := ⟨V, 2, 1, 1, 4, 2, ascii "gelu", 0, 1, 0⟩

/-- Seven tokens and an unused id. -/
def exBertTok : Tokenizer :=
  ⟨[(ascii "[CLS]", 0), (ascii "[SEP]", 1), (ascii "[UNK]", 2), (ascii "[PAD]", 3), (ascii "[MASK]", 4), (ascii "a", 6),
      (ascii "##b", 7)], some 0, some 4, some 3, some 1, some 2, none, none, some false, some true, none, none, some false, none⟩

def exBert : Source Int := ⟨.bert, ascii "x", exConfig 8, exBertTok, exParams (exConfig 8), []⟩

/-- Tokens of a RoBERTa model. -/
def exRobDict : List (List Nat × Nat) :=
  [(ascii "<s>", 0), (ascii "<pad>", 1), (ascii "</s>", 2), (ascii "<unk>", 3), (ascii "<mask>", 4), (ascii "a", 5),
    (ascii "b", 6), (ascii "c", 7), (ascii "ab", 8), (ascii "bc", 9)]

def exRobTok (rs : List ((List Nat × List Nat) × Nat)) : Tokenizer :=
  ⟨exRobDict, some 0, some 4, some 1, some 2, some 3, some 0, some 2, none, none, none, none, none, some rs⟩

def exRanks : List ((List Nat × List Nat) × Nat) := [((ascii "a", ascii "b"), 0), ((ascii "b", ascii "c"), 1)]

def exRob : Source Int := ⟨.roberta, ascii "x", exConfig 10, exRobTok exRanks, exParams (exConfig 10), []⟩

/-- One byte for each element. -/
def exEnc (_ : Bool) (l : List Int) : List Nat := l.map Int.toNat
def exDec (_ : Nat) (l : List Nat) : List Int := l.map Int.ofNat
def exRnd (_ : Bool) (x : Int) : Int := Int.ofNat x.toNat

theorem ex_codec : Codec exEnc exDec exRnd := by
  intro q xs
  simp [exEnc, exDec, exRnd, Function.comp_def]

theorem exConfig_ok (V : Nat) (h : V ≤ 2 ^ 31) : ConfigOk (exConfig V) := by
  have h1 : 2 ≤ 2 ∧ 2 < 2 ^ 32 := by decide
  have h2 : 1 < 2 ^ 32 := by decide
  have h3 : 4 < 2 ^ 31 := by decide
  have h4 : 1 ≤ 1 ∧ 1 ≤ 2 ^ 31 := by decide
  exact ⟨h, h1, h2, ⟨2, rfl⟩, h3, h1, h4, rfl⟩

theorem exParams_ok (V : Nat) (h : V = 8 ∨ V = 10) : StateOk (exConfig V) (exParams (exConfig V)) := by
  refine ⟨?_, ?_, ?_, ?_, ?_, ?_⟩
  · rcases h with rfl | rfl <;> decide +kernel
  · intro p hp
    exact ⟨⟨ascii p.1, p.2, _⟩, List.mem_append_left _ (List.mem_map_of_mem hp), rfl, rfl⟩
  · intro i hi p hp
    refine ⟨⟨_, p.2, _⟩, List.mem_append_right _ (List.mem_flatMap.2 ⟨i, List.mem_range.2 hi, List.mem_map_of_mem hp⟩), rfl, rfl⟩
  · rcases h with rfl | rfl <;> decide +kernel
  · have h1 : ∀ p ∈ exParams (exConfig V), (["embeddings.", "encoder.", "pooler."].any fun r => (ascii r).isPrefixOf p.key) = true := by
      rcases h with rfl | rfl <;> decide +kernel
    intro p hp
    have := h1 p hp
    rw [List.any_eq_true] at this
    obtain ⟨r, h2, h3⟩ := this
    exact ⟨r, h2, List.isPrefixOf_iff_prefix.1 h3⟩
  · have h1 : ∀ p ∈ exParams (exConfig V), (match p.shape with
        | [n] => decide (2 ≤ n)
        | [a, b] => decide (1 ≤ a) && decide (2 ≤ b)
        | _ => false) = true := by
      rcases h with rfl | rfl <;> decide +kernel
    intro p hp
    have := h1 p hp
    split at this
    · rename_i n e
      exact .inl ⟨n, by simpa using this, e⟩
    · rename_i a b e
      simp only [Bool.and_eq_true, decide_eq_true_eq] at this
      exact .inr ⟨a, b, this.1, this.2, e⟩
    · cases this

theorem exBertTok_ok : BertTok (exConfig 8) exBertTok := by
  refine ⟨⟨by decide +kernel, by decide +kernel, by decide +kernel, by decide +kernel⟩, ?_, .inl rfl, rfl⟩
  intro o ho
  simp only [exBertTok, List.mem_cons, List.not_mem_nil, or_false] at ho
  rcases ho with rfl | rfl | rfl | rfl | rfl <;> exact ⟨_, rfl, by decide⟩

theorem exRobTok_ok {rs : List ((List Nat × List Nat) × Nat)} (h : rs = exRanks ∨ rs = exRanks.reverse) :
    RobertaTok (exConfig 10) (exRobTok rs) rs := by
  refine ⟨⟨?_, ?_, ?_, ?_⟩, ?_, ?_, ?_, rfl, ?_, ?_⟩
  · show (exRobDict.map (·.1)).Nodup
    decide +kernel
  · show (exRobDict.map (·.2)).Nodup
    decide +kernel
  · show ∀ d ∈ exRobDict, d.2 < 10
    decide +kernel
  · show ∀ d ∈ exRobDict, d.1 ≠ [] ∧ d.1.length ≤ 256
    decide +kernel
  · intro o ho
    simp only [exRobTok, List.mem_cons, List.not_mem_nil, or_false] at ho
    rcases ho with rfl | rfl | rfl | rfl | rfl | rfl | rfl <;> exact ⟨_, rfl, by decide⟩
  · have : ∀ d ∈ exRobDict, ∀ x ∈ d.1, x < 0x80 := by decide +kernel
    intro d hd
    exact ⟨d.1, fun x hx => .inl (by have := this d hd x hx; omega), (Roberta.utf8_ascii _ (this d hd)).symm⟩
  · exact ⟨(ascii "<unk>", 3), by simp [exRobTok, exRobDict], rfl, by decide +kernel⟩
  · show ∀ r ∈ rs, ∀ tok ∈ [r.1.1, r.1.2, r.1.1 ++ r.1.2], tok ∈ exRobDict.map (·.1)
    rcases h with rfl | rfl <;> decide +kernel
  · rcases h with rfl | rfl <;> decide +kernel

/-- A world in which the file can be opened. -/
def exWorld (r : Gguf × List Nat) : World Int :=
  ⟨some r.1, fun _ => true, some r.2, fun _ _ => 0, decoded exDec 0, loadGg, false, id⟩

/-- The hypotheses of `C75_bert_partial` can be met. -/
example : ConfigOk exBert.config ∧ StateOk exBert.config exBert.state ∧ HeadOk exBert.cls exBert.lm ∧
    BertTok exBert.config exBert.tok ∧ Codec exEnc exDec exRnd ∧
    ∃ r, convert exEnc true [1, 2, 3] exBert = some r ∧ Opens (exWorld r) r.1 r.2 exDec 0 := by
  refine ⟨exConfig_ok 8 (by decide), exParams_ok 8 (.inl rfl), ⟨by decide, by simp [exBert], by simp [exBert]⟩, exBertTok_ok, ex_codec, ?_⟩
  obtain ⟨g, bytes, h, _⟩ := C75_bert_partial (s := exBert) rfl (exConfig_ok 8 (by decide)) (exParams_ok 8 (.inl rfl))
    ⟨by decide, by simp [exBert], by simp [exBert]⟩ exBertTok_ok ex_codec 0 true [1, 2, 3]
  have h1 : 0 < loadGg.align ∧ loadGg.tensorSize % loadGg.align = 0 := by decide
  refine ⟨(g, bytes), h, rfl, rfl, rfl, rfl, h1, ?_⟩
  have h2 : (match convert exEnc true [1, 2, 3] exBert with
    | some (g, bytes) => decide (needed loadGg g.dir < 2 ^ 64 ∧ bytes.length < 2 ^ 63)
    | none => false) = true := by decide +kernel
  rw [h] at h2
  exact of_decide_eq_true h2

theorem exRob_opens : ∃ r, convert exEnc true [1, 2, 3] exRob = some r ∧ Opens (exWorld r) r.1 r.2 exDec 0 := by
  obtain ⟨g, bytes, h, _⟩ := C75_roberta_partial (s := exRob) rfl (exConfig_ok 10 (by decide)) (exParams_ok 10 (.inr rfl))
    ⟨by decide, by simp [exRob], by simp [exRob]⟩ (exRobTok_ok (.inl rfl)) ex_codec 0 true [1, 2, 3]
  have h1 : 0 < loadGg.align ∧ loadGg.tensorSize % loadGg.align = 0 := by decide
  refine ⟨(g, bytes), h, rfl, rfl, rfl, rfl, h1, ?_⟩
  have h2 : (match convert exEnc true [1, 2, 3] exRob with
    | some (g, bytes) => decide (needed loadGg g.dir < 2 ^ 64 ∧ bytes.length < 2 ^ 63)
    | none => false) = true := by decide +kernel
  rw [h] at h2
  exact of_decide_eq_true h2

/-- The hypotheses of `C75_roberta_partial` can be met. -/
example : ConfigOk exRob.config ∧ StateOk exRob.config exRob.state ∧ HeadOk exRob.cls exRob.lm ∧
    RobertaTok exRob.config exRob.tok exRanks ∧ Codec exEnc exDec exRnd ∧
    ∃ r, convert exEnc true [1, 2, 3] exRob = some r ∧ Opens (exWorld r) r.1 r.2 exDec 0 ∧
      ∀ m, ((exWorld r).order m).Perm m := by
  refine ⟨exConfig_ok 10 (by decide), exParams_ok 10 (.inr rfl), ⟨by decide, by simp [exRob], by simp [exRob]⟩,
    exRobTok_ok (.inl rfl), ex_codec, ?_⟩
  obtain ⟨r, h1, h2⟩ := exRob_opens
  exact ⟨r, h1, h2, fun m => List.Perm.refl _⟩

/-- What converting and loading gives (float16 file). -/
def exLoad (s : Source Int) : Res (Option (Ctx Int)) :=
  match convert exEnc true [1, 2, 3] s with
  | none => .abort
  | some r => (load (exWorld r)).bind fun x => .ok x.1

/-- C75 fails for the activations relu, silu and gelu_new of a RoBERTa model: the converter accepts the model
(and leaves the file behind), the loader returns the null pointer. -/
theorem C75_activation_counterexample : ∀ act ∈ ["relu", "silu", "gelu_new"],
    exLoad { exRob with config := { exConfig 10 with act := ascii act } } = .ok none := by
  have h : ∀ act ∈ ["relu", "silu", "gelu_new"],
      (match exLoad { exRob with config := { exConfig 10 with act := ascii act } } with
        | .ok none => true | _ => false) = true := by decide +kernel
  intro act ha
  have := h act ha
  split at this
  · assumption
  · cases this

/-- Evaluation of a converted model. -/
def exEval (s : Source Int) (tokens : List Nat) : Res (Bool × Option (List Int) × Option Nat) :=
  (exLoad s).bind fun k =>
    bertsEval tinyA tinyG (k.map fun c => ⟨some (emodel c)⟩) tokens none (some (0, 2)) (some [0, 0]) (some 2)

/-- A model with hidden size 1. -/
def exNarrow : Source Int :=
  let c : Config := ⟨8, 1, 0, 1, 4, 2, ascii "gelu", 0, 1, 0⟩
  ⟨.bert, ascii "x", c, exBertTok, exParams c, []⟩

/-- C75 fails for hidden size 1: `squeeze` makes a column of the token table a row; the file is loaded, and
evaluating reads row 6 of a table with one row. -/
theorem C75_narrow_counterexample : (match exLoad exNarrow with | .ok (some _) => True | _ => False) ∧
    exEval exNarrow [0, 6, 1] = .ub := by
  constructor
  · have h : (match exLoad exNarrow with | .ok (some _) => true | _ => false) = true := by decide +kernel
    split at h
    · trivial
    · cases h
  · decide +kernel

/-! ## C76 -/

theorem emodel_eq {k : Ctx α} {arch : Nat} {c : Config} (h : k.hp = hpOf arch c) {W : Weights α} (hw : k.weights = W)
    {n pad : Nat} (hn : k.vocab.count = n) (hp : k.vocab.padId = pad) :
    emodel k = ⟨arch == 0, (hpOf arch c).hp, W, n, pad⟩ := by
  unfold emodel
  rw [h, hw, hn, hp]
  rfl

/-- C76, BERT (partial: as C75; and at most 44 layers, see C86): convert a model, load the file, tokenize any text, evaluate the ids; the result
is the reference value for the configuration and the weights of the source. -/
theorem C76_bert_partial {s : Source α} (hcls : s.cls = .bert) (hc : ConfigOk s.config) (hst : StateOk s.config s.state)
    (hlm : HeadOk s.cls s.lm) (ht : BertTok s.config s.tok) {enc : Bool → List α → List Nat}
    {dec : Nat → List Nat → List α} {rnd : Bool → α → α} (hd : Codec enc dec rnd) (dflt : α) (f16 : Bool)
    (header : List Nat) (W : Weights α) (hW : Load.Named (sourceAt rnd dflt f16 s) s.config.layers W) (pad : Nat)
    (hpad : s.tok.pad = some pad) (hdep : s.config.layers ≤ 44) :
    ∃ g bytes, convert enc f16 header s = some (g, bytes) ∧ ∀ w : World α, Opens w g bytes dec dflt →
      ∃ k l, load w = .ok (some k, l) ∧
      ∀ (u : Bert.Icu) (e : Roberta.Env) (setOrder : List (List Nat) → List (List Nat)) (text buf out : List Nat) (n : Nat),
        Api.bertsTokenize (some (apiCtx u e setOrder k)) text (some buf) (some buf.length) =
          .ok ⟨true, some out, some n⟩ → n ≤ buf.length → n ≤ s.config.maxPos →
      ∀ (A : Arith α) (gg : Gg) (L : Int), -(s.config.layers : Int) ≤ L → L ≤ s.config.layers →
      ∀ poolType, poolType < 4 → ∀ ebuf : List α,
        ebuf.length = s.config.hidden * (if poolType = 0 then n else 1) →
      bertsEval A gg (some ⟨some (emodel k)⟩) (out.take n) none (some (L, poolType)) (some ebuf) (some ebuf.length) =
        .ok (true, some (expected A ⟨true, (hpOf 0 s.config).hp, W, s.config.vocabSize, pad⟩
          (layersOf s.config.layers L) poolType (out.take n) ((out.take n).map fun _ => 0)), some ebuf.length) := by
  obtain ⟨g, bytes, h1, h2, h3⟩ := bert_file hcls hc hst hlm ht hd dflt f16 header
  refine ⟨g, bytes, h1, fun w ho => ?_⟩
  obtain ⟨k, l, v, cls, mask, pad', sep, unk, cond, ts, e1, e2, e3, e4, e5, e6, e7, e8, e9⟩ := h3 w ho
  refine ⟨k, l, e1, ?_⟩
  intro u e setOrder text buf out n htok hn1 hn2 A gg L hL1 hL2 poolType hpt ebuf hb
  have hr := h2 ho.fits.2
  have hS := hc.types.2
  have hv := hc.vocab
  have hp := hc.maxPos
  have hm : emodel k = ⟨true, (hpOf 0 s.config).hp, W, s.config.vocabSize, pad⟩ := by
    refine emodel_eq e2 (named_unique e9 hW) ?_ ?_
    · rw [e4]
      show v.tokenCount = _
      rw [VocabT.tokenCount, e6.1, e5.length]
    · rw [e4]
      rw [e8.pad.1] at hpad
      exact Option.some.inj hpad
  have hfin := C74_text_partial e1 ho.gguf ho.file hr.names hr.offsets (by rw [ho.conv]; exact decoded_ok dec dflt)
    s.config.vocabSize s.config.maxPos s.config.typeVocab (hr.consistent hdep) hv hp hS s.config.vocabSize (Nat.le_refl _) hr.size
    (fun k hk i hi _ => hr.specials k hk i hi) hr.segments u e setOrder text buf out n htok hn1 (by rw [e2]; exact hn2)
    (by rw [e2]; exact Nat.le_refl _) A gg L (by rw [e2]; exact hL1) (by rw [e2]; exact hL2) poolType hpt ebuf
    (by rw [e2]; exact hb)
  rw [hm] at hfin ⊢
  rw [hfin, e2]
  rfl

/-- C76, RoBERTa (partial: as C75; at most 44 layers, see C86; and the positions, which count from the id of the padding token, must be rows of
the position table, which nothing checks). -/
theorem C76_roberta_partial {s : Source α} (hcls : s.cls = .roberta) (hc : ConfigOk s.config)
    (hst : StateOk s.config s.state) (hlm : HeadOk s.cls s.lm) {rs : List ((List Nat × List Nat) × Nat)}
    (ht : RobertaTok s.config s.tok rs) {enc : Bool → List α → List Nat}
    {dec : Nat → List Nat → List α} {rnd : Bool → α → α} (hd : Codec enc dec rnd) (dflt : α) (f16 : Bool)
    (header : List Nat) (W : Weights α) (hW : Load.Named (sourceAt rnd dflt f16 s) s.config.layers W) (pad : Nat)
    (hpad : s.tok.pad = some pad) (hdep : s.config.layers ≤ 44) :
    ∃ g bytes, convert enc f16 header s = some (g, bytes) ∧
      ∀ w : World α, Opens w g bytes dec dflt → (∀ m, (w.order m).Perm m) →
      ∃ k l, load w = .ok (some k, l) ∧
      ∀ (u : Bert.Icu) (e : Roberta.Env) (setOrder : List (List Nat) → List (List Nat)) (text buf out : List Nat) (n : Nat),
        Api.bertsTokenize (some (apiCtx u e setOrder k)) text (some buf) (some buf.length) =
          .ok ⟨true, some out, some n⟩ → n ≤ buf.length → pad + n < s.config.maxPos →
      ∀ (A : Arith α) (gg : Gg) (L : Int), -(s.config.layers : Int) ≤ L → L ≤ s.config.layers →
      ∀ poolType, poolType < 4 → ∀ ebuf : List α,
        ebuf.length = s.config.hidden * (if poolType = 0 then n else 1) →
      bertsEval A gg (some ⟨some (emodel k)⟩) (out.take n) none (some (L, poolType)) (some ebuf) (some ebuf.length) =
        .ok (true, some (expected A ⟨false, (hpOf 1 s.config).hp, W, s.config.vocabSize, pad⟩
          (layersOf s.config.layers L) poolType (out.take n) ((out.take n).map fun _ => 0)), some ebuf.length) := by
  obtain ⟨g, bytes, h1, h2, h3⟩ := roberta_file hcls hc hst hlm ht hd dflt f16 header
  refine ⟨g, bytes, h1, fun w ho hord => ?_⟩
  obtain ⟨k, l, r, ts, tcs, data, e1, e2, e3, e4, e5, e6, _, e8, e9, _⟩ := h3 w ho hord
  refine ⟨k, l, e1, ?_⟩
  intro u e setOrder text buf out n htok hn1 hn2 A gg L hL1 hL2 poolType hpt ebuf hb
  have hr := h2 ho.fits.2
  have hS := hc.types.2
  have hv := hc.vocab
  have hp := hc.maxPos
  have hpad' : k.vocab.padId = pad := by
    rw [e4]
    rw [e8.base.pad.1] at hpad
    exact Option.some.inj hpad
  have hm : emodel k = ⟨false, (hpOf 1 s.config).hp, W, s.config.vocabSize, pad⟩ := by
    refine emodel_eq e2 (named_unique e9 hW) ?_ hpad'
    rw [e4]
    show r.v.tokenCount = _
    rw [VocabT.tokenCount, e6.1, e5.length]
  have hfin := C74_text_partial e1 ho.gguf ho.file hr.names hr.offsets (by rw [ho.conv]; exact decoded_ok dec dflt)
    s.config.vocabSize s.config.maxPos s.config.typeVocab (hr.consistent hdep) hv hp hS s.config.vocabSize (Nat.le_refl _) hr.size
    (fun k hk i hi _ => hr.specials k hk i hi) hr.segments u e setOrder text buf out n htok hn1
    (by rw [e2]; show n ≤ s.config.maxPos; omega)
    (by rw [e2, hpad']; exact hn2) A gg L (by rw [e2]; exact hL1) (by rw [e2]; exact hL2) poolType hpt ebuf
    (by rw [e2]; exact hb)
  rw [hm] at hfin ⊢
  rw [hfin, e2]
  rfl

/-- Tokenizing with a converted model. -/
def exTokenize (s : Source Int) (text : List Nat) : Res Api.Out :=
  (exLoad s).bind fun k =>
    Api.bertsTokenize (k.map (apiCtx asciiIcu (robEnv false) id)) text (some [99, 99, 99, 99, 99]) (some 5)

/-- The hypotheses of C76 can be met: weights of that name exist, and a text is tokenized. -/
example : (∃ W, Load.Named (sourceAt exRnd 0 true exBert) exBert.config.layers W) ∧ exBert.tok.pad = some 3 ∧
    exTokenize exBert (ascii "ab") = .ok ⟨true, some [0, 6, 7, 1, 99], some 4⟩ ∧ 4 ≤ exBert.config.maxPos := by
  refine ⟨?_, rfl, by decide +kernel, by decide⟩
  obtain ⟨g, bytes, h, h2⟩ := C75_bert_partial (s := exBert) rfl (exConfig_ok 8 (by decide)) (exParams_ok 8 (.inl rfl))
    ⟨by decide, by simp [exBert], by simp [exBert]⟩ exBertTok_ok ex_codec 0 true [1, 2, 3]
  have h1 : 0 < loadGg.align ∧ loadGg.tensorSize % loadGg.align = 0 := by decide
  have h3 : (match convert exEnc true [1, 2, 3] exBert with
    | some (g, bytes) => decide (needed loadGg g.dir < 2 ^ 64 ∧ bytes.length < 2 ^ 63)
    | none => false) = true := by decide +kernel
  rw [h] at h3
  obtain ⟨k, _, _, _, _, _, _, _, _, _, _, _, _, _, _, _, _, _, _, _, hk⟩ := h2 (exWorld (g, bytes))
    ⟨rfl, rfl, rfl, rfl, h1, of_decide_eq_true h3⟩
  exact ⟨_, hk⟩

/-- C76 fails without the condition on positions: a text of two words gives four ids, as many as the model
allows; the last position is 5, and there are four. -/
theorem C76_position_counterexample : exRob.config.maxPos = 4 ∧
    exTokenize exRob (ascii "aa") = .ok ⟨true, some [0, 5, 5, 2, 99], some 4⟩ ∧ exEval exRob [0, 5, 5, 2] = .ub := by
  exact ⟨rfl, by decide +kernel, by decide +kernel⟩

/-! ## C77 -/

theorem ranks_length {rs : List ((List Nat × List Nat) × Nat)} (h : RanksOk rs) {N : Nat} (hN : ∀ r ∈ rs, r.2 < N) :
    rs.length ≤ N := by
  have hk : ∀ k (hk : k < rs.length), k ≤ rs[k].2 := by
    intro k
    induction k with
    | zero => intro _; omega
    | succ k ih =>
      intro hk
      have := ih (by omega)
      have := List.pairwise_iff_getElem.1 h.increasing k (k + 1) (by omega) hk (by omega)
      omega
  by_cases h0 : rs.length = 0
  · omega
  · have h1 := hk (rs.length - 1) (by omega)
    have h2 := hN _ (List.getElem_mem (n := rs.length - 1) (by omega))
    omega

/-- C77 (partial: the items of `bpe_ranks` are listed by increasing rank; signed `char` only with ASCII texts;
special tokens are ASCII): the ids that a converted RoBERTa model gives a text are those of reference
byte-level BPE with the vocabulary and the ranks of the source tokenizer. -/
theorem C77_ids_partial {s : Source α} (hcls : s.cls = .roberta) (hc : ConfigOk s.config)
    (hst : StateOk s.config s.state) (hlm : HeadOk s.cls s.lm) {rs : List ((List Nat × List Nat) × Nat)}
    (ht : RobertaTok s.config s.tok rs) (hr : RanksOk rs)
    (hasc : ∀ o ∈ [s.tok.cls, s.tok.mask, s.tok.pad, s.tok.sep, s.tok.unk, s.tok.bos, s.tok.eos],
      ∃ d ∈ s.tok.dict, o = some d.2 ∧ ∀ b ∈ d.1, b < 0x80)
    {tbl : MergeTable Str} (htbl : RankTable rs tbl) {enc : Bool → List α → List Nat}
    {dec : Nat → List Nat → List α} {rnd : Bool → α → α} (hd : Codec enc dec rnd) (dflt : α) (f16 : Bool)
    (header : List Nat) :
    ∃ g bytes, convert enc f16 header s = some (g, bytes) ∧
      ∀ (w : World α) (e : Roberta.Env), Opens w g bytes dec dflt → (∀ m, (w.order m).Perm m) → e.signed = w.signed →
        RightPick e.bpe.pick →
      ∃ k l r ts, load w = .ok (some k, l) ∧ k.vocab = .roberta r ∧ Tokens s.config s.tok.dict ts ∧
      ∀ (setOrder : List (List Nat) → List (List Nat)), SetOrder setOrder →
      ∀ cs, (∀ c ∈ cs, IsScalar c) → Roberta.EnvOK e (utf8Encode cs).length → (utf8Encode cs).length ≤ e.fuel →
        (e.signed = true → ∀ c ∈ cs, c < 0x80) → (∀ b ∈ utf8Encode cs, utf8Of (byteChar b) ∈ s.tok.dict.map (·.1)) →
      ∃ pieces idss, Roberta.tokenize e r setOrder (utf8Encode cs) = .ok (some idss.flatten) ∧
        Cut (specialStrings ts r.special) (utf8Encode cs) pieces ∧
        RefPieces ts tbl e.matches_ (keptPieces e.ws (ts[r.special.mask]?.getD []) pieces) idss := by
  obtain ⟨g, bytes, h1, _, h3⟩ := roberta_file hcls hc hst hlm ht hd dflt f16 header
  refine ⟨g, bytes, h1, fun w e ho hord hsig hpick => ?_⟩
  obtain ⟨k, l, r, ts, tcs, data, e1, _, _, e4, e5, e6, e7, e8, _, e10, e11, m, e12⟩ := h3 w ho hord
  refine ⟨k, l, r, ts, e1, e4, e5, ?_⟩
  have hsp : AsciiSpecials ts r.special := by
    have key : ∀ o ∈ [s.tok.cls, s.tok.mask, s.tok.pad, s.tok.sep, s.tok.unk, s.tok.bos, s.tok.eos], ∀ i, o = some i →
        ∃ x, ts[i]? = some x ∧ x ≠ [] ∧ ∀ c ∈ x, c < 0x80 := by
      intro o hmem i hi
      obtain ⟨d, d1, d2, d3⟩ := hasc o hmem
      rw [hi] at d2
      injection d2 with d2
      subst d2
      exact ⟨d.1, e5.given d.1 d.2 d1, (ht.dict.sizes d d1).1, d3⟩
    intro id hid
    simp only [specialIds, List.mem_cons, List.not_mem_nil, or_false] at hid
    rcases hid with rfl | rfl | rfl | rfl | rfl | rfl | rfl
    all_goals first
      | exact key _ (by simp) _ e8.base.cls.1
      | exact key _ (by simp) _ e8.base.mask.1
      | exact key _ (by simp) _ e8.base.pad.1
      | exact key _ (by simp) _ e8.base.sep.1
      | exact key _ (by simp) _ e8.base.unk.1
      | exact key _ (by simp) _ e8.bos.1
      | exact key _ (by simp) _ e8.eos.1
  obtain ⟨data', pairs, f1, f2, f3⟩ := C71_reference_partial m (some ⟨true, 1, data⟩) w.order hord r.v ts tcs e6 e7 e r
    (by rw [hsig]; exact e12) hsp hpick (by
      intro t e
      injection e with e
      subst e
      have := ranks_length hr ht.rank
      simp only
      omega)
  have : data' = data := by
    injection f1 with f1
    injection f1 with _ _ f1
    exact f1.symm
  subst this
  intro setOrder hso cs hcs henv hfuel hs hb
  obtain ⟨pieces, idss, q1, q2, q3⟩ := f3 (lastTable pairs) (lastTable_ok pairs) setOrder hso cs hcs henv hfuel hs (by
    intro b hb'
    have := hb b hb'
    rw [List.mem_map] at this
    obtain ⟨d, d1, d2⟩ := this
    rw [← d2]
    exact List.mem_of_getElem? (e5.given d.1 d.2 d1))
  exact ⟨pieces, idss, q1, q2, (tables_agree e5 e7 e10 e11 f2 hr htbl).pieces q3⟩

/-- Every dictionary has a table. -/
theorem rankTable_exists {rs : List ((List Nat × List Nat) × Nat)} (h : RanksOk rs) : ∃ tbl, RankTable rs tbl := by
  classical
  let P := fun (s t : Str) (x : Nat × Str) => ∃ a b, (∀ c ∈ a, IsScalar c) ∧ (∀ c ∈ b, IsScalar c) ∧
    ((utf8Encode a, utf8Encode b), x.1) ∈ rs ∧ s = utf16Encode a ∧ t = utf16Encode b ∧ x.2 = s ++ t
  have hu : ∀ s t x y, P s t x → P s t y → x = y := by
    rintro s t x y ⟨a, b, ha, hb, hm, rfl, rfl, e⟩ ⟨a', b', ha', hb', hm', e1, e2, e'⟩
    have e1 := utf16_inj ha ha' e1
    have e2 := utf16_inj hb hb' e2
    subst e1 e2
    obtain ⟨i, hi⟩ := List.mem_iff_getElem?.1 hm
    obtain ⟨j, hj⟩ := List.mem_iff_getElem?.1 hm'
    have := ranks_unique h hi hj
    subst this
    rw [hi] at hj
    injection hj with hj
    injection hj with _ hj
    exact Prod.ext hj (e.trans e'.symm)
  refine ⟨fun s t => if hx : ∃ x, P s t x then some (Classical.choose hx) else none, ?_⟩
  intro s t r u
  show (if hx : ∃ x, P s t x then some (Classical.choose hx) else none) = some (r, u) ↔ P s t (r, u)
  constructor
  · intro hs
    split at hs
    · rename_i hx
      have := Classical.choose_spec hx
      injection hs with hs
      rwa [hs] at this
    · cases hs
  · intro hp
    have hx : ∃ x, P s t x := ⟨_, hp⟩
    rw [dif_pos hx]
    exact congrArg some (hu _ _ _ _ (Classical.choose_spec hx) hp)

/-- The hypotheses of `C77_ids_partial` can be met. -/
example : RanksOk exRanks ∧ (∃ tbl, RankTable exRanks tbl) ∧
    (∀ o ∈ [exRob.tok.cls, exRob.tok.mask, exRob.tok.pad, exRob.tok.sep, exRob.tok.unk, exRob.tok.bos, exRob.tok.eos],
      ∃ d ∈ exRob.tok.dict, o = some d.2 ∧ ∀ b ∈ d.1, b < 0x80) ∧
    (∀ r, (robEnv false).signed = (exWorld r).signed) ∧ RightPick (robEnv false).bpe.pick ∧ SetOrder id ∧
    (∀ c ∈ ascii "abc", IsScalar c) ∧ Roberta.EnvOK (robEnv false) (utf8Encode (ascii "abc")).length ∧
    (utf8Encode (ascii "abc")).length ≤ (robEnv false).fuel ∧
    ∀ b ∈ utf8Encode (ascii "abc"), utf8Of (byteChar b) ∈ exRob.tok.dict.map (·.1) := by
  have hr : RanksOk exRanks := ⟨by decide +kernel, by decide +kernel⟩
  refine ⟨hr, rankTable_exists hr, ?_, fun _ => rfl, heapPick_right, fun _ _ => Iff.rfl, by decide +kernel,
    ⟨(robEnv_ok false).1, (robEnv_ok false).2, by decide +kernel⟩, by decide +kernel, by decide +kernel⟩
  intro o ho
  have hd : ∀ d ∈ exRobDict, ∀ b ∈ d.1, b < 0x80 := by decide +kernel
  have hs : ∀ o ∈ [exRob.tok.cls, exRob.tok.mask, exRob.tok.pad, exRob.tok.sep, exRob.tok.unk, exRob.tok.bos,
      exRob.tok.eos], (exRobDict.any fun d => decide (o = some d.2)) = true := by decide +kernel
  have := hs o ho
  rw [List.any_eq_true] at this
  obtain ⟨d, h1, h2⟩ := this
  exact ⟨d, h1, of_decide_eq_true h2, hd d h1⟩

/-- C77 fails if the items are not in the order of the ranks (as happens when `merges.txt` has a line twice: the
item stays at its first place and gets its last rank): the loader ignores the ranks in the file.  Both sources
merge `a b` before `b c`; the text `abc` is `ab` `c` for the first and `a` `bc` for the second. -/
theorem C77_order_counterexample :
    exTokenize exRob (ascii "abc") = .ok ⟨true, some [0, 8, 7, 2, 99], some 4⟩ ∧
    (∀ r, r ∈ exRanks ↔ r ∈ exRanks.reverse) ∧
    exTokenize { exRob with tok := exRobTok exRanks.reverse } (ascii "abc") = .ok ⟨true, some [0, 5, 9, 2, 99], some 4⟩ := by
  exact ⟨by decide +kernel, fun r => by simp, by decide +kernel⟩

end Berts.Props
