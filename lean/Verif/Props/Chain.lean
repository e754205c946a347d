import Verif.Proofs.Chain
import Verif.Props.QuantizeFile
import Verif.Props.Convert

/-! # Property C126: from the converter through the quantizer to the loaded model -/

namespace Berts.Props

open Berts.Convert
open Berts.Quantize (Info Out bertsModelQuantize quantKv metaData up ReadBack Reopens)
open Berts.Load
open Berts.Vocab (ascii decimal VocabT)
open Berts.Graph (T Gg Weights)
open Berts.Eval (expected layersOf bertsEval)
open Berts.Spec

variable {α : Type}

/-- What a chain of conversion and quantization delivers, for a world in which the converted file was loaded as `k`:
the quantizer succeeds and describes the same tensors; if there is room for the file, it is loaded as a model with the settings and vocabulary of
`k`, and the weights of the source, rounded. -/
def Chained (s : Source α) (dec : Nat → List Nat → List α) (rnd : Bool → α → α) (dflt : α) (f16 : Bool)
    (chunk : Nat → List α → Option (List Nat)) (qz : List α → List α) (qtype : Nat) (nb : Nat → List Nat → Nat)
    (ver : Nat) (hdr : List (List Nat × Kv) → Nat → List Nat) (g : Gguf) (w : World α) (k : Ctx α)
    (P : World α → Gguf → Ctx α → Ledger → Prop) : Prop :=
  ∃ (infos : List Info) (data : List Nat), Described g qtype infos ∧
    data.length = (infos.map fun e => up 32 e.size).sum ∧ ∀ room, ∃ o : Out,
    bertsModelQuantize ⟨dec 0, dec 1, chunk⟩ ver hdr w (some room) qtype = .ok (true, some o) ∧
    let kv := quantKv ver qtype g.kv
    let pre := hdr kv g.dir.length
    ((metaData 32 pre infos).length + data.length ≤ room →
      o.bytes = metaData 32 pre infos ++ data ∧
      ∀ g' w', ReadBack nb kv pre infos g' → Reopens w w' g' o.bytes → w'.conv = decoded dec dflt →
        ∃ k' l', load w' = .ok (some k', l') ∧ k'.hp = k.hp ∧ k'.type = qtype ∧ k'.vocab = k.vocab ∧
          Load.Named (quantAt rnd qz qtype dflt f16 s) k.hp.hp.nLayers k'.weights ∧ P w' g' k' l')

theorem written_sum {ps : List (LT × Nat × List Nat)} {infos : List Info} (h4 : infos.length = ps.length)
    (h5 : ∀ (i : Nat) p, ps[i]? = some p → infos[i]? = some ⟨p.1.name, p.1.ndims, p.1.ne, p.2.1, p.2.2.length,
        Quantize.offsetOf 32 (ps.map (·.2.2)) i⟩) :
    (infos.map fun e => up 32 e.size).sum = (Quantize.body 32 (ps.map (·.2.2))).length := by
  rw [Quantize.body_length 32 (by omega)]
  congr 1
  apply List.ext_getElem?
  intro i
  rw [List.getElem?_map, List.getElem?_map, List.getElem?_map]
  cases hpi : ps[i]? with
  | none =>
    have : ps.length ≤ i := by simpa using hpi
    rw [List.getElem?_eq_none (by omega)]
    rfl
  | some p => rw [h5 i p hpi]; rfl

theorem chain_ready {s : Source α} {enc : Bool → List α → List Nat} {dec : Nat → List Nat → List α}
    {rnd : Bool → α → α} {f16 : Bool} {chunk : Nat → List α → Option (List Nat)} {qz : List α → List α} {qtype : Nat}
    {nb : Nat → List Nat → Nat} (hcls : s.cls = .bert ∨ s.cls = .roberta) (hst : StateOk s.config s.state)
    (hlm : HeadOk s.cls s.lm) {m : List Convert.Tensor} (hm : MergeFile m) (hd : Codec enc dec rnd)
    (hq : QuantOk s enc dec rnd f16 chunk qz qtype nb) (dflt : α) {kv : List (List Nat × Kv)} {ls ds header : List Nat}
    (hk : (kv.map (·.1)).Nodup) (ha : Quantize.AlignedAs kv 32) {g : Gguf} {bytes : List Nat}
    (hg : g = ⟨kv, directory 0 (fileTensors ls ds m enc f16 s), header.length⟩)
    (hb : bytes = header ++ dataBytes (fileTensors ls ds m enc f16 s)) (hr : Ready g s.config)
    {w : World α} (ho : Opens w g bytes dec dflt) {k : Ctx α} {l : Ledger} (h : load w = .ok (some k, l)) (ver : Nat)
    (hdr : List (List Nat × Kv) → Nat → List Nat) :
    Chained s dec rnd dflt f16 chunk qz qtype nb ver hdr g w k fun _ g' _ _ => Ready g' s.config := by
  have hts : k.tensors = (fileTensors ls ds m enc f16 s).map asLT := by
    rw [Quantize.load_tensors h ho.gguf ho.file hr.names hr.offsets, hg, hb]
    exact loaded_directory _ w.junk _ 0 0 header rfl
  have hs : Quantize.Quantizable ⟨dec 0, dec 1, chunk⟩ nb qtype g k.tensors := by
    rw [hts, hg]
    exact file_quantizable hcls hst hlm hm hd hq hk ha header.length
  obtain ⟨ps, infos, h2, h3, h4, h5, h6⟩ := Quantize.quantize_files h ho.gguf ho.file hr.names hr.offsets
    (ver := ver) (header := hdr) hq.type hs
  refine ⟨infos, Quantize.body 32 (ps.map (·.2.2)),
    quantize_described h ho.gguf ho.file hr.names hr.offsets h2 h3 h4 h5, (written_sum h4 h5).symm, fun room => ?_⟩
  obtain ⟨o, h1, h6⟩ := h6 room
  refine ⟨o, h1, ?_⟩
  intro _ _ hroom
  have hb' := h6 hroom
  refine ⟨hb', ?_⟩
  intro g' w' hrb hw hconv
  obtain ⟨m1, m2, m3, k', l', k1, k2, k3, k4, k5, k6⟩ := Quantize.quantized_load h ho.gguf ho.file hr.names hr.offsets
    hq.type hs h2 h3 h4 h5 hb' hrb hw
  refine ⟨k', l', k1, k2, k3, k4, ?_, ?_⟩
  · refine named_congr (fun x hx => ?_) k6
    rw [hconv, k5]
    exact quantized_source hcls hst hlm hm hd hq dflt (by rw [h2, hts]) h3 hx
  · have hsame := Quantize.has_same hs.keys hrb.keys
    have hnorm : ∀ t ∈ g.dir, (∃ x, t.name = x ++ ascii "LayerNorm.weight") → t.ndims ≠ 2 := by
      rw [hg]
      exact file_norms hcls hst hlm hm hq kv header.length
    refine ⟨m1, fun t ht => ?_, fun hdep => Quantize.consistent_same m3 hnorm hs.keys hrb.keys (hr.consistent hdep),
      fun t ht hn => ?_, fun key hkey i hi => ?_, fun hseg => ?_⟩
    · have := m2 t ht; omega
    · obtain ⟨e, he, e1, e2, e3⟩ := m3 t ht
      have hty : t.type = e.type := by
        refine e3.resolve_right ?_
        rintro ⟨_, x, hx⟩
        rw [e1, hn] at hx
        have hno : ¬ ascii "weight" <:+ ascii "berts.vocab.size" := by decide +kernel
        exact hno ⟨x, hx.symm⟩
      have hnb : t.nbytes = nb t.type t.ne := by
        have ht' := ht
        rw [hrb.dir, List.mem_map] at ht'
        obtain ⟨y, _, rfl⟩ := ht'
        rfl
      rw [hnb, hty, ← e2, ← hs.sizes e he]
      exact hr.size e he (by rw [e1, hn])
    · refine hr.specials key hkey i ((hsame key ?_ i).1 hi)
      have : ∀ key ∈ specialKeys, ascii "general.file_type" ≠ ascii key ∧
        ascii "general.quantization_version" ≠ ascii key := by decide +kernel
      exact this key hkey
    · exact hr.segments ((hsame _ (by decide +kernel) 0).1 hseg)

theorem bert_parts {s : Source α} (hcls : s.cls = .bert) (hc : ConfigOk s.config) (hst : StateOk s.config s.state)
    (hlm : HeadOk s.cls s.lm) (ht : BertTok s.config s.tok) (enc : Bool → List α → List Nat) (f16 : Bool)
    (header : List Nat) {g : Gguf} {bytes : List Nat} (h : convert enc f16 header s = some (g, bytes)) :
    ∃ kv ls ds, (kv.map (·.1)).Nodup ∧ Quantize.AlignedAs kv 32 ∧
      g = ⟨kv, directory 0 (fileTensors ls ds [] enc f16 s), header.length⟩ ∧
      bytes = header ++ dataBytes (fileTensors ls ds [] enc f16 s) := by
  obtain ⟨cls, mask, pad, sep, unk, hi⟩ := bert_ids ht.ids
  obtain ⟨ts, ls, _, _, hw, _⟩ := vocab_written hc ht.dict
  have := convert_bert hcls hc hst hlm ht hi enc f16 header hw
  rw [h] at this
  injection this with this
  injection this with e1 e2
  exact ⟨_, ls, _, bert_keys f16 s cls mask pad sep unk, bert_aligned .., e1, e2⟩

theorem roberta_parts {s : Source α} (hcls : s.cls = .roberta) (hc : ConfigOk s.config) (hst : StateOk s.config s.state)
    (hlm : HeadOk s.cls s.lm) {rs : List ((List Nat × List Nat) × Nat)} (ht : RobertaTok s.config s.tok rs)
    (enc : Bool → List α → List Nat) (f16 : Bool)
    (header : List Nat) {g : Gguf} {bytes : List Nat} (h : convert enc f16 header s = some (g, bytes)) :
    ∃ kv ls ds m, MergeFile m ∧ (kv.map (·.1)).Nodup ∧ Quantize.AlignedAs kv 32 ∧
      g = ⟨kv, directory 0 (fileTensors ls ds m enc f16 s), header.length⟩ ∧
      bytes = header ++ dataBytes (fileTensors ls ds m enc f16 s) := by
  obtain ⟨sp, hi⟩ := roberta_ids ht.ids
  obtain ⟨ts, ls, _, _, hw, _⟩ := vocab_written hc ht.dict
  obtain ⟨l, hm, _⟩ := merge_written hc ht
  have := convert_roberta hcls hc hst hlm hi enc f16 header hw hm
  rw [h] at this
  injection this with this
  injection this with e1 e2
  exact ⟨_, ls, _, _, .inr ⟨l, rfl⟩, roberta_keys f16 s sp, roberta_aligned .., e1, e2⟩

/-- Evaluating tokenized text with a model gives the reference value for the configuration of the source and the
weights `W`; `limit` says which numbers of tokens are meant. -/
def EvaluatesText (s : Source α) (arch : Nat) (W : Weights α) (pad : Nat) (limit : Nat → Prop) (k : Ctx α) : Prop :=
  ∀ (u : Bert.Icu) (e : Roberta.Env) (setOrder : List (List Nat) → List (List Nat)) (text buf out : List Nat) (n : Nat),
    Api.bertsTokenize (some (apiCtx u e setOrder k)) text (some buf) (some buf.length) = .ok ⟨true, some out, some n⟩ →
    n ≤ buf.length → limit n →
  ∀ (A : Arith α) (gg : Gg) (L : Int), -(s.config.layers : Int) ≤ L → L ≤ s.config.layers →
  ∀ poolType, poolType < 4 → ∀ ebuf : List α,
    ebuf.length = s.config.hidden * (if poolType = 0 then n else 1) →
  bertsEval A gg (some ⟨some (emodel k)⟩) (out.take n) none (some (L, poolType)) (some ebuf) (some ebuf.length) =
    .ok (true, some (expected A ⟨arch == 0, (hpOf arch s.config).hp, W, s.config.vocabSize, pad⟩
      (layersOf s.config.layers L) poolType (out.take n) ((out.take n).map fun _ => 0)), some ebuf.length)

/-- C126, BERT (partial: as C75; sources that ggml can quantize; evaluation for at most 44 layers, see C86): convert a
model, quantize the file and load the result.  It has the configuration, vocabulary and tokenizer of the source, and
its weights, rounded to the type the converter stores and the matrices then to the new type; evaluating any text
gives the reference value for these. -/
theorem C126_bert_partial {s : Source α} (hcls : s.cls = .bert) (hc : ConfigOk s.config) (hst : StateOk s.config s.state)
    (hlm : HeadOk s.cls s.lm) (ht : BertTok s.config s.tok) {enc : Bool → List α → List Nat}
    {dec : Nat → List Nat → List α} {rnd : Bool → α → α} (hd : Codec enc dec rnd) (dflt : α) (f16 : Bool)
    (header : List Nat) {chunk : Nat → List α → Option (List Nat)} {qz : List α → List α} {qtype : Nat}
    {nb : Nat → List Nat → Nat} (hq : QuantOk s enc dec rnd f16 chunk qz qtype nb) (ver : Nat)
    (hdr : List (List Nat × Kv) → Nat → List Nat) :
    ∃ g bytes, convert enc f16 header s = some (g, bytes) ∧ ∀ w : World α, Opens w g bytes dec dflt →
      ∃ k l v sp cond ts, load w = .ok (some k, l) ∧ k.hp = hpOf 0 s.config ∧
        k.vocab = .bert v sp cond ∧ Tokens s.config s.tok.dict ts ∧ Spec.Shows v ts ∧ OptionsOk s.tok cond ∧
        some sp.cls = s.tok.cls ∧ some sp.mask = s.tok.mask ∧ some sp.pad = s.tok.pad ∧ some sp.sep = s.tok.sep ∧
        some sp.unk = s.tok.unk ∧ sp.bos = INVALID ∧ sp.eos = INVALID ∧
        Chained s dec rnd dflt f16 chunk qz qtype nb ver hdr g w k fun _ _ k' _ =>
          s.config.layers ≤ 44 → EvaluatesText s 0 k'.weights sp.pad (· ≤ s.config.maxPos) k' := by
  obtain ⟨g, bytes, h1, h2, h3⟩ := bert_file hcls hc hst hlm ht hd dflt f16 header
  refine ⟨g, bytes, h1, fun w ho => ?_⟩
  obtain ⟨k, l, v, cls, mask, pad, sep, unk, cond, ts, e1, e2, e3, e4, e5, e6, e7, e8, e9⟩ := h3 w ho
  refine ⟨k, l, v, _, cond, ts, e1, e2, e4, e5, Vocab.holds_shows e6, e7, e8.cls.1.symm, e8.mask.1.symm, e8.pad.1.symm,
    e8.sep.1.symm, e8.unk.1.symm, rfl, rfl, ?_⟩
  obtain ⟨kv, ls, ds, b1, b2, b3, b4⟩ := bert_parts hcls hc hst hlm ht enc f16 header h1
  obtain ⟨infos, data, c0, c0', c1⟩ := chain_ready (.inl hcls) hst hlm (.inl rfl) hd hq dflt b1 b2 b3 b4 (h2 ho.fits.2) ho e1 ver hdr
  refine ⟨infos, data, c0, c0', fun room => ?_⟩
  obtain ⟨o, c1, c2⟩ := c1 room
  refine ⟨o, c1, fun hroom => ⟨(c2 hroom).1, fun g' w' hrb hw hconv => ?_⟩⟩
  obtain ⟨k', l', d1, d2, d3, d4, d5, hr⟩ := (c2 hroom).2 g' w' hrb hw hconv
  refine ⟨k', l', d1, d2, d3, d4, d5, fun hdep => ?_⟩
  intro u e setOrder text buf out n htok hn1 hn2 A gg L hL1 hL2 poolType hpt ebuf hb
  rw [e2] at d2
  rw [e4] at d4
  have hS := hc.types.2
  have hv := hc.vocab
  have hp := hc.maxPos
  have hm : emodel k' = ⟨true, (hpOf 0 s.config).hp, k'.weights, s.config.vocabSize, pad⟩ := by
    refine emodel_eq d2 rfl ?_ ?_
    · rw [d4]
      show v.tokenCount = _
      rw [VocabT.tokenCount, e6.1, e5.length]
    · rw [d4]
      rfl
  have hfin := C74_text_partial d1 hw.gguf hw.file hr.names hr.offsets (by rw [hconv]; exact decoded_ok dec dflt)
    s.config.vocabSize s.config.maxPos s.config.typeVocab (hr.consistent hdep) hv hp hS s.config.vocabSize (Nat.le_refl _) hr.size
    (fun k hk i hi _ => hr.specials k hk i hi) hr.segments u e setOrder text buf out n htok hn1 (by rw [d2]; exact hn2)
    (by rw [d2]; exact Nat.le_refl _) A gg L (by rw [d2]; exact hL1) (by rw [d2]; exact hL2) poolType hpt ebuf
    (by rw [d2]; exact hb)
  rw [hm] at hfin ⊢
  rw [hfin, d2]
  rfl

/-- C126, RoBERTa (partial: as for BERT; and the positions, which count from the id of the padding token, must be rows
of the position table). -/
theorem C126_roberta_partial {s : Source α} (hcls : s.cls = .roberta) (hc : ConfigOk s.config)
    (hst : StateOk s.config s.state) (hlm : HeadOk s.cls s.lm) {rs : List ((List Nat × List Nat) × Nat)}
    (ht : RobertaTok s.config s.tok rs) {enc : Bool → List α → List Nat}
    {dec : Nat → List Nat → List α} {rnd : Bool → α → α} (hd : Codec enc dec rnd) (dflt : α) (f16 : Bool)
    (header : List Nat) {chunk : Nat → List α → Option (List Nat)} {qz : List α → List α} {qtype : Nat}
    {nb : Nat → List Nat → Nat} (hq : QuantOk s enc dec rnd f16 chunk qz qtype nb) (ver : Nat)
    (hdr : List (List Nat × Kv) → Nat → List Nat) :
    ∃ g bytes, convert enc f16 header s = some (g, bytes) ∧
      ∀ w : World α, Opens w g bytes dec dflt → (∀ m, (w.order m).Perm m) →
      ∃ k l r ts, load w = .ok (some k, l) ∧ k.hp = hpOf 1 s.config ∧
        k.vocab = .roberta r ∧ Tokens s.config s.tok.dict ts ∧ Spec.Shows r.v ts ∧
        some r.special.cls = s.tok.cls ∧ some r.special.mask = s.tok.mask ∧ some r.special.pad = s.tok.pad ∧
        some r.special.sep = s.tok.sep ∧ some r.special.unk = s.tok.unk ∧ some r.special.bos = s.tok.bos ∧
        some r.special.eos = s.tok.eos ∧
        Chained s dec rnd dflt f16 chunk qz qtype nb ver hdr g w k fun _ _ k' _ =>
          s.config.layers ≤ 44 →
            EvaluatesText s 1 k'.weights r.special.pad (fun n => r.special.pad + n < s.config.maxPos) k' := by
  obtain ⟨g, bytes, h1, h2, h3⟩ := roberta_file hcls hc hst hlm ht hd dflt f16 header
  refine ⟨g, bytes, h1, fun w ho hord => ?_⟩
  obtain ⟨k, l, r, ts, tcs, data, e1, e2, e3, e4, e5, e6, _, e8, e9, _⟩ := h3 w ho hord
  refine ⟨k, l, r, ts, e1, e2, e4, e5, Vocab.holds_shows e6, e8.base.cls.1.symm, e8.base.mask.1.symm,
    e8.base.pad.1.symm, e8.base.sep.1.symm, e8.base.unk.1.symm, e8.bos.1.symm, e8.eos.1.symm, ?_⟩
  obtain ⟨kv, ls, ds, m, b0, b1, b2, b3, b4⟩ := roberta_parts hcls hc hst hlm ht enc f16 header h1
  obtain ⟨infos, data, c0, c0', c1⟩ := chain_ready (.inr hcls) hst hlm b0 hd hq dflt b1 b2 b3 b4 (h2 ho.fits.2) ho e1 ver hdr
  refine ⟨infos, data, c0, c0', fun room => ?_⟩
  obtain ⟨o, c1, c2⟩ := c1 room
  refine ⟨o, c1, fun hroom => ⟨(c2 hroom).1, fun g' w' hrb hw hconv => ?_⟩⟩
  obtain ⟨k', l', d1, d2, d3, d4, d5, hr⟩ := (c2 hroom).2 g' w' hrb hw hconv
  refine ⟨k', l', d1, d2, d3, d4, d5, fun hdep => ?_⟩
  intro u e setOrder text buf out n htok hn1 hn2 A gg L hL1 hL2 poolType hpt ebuf hb
  rw [e2] at d2
  rw [e4] at d4
  have hS := hc.types.2
  have hv := hc.vocab
  have hp := hc.maxPos
  have hpad' : k'.vocab.padId = r.special.pad := by rw [d4]; rfl
  have hm : emodel k' = ⟨false, (hpOf 1 s.config).hp, k'.weights, s.config.vocabSize, r.special.pad⟩ := by
    refine emodel_eq d2 rfl ?_ hpad'
    rw [d4]
    show r.v.tokenCount = _
    rw [VocabT.tokenCount, e6.1, e5.length]
  have hfin := C74_text_partial d1 hw.gguf hw.file hr.names hr.offsets (by rw [hconv]; exact decoded_ok dec dflt)
    s.config.vocabSize s.config.maxPos s.config.typeVocab (hr.consistent hdep) hv hp hS s.config.vocabSize (Nat.le_refl _) hr.size
    (fun k hk i hi _ => hr.specials k hk i hi) hr.segments u e setOrder text buf out n htok hn1
    (by rw [d2]; show n ≤ s.config.maxPos; omega)
    (by rw [d2, hpad']; exact hn2) A gg L (by rw [d2]; exact hL1) (by rw [d2]; exact hL2) poolType hpt ebuf
    (by rw [d2]; exact hb)
  rw [hm] at hfin ⊢
  rw [hfin, d2]
  rfl

/-! A source and codecs meeting the hypotheses. -/

/-- Four bytes for each element of a float32 tensor, two for those of a float16 tensor. -/
def chEnc (q : Bool) (l : List Int) : List Nat := l.flatMap fun x => if q then [x.toNat, 0] else [x.toNat, 0, 0, 0]

def chDec4 : List Nat → List Int
  | a :: _ :: _ :: _ :: r => Int.ofNat a :: chDec4 r
  | _ => []

def chDec2 : List Nat → List Int
  | a :: _ :: r => Int.ofNat a :: chDec2 r
  | _ => []

/-- The new type has one byte for each element, for even numbers. -/
def chDec (type : Nat) (b : List Nat) : List Int :=
  if type = 0 then chDec4 b else if type = 1 then chDec2 b else b.map fun x => 2 * Int.ofNat x

def chChunk (_ : Nat) (l : List Int) : Option (List Nat) := some (l.map fun x => x.toNat / 2)

def chRound (l : List Int) : List Int := l.map fun x => 2 * Int.ofNat (x.toNat / 2)

def chNb (type : Nat) (ne : List Nat) : Nat :=
  (if type = 0 ∨ type = 18 then 4 else if type = 1 then 2 else 1) * ne.foldl (· * ·) 1

theorem ch_codec : Codec chEnc chDec exRnd := by
  intro q xs
  cases q
  · show chDec4 (chEnc false xs) = _
    induction xs with
    | nil => rfl
    | cons x xs ih => exact congrArg (_ :: ·) ih
  · show chDec2 (chEnc true xs) = _
    induction xs with
    | nil => rfl
    | cons x xs ih => exact congrArg (_ :: ·) ih

theorem ch_quant (V : Nat) (hV : V = 8 ∨ V = 10) (f16 : Bool) {s : Source Int}
    (hs : s.state = exParams (exConfig V)) (hl : s.lm = []) : QuantOk s chEnc chDec exRnd f16 chChunk chRound 8 chNb := by
  refine ⟨by decide, ⟨fun ne => rfl, fun ne => rfl, fun n => by simp [chNb], fun n => by simp [chNb]⟩, ?_, ?_, ?_, ?_, ?_⟩
  · intro q xs
    induction xs with
    | nil => cases q <;> rfl
    | cons x xs ih =>
      have : chEnc q (x :: xs) = (if q then [x.toNat, 0] else [x.toNat, 0, 0, 0]) ++ chEnc q xs := rfl
      rw [this, List.length_append, ih, List.length_cons]
      cases q <;> simp <;> omega
  · rw [hs]
    rcases hV with rfl | rfl <;> decide +kernel
  · rw [hs, hl]
    rcases hV with rfl | rfl <;> decide +kernel
  · rw [hs, hl]
    have : ∀ p ∈ exParams (exConfig V) ++ [],
        ((ascii "LayerNorm.weight").isSuffixOf p.key || (ascii "layer_norm.weight").isSuffixOf p.key) = true →
        wide p.shape = false := by
      rcases hV with rfl | rfl <;> decide +kernel
    intro p hp h
    refine this p hp ?_
    rw [Bool.or_eq_true, List.isSuffixOf_iff_suffix, List.isSuffixOf_iff_suffix]
    exact h
  · rw [hs, hl]
    have : ∀ p ∈ exParams (exConfig V) ++ [], p.elems.length = p.shape.reverse.foldl (· * ·) 1 := by
      rcases hV with rfl | rfl <;> decide +kernel
    intro p hp _
    refine ⟨_, rfl, ?_, ?_, ?_⟩
    · simp [stored, chNb, this p hp]
    · simp only [stored, List.length_map]
      omega
    · simp [chDec, stored, chRound, Function.comp_def]

/-- A world in which the file can be opened. -/
def chWorld (r : Gguf × List Nat) : World Int :=
  ⟨some r.1, fun _ => true, some r.2, fun _ _ => 0, decoded chDec 0, loadGg, false, id⟩

theorem ch_opens {s : Source Int} (h : (match convert chEnc true [1, 2, 3] s with
      | some (g, bytes) => decide (needed loadGg g.dir < 2 ^ 64 ∧ bytes.length < 2 ^ 63)
      | none => false) = true) :
    ∃ r, convert chEnc true [1, 2, 3] s = some r ∧ Opens (chWorld r) r.1 r.2 chDec 0 := by
  split at h
  · rename_i g bytes e
    have h1 : 0 < loadGg.align ∧ loadGg.tensorSize % loadGg.align = 0 := by decide
    exact ⟨(g, bytes), e, rfl, rfl, rfl, rfl, h1, of_decide_eq_true h⟩
  · cases h

/-- The hypotheses of `C126_bert_partial` can be met. -/
example : ConfigOk exBert.config ∧ StateOk exBert.config exBert.state ∧ HeadOk exBert.cls exBert.lm ∧
    BertTok exBert.config exBert.tok ∧ Codec chEnc chDec exRnd ∧
    QuantOk exBert chEnc chDec exRnd true chChunk chRound 8 chNb ∧
    ∃ r, convert chEnc true [1, 2, 3] exBert = some r ∧ Opens (chWorld r) r.1 r.2 chDec 0 :=
  ⟨exConfig_ok 8 (by decide), exParams_ok 8 (.inl rfl), ⟨by decide, by simp [exBert], by simp [exBert]⟩, exBertTok_ok,
    ch_codec, ch_quant 8 (.inl rfl) true rfl rfl, ch_opens (by decide +kernel)⟩

/-- The hypotheses of `C126_roberta_partial` can be met. -/
example : ConfigOk exRob.config ∧ StateOk exRob.config exRob.state ∧ HeadOk exRob.cls exRob.lm ∧
    RobertaTok exRob.config exRob.tok exRanks ∧ Codec chEnc chDec exRnd ∧
    QuantOk exRob chEnc chDec exRnd true chChunk chRound 8 chNb ∧
    ∃ r, convert chEnc true [1, 2, 3] exRob = some r ∧ Opens (chWorld r) r.1 r.2 chDec 0 ∧
      ∀ m, ((chWorld r).order m).Perm m := by
  refine ⟨exConfig_ok 10 (by decide), exParams_ok 10 (.inr rfl), ⟨by decide, by simp [exRob], by simp [exRob]⟩,
    exRobTok_ok (.inl rfl), ch_codec, ch_quant 10 (.inr rfl) true rfl rfl, ?_⟩
  obtain ⟨r, h1, h2⟩ := ch_opens (s := exRob) (by decide +kernel)
  exact ⟨r, h1, h2, fun m => List.Perm.refl _⟩

/-- Odd elements of a matrix are rounded, those of a vector are not. -/
example : (quantAt exRnd chRound 8 0 true exBert (ascii "berts.bert.encoder.layer.0.attention.self.query.weight")).map
      (fun t => [t.get 0 0 0 0, t.get 1 0 0 0, t.get 0 1 0 0, t.get 1 1 0 0]) = some [0, 0, 2, 2] ∧
    (quantAt exRnd chRound 8 0 true exBert (ascii "berts.bert.encoder.layer.0.attention.self.query.bias")).map
      (fun t => [t.get 0 0 0 0, t.get 1 0 0 0]) = some [0, 1] := by
  decide +kernel

end Berts.Props
