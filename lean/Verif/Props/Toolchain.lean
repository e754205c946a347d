import Verif.Model.Toolchain
import Verif.Proofs.Toolchain
import Verif.Props.FileFormat
import Verif.Props.FillMask
import Verif.Props.Args

/-! # Property C130: the three programs one after the other -/

namespace Berts.Props

open Berts.Convert
open Berts.FileFormat
open Berts.Quantize (metaData Out bertsModelQuantize)
open Berts.Load
open Berts.Vocab (ascii VocabT)
open Berts.Graph (T Gg Weights LmWeights)
open Berts.Args (Text)
open Berts.Toolchain
open Berts.Examples.Spec (TypeName CaseVariant Number Best)
open Berts.Spec Berts.Unicode

variable {α F : Type}

/-- The file system after the quantizer, given what quantizing does. -/
theorem run_quant {cv : Quantize.Conv F} {ver : Nat} {disk : Option (List Nat) → World α} {room : List Nat → Option Nat}
    {input type out : List Nat} {fs : Files} {file : List Nat} (hfs : fs input = some file) {qtype : Nat}
    (hty : ∃ name, TypeName qtype name ∧ (CaseVariant type name ∨ Number type qtype)) {o : Out}
    (h : bertsModelQuantize cv ver preamble (disk (some file)) (room out) qtype = .ok (true, some o)) :
    runQuant cv ver disk room [input, type, out] fs = .ok (0, put fs out o.bytes) := by
  have hp := (C58_accept_iff type qtype).2 hty
  have hne : type.length ≠ 0 := by
    intro h0
    rw [List.length_eq_zero_iff.1 h0] at hp
    rw [(C58_ub_iff []).2 (.inr (.inl rfl))] at hp
    cases hp
  unfold runQuant Quantize.quantProgram
  simp only [if_neg hne, hp, Eval.res_ok, hfs, h]

/-- C130, BERT (partial: as C78 and C127): with any command line the converter accepts, any name or number of the type
for the quantizer and any output path with room, the three programs one after the other print the tokens with the
highest reference probabilities for the weights of the source rounded twice. -/
theorem C130_bert_partial {s : Source α} (hcls : s.cls = .bert) (hc : ConfigOk s.config) (hst : StateOk s.config s.state)
    (hlm : HeadOk s.cls s.lm) (hh : HasHead s.cls s.config s.lm) (ht : BertTok s.config s.tok)
    (hlay : 1 ≤ s.config.layers ∧ s.config.layers ≤ 44) (hbasic : s.tok.basic.getD true = true)
    (hfold : s.tok.lowerCase.getD true = true ∨ s.tok.strip.getD (s.tok.lowerCase.getD true) = false)
    {cls mask pad sep unk : Nat} (hi : s.tok.cls = some cls ∧ s.tok.mask = some mask ∧ s.tok.pad = some pad ∧
      s.tok.sep = some sep ∧ s.tok.unk = some unk) (hne : mask ≠ cls ∧ mask ≠ sep ∧ mask ≠ unk)
    {maskTok : List Nat} (hmask : (maskTok, mask) ∈ s.tok.dict) (hm3 : 3 ≤ maskTok.length)
    (hasc : ∀ c ∈ maskTok, c < 0x80) (hmk : ¬ marker <+: maskTok)
    {enc : Bool → List α → List Nat} {dec : Nat → List Nat → List α} {rnd : Bool → α → α} (hd : Codec enc dec rnd) (dflt : α)
    {dig : Nat → Bool} {is : List Item} {args : List Text} (hline : Line dig is args) {i o : Text} {c : Option Text}
    (h1 : LastOf .input is (some i)) (h2 : LastOf .output is (some o)) (h3 : LastOf .cache is c) {f16 : Bool}
    (h4 : f16 = true ↔ .f32 ∉ is) {source : Text → Option Text → Option (Source α)} (hsrc : source i c = some s)
    {chunk : Nat → List α → Option (List Nat)} {qz : List α → List α} {qtype : Nat}
    {nb : Nat → List Nat → Nat} (hq : QuantOk s enc dec rnd f16 chunk qz qtype nb) {ok : Nat → List Nat → Bool}
    (hf : FormatOk s ok qtype) (ver : Nat) (hv : ver < 2 ^ 32) {type : List Nat}
    (hty : ∃ name, TypeName qtype name ∧ (CaseVariant type name ∨ Number type qtype))
    (fsenc : Text → List Nat) (disk : Option (List Nat) → World α) (fs : Files) :
    ∃ file, runConvert dig source enc fsenc args fs = some (put fs (fsenc o) file) ∧
      (Disk nb ok dec dflt (disk (some file)) file →
      ∃ file', ∀ (out : List Nat) (room : List Nat → Option Nat) (n : Nat), room out = some n → file'.length ≤ n →
        let fs' := put (put fs (fsenc o) file) out file'
        runQuant ⟨dec 0, dec 1, chunk⟩ ver disk room [fsenc o, type, out] (put fs (fsenc o) file) = .ok (0, fs') ∧
        (Disk nb ok dec dflt (disk (some file')) file' → (disk (some file')).signed = (disk (some file)).signed →
          (disk (some file')).order = (disk (some file)).order →
        ∃ W lm k l ts, Load.Named (quantAt rnd qz qtype dflt f16 s) s.config.layers W ∧ W.lm = some lm ∧
          load (disk (some file')) = .ok (some k, l) ∧ Tokens s.config s.tok.dict ts ∧
          FillsBert s dflt W lm cls mask pad sep (fun p => disk (fs' p)) out k ts)) := by
  obtain ⟨g0, b0, h0, _⟩ := bert_file hcls hc hst hlm ht hd dflt f16 []
  obtain ⟨f1, f2⟩ := file_of_convert h0
  refine ⟨metaData 32 (preamble g0.kv g0.dir.length) (g0.dir.map record) ++ b0, ?_, fun hw => ?_⟩
  · unfold runConvert
    rw [(C129_writes dig source enc args o _).2 ⟨is, i, c, s, f16, hline, h1, h2, h3, h4, hsrc, f1⟩]
  obtain ⟨g1, bytes1, h1, hr, hld⟩ := bert_file hcls hc hst hlm ht hd dflt f16
    (metaData 32 (preamble g0.kv g0.dir.length) (g0.dir.map record))
  obtain ⟨cls', mask', pad', sep', unk', hids⟩ := bert_ids ht.ids
  obtain ⟨_, ls, _, _, hwv, _⟩ := vocab_written hc ht.dict
  have hconv := convert_bert hcls hc hst hlm ht hids enc f16
    (metaData 32 (preamble g0.kv g0.dir.length) (g0.dir.map record)) hwv
  rw [f2] at h1 hconv
  injection h1 with h1
  injection h1 with e1 e2
  subst e1 e2
  injection hconv with hconv
  injection hconv with e1 e2
  have hmeta := bert_meta hc hf.name hf.eps hf.range hids f16
  have ho := converted_opens (.inl hcls) hst hlm (.inl rfl) hd hq hf (bert_keys f16 s cls' mask' pad' sep' unk')
    (bert_aligned ..) hmeta e1 e2 hr rfl hw
  obtain ⟨k, l, v, cls₂, mask₂, pad₂, sep₂, unk₂, cond, ts, d1, d2, d3, d4, d5, d6, d7, d8, d9⟩ := hld _ ho
  have hch := chain_ready (.inl hcls) hst hlm (.inl rfl) hd hq dflt (bert_keys f16 s cls' mask' pad' sep' unk')
    (bert_aligned ..) e1 e2 (hr ho.fits.2) ho d1 ver preamble
  obtain ⟨file', q1, q2⟩ := chained_files (.inl hcls) hst hlm (.inl rfl) hd hq hf (bert_keys f16 s cls' mask' pad' sep' unk')
    (bert_aligned ..) hmeta e1 e2 hr ho hv
    (P' := fun w' _ => ∃ g' bytes', Opens w' g' bytes' dec dflt ∧ Ready g' s.config)
    (fun _ g' _ _ b ho' hr' => ⟨g', b, ho', hr'⟩) hch
  refine ⟨file', fun out room n hroom hn => ?_⟩
  obtain ⟨o', r1, r2⟩ := q1 n
  refine ⟨?_, fun hw' hsig hord => ?_⟩
  · rw [← r2 hn]
    exact run_quant (if_pos rfl) hty (by rw [hroom]; exact r1)
  obtain ⟨k', l', m1, m2, _, m4, m5, g', b', m6, m7⟩ := q2 _ hw' hsig hord
  obtain ⟨lm, lm1, lm2⟩ := quant_head_ok (by rw [hcls]; decide) hst hlm hh rnd qz qtype dflt f16
  rw [d2] at m2 m5
  obtain ⟨i1, i2, i3, i4, i5⟩ := hi
  have j1 := d8.cls; have j2 := d8.mask; have j3 := d8.pad; have j4 := d8.sep; have j5 := d8.unk
  rw [i1] at j1; rw [i2] at j2; rw [i3] at j3; rw [i4] at j4; rw [i5] at j5
  obtain ⟨⟨⟩, j1⟩ := j1
  obtain ⟨⟨⟩, j2⟩ := j2
  obtain ⟨⟨⟩, j3⟩ := j3
  obtain ⟨⟨⟩, j4⟩ := j4
  obtain ⟨⟨⟩, j5⟩ := j5
  have hl : k'.weights.lm = some lm := (m5.2.2.2.2.2.2.2.2.2 lm).2 lm1
  have hput : put (put fs (fsenc o) (metaData 32 (preamble g0.kv g0.dir.length) (g0.dir.map record) ++ b0)) out file' out =
      some file' := if_pos rfl
  refine ⟨k'.weights, lm, k', l', ts, m5, hl, m1, d5, ?_⟩
  exact bert_fills hc hlay hbasic hfold hne hmask hm3 hasc hmk hl lm2 (by rw [hput]; exact m6) m7 (by rw [hput]; exact m1)
    m2 (m4.trans d4) d5 d6 d7 rfl j1 j4 j5

/-- C130, RoBERTa (partial: as C78 and C127). -/
theorem C130_roberta_partial {s : Source α} (hcls : s.cls = .roberta) (hc : ConfigOk s.config) (hst : StateOk s.config s.state)
    (hlm : HeadOk s.cls s.lm) (hh : HasHead s.cls s.config s.lm) {rs : List ((List Nat × List Nat) × Nat)}
    (ht : RobertaTok s.config s.tok rs)
    (hlay : 1 ≤ s.config.layers ∧ s.config.layers ≤ 44)
    (hasc : ∀ o ∈ [s.tok.cls, s.tok.mask, s.tok.pad, s.tok.sep, s.tok.unk, s.tok.bos, s.tok.eos],
      ∃ d ∈ s.tok.dict, o = some d.2 ∧ ∀ b ∈ d.1, b < 0x80)
    {cls mask pad sep : Nat} (hi : s.tok.cls = some cls ∧ s.tok.mask = some mask ∧ s.tok.pad = some pad ∧
      s.tok.sep = some sep) (hne : mask ≠ cls ∧ mask ≠ sep)
    {maskTok : List Nat} (hmask : (maskTok, mask) ∈ s.tok.dict) (hm3 : 3 ≤ maskTok.length)
    {enc : Bool → List α → List Nat} {dec : Nat → List Nat → List α} {rnd : Bool → α → α} (hd : Codec enc dec rnd) (dflt : α)
    {dig : Nat → Bool} {is : List Item} {args : List Text} (hline : Line dig is args) {i o : Text} {c : Option Text}
    (h1 : LastOf .input is (some i)) (h2 : LastOf .output is (some o)) (h3 : LastOf .cache is c) {f16 : Bool}
    (h4 : f16 = true ↔ .f32 ∉ is) {source : Text → Option Text → Option (Source α)} (hsrc : source i c = some s)
    {chunk : Nat → List α → Option (List Nat)} {qz : List α → List α} {qtype : Nat}
    {nb : Nat → List Nat → Nat} (hq : QuantOk s enc dec rnd f16 chunk qz qtype nb) {ok : Nat → List Nat → Bool}
    (hf : FormatOk s ok qtype) (ver : Nat) (hv : ver < 2 ^ 32) {type : List Nat}
    (hty : ∃ name, TypeName qtype name ∧ (CaseVariant type name ∨ Number type qtype))
    (fsenc : Text → List Nat) (disk : Option (List Nat) → World α) (fs : Files) :
    ∃ file, runConvert dig source enc fsenc args fs = some (put fs (fsenc o) file) ∧
      (Disk nb ok dec dflt (disk (some file)) file → (∀ m, ((disk (some file)).order m).Perm m) →
      ∃ file', ∀ (out : List Nat) (room : List Nat → Option Nat) (n : Nat), room out = some n → file'.length ≤ n →
        let fs' := put (put fs (fsenc o) file) out file'
        runQuant ⟨dec 0, dec 1, chunk⟩ ver disk room [fsenc o, type, out] (put fs (fsenc o) file) = .ok (0, fs') ∧
        (Disk nb ok dec dflt (disk (some file')) file' → (disk (some file')).signed = (disk (some file)).signed →
          (disk (some file')).order = (disk (some file)).order →
        ∃ (W : Weights α) (lm : LmWeights α) (k : Ctx α) (l : Ledger) (tcs : List (List Nat)),
          Load.Named (quantAt rnd qz qtype dflt f16 s) s.config.layers W ∧ W.lm = some lm ∧
          load (disk (some file')) = .ok (some k, l) ∧ Tokens s.config s.tok.dict (tcs.map utf8Encode) ∧
          (∀ t ∈ tcs, ∀ c ∈ t, IsScalar c) ∧
          FillsRoberta s dflt W lm cls mask pad sep (fun p => disk (fs' p)) out k tcs)) := by
  obtain ⟨g0, b0, h0, _⟩ := roberta_file hcls hc hst hlm ht hd dflt f16 []
  obtain ⟨f1, f2⟩ := file_of_convert h0
  refine ⟨metaData 32 (preamble g0.kv g0.dir.length) (g0.dir.map record) ++ b0, ?_, fun hw hperm => ?_⟩
  · unfold runConvert
    rw [(C129_writes dig source enc args o _).2 ⟨is, i, c, s, f16, hline, h1, h2, h3, h4, hsrc, f1⟩]
  obtain ⟨g1, bytes1, h1, hr, hld⟩ := roberta_file hcls hc hst hlm ht hd dflt f16
    (metaData 32 (preamble g0.kv g0.dir.length) (g0.dir.map record))
  obtain ⟨sp, hids⟩ := roberta_ids ht.ids
  obtain ⟨_, ls, _, _, hwv, _⟩ := vocab_written hc ht.dict
  obtain ⟨mm, hm, _⟩ := merge_written hc ht
  have hconv := convert_roberta hcls hc hst hlm hids enc f16
    (metaData 32 (preamble g0.kv g0.dir.length) (g0.dir.map record)) hwv hm
  rw [f2] at h1 hconv
  injection h1 with h1
  injection h1 with e1 e2
  subst e1 e2
  injection hconv with hconv
  injection hconv with e1 e2
  have hmeta := roberta_meta hc hf.name hf.eps hf.range hids f16
  have ho := converted_opens (.inr hcls) hst hlm (.inr ⟨mm, rfl⟩) hd hq hf (roberta_keys f16 s sp)
    (roberta_aligned ..) hmeta e1 e2 hr rfl hw
  obtain ⟨k, l, r, ts, tcs, data, d1, d2, d3, d4, d5, d6, d7, d8, d9, _, _, m, d12⟩ := hld _ ho hperm
  have hch := chain_ready (.inr hcls) hst hlm (.inr ⟨mm, rfl⟩) hd hq dflt (roberta_keys f16 s sp)
    (roberta_aligned ..) e1 e2 (hr ho.fits.2) ho d1 ver preamble
  obtain ⟨file', q1, q2⟩ := chained_files (.inr hcls) hst hlm (.inr ⟨mm, rfl⟩) hd hq hf (roberta_keys f16 s sp)
    (roberta_aligned ..) hmeta e1 e2 hr ho hv
    (P' := fun w' _ => ∃ g' bytes', Opens w' g' bytes' dec dflt ∧ Ready g' s.config)
    (fun _ g' _ _ b ho' hr' => ⟨g', b, ho', hr'⟩) hch
  refine ⟨file', fun out room n hroom hn => ?_⟩
  obtain ⟨o', r1, r2⟩ := q1 n
  refine ⟨?_, fun hw' hsig hord => ?_⟩
  · rw [← r2 hn]
    exact run_quant (if_pos rfl) hty (by rw [hroom]; exact r1)
  obtain ⟨k', l', m1, m2, _, m4, m5, g', b', m6, m7⟩ := q2 _ hw' hsig hord
  obtain ⟨lm, lm1, lm2⟩ := quant_head_ok (by rw [hcls]; decide) hst hlm hh rnd qz qtype dflt f16
  rw [d2] at m2 m5
  obtain ⟨i1, i2, i3, i4⟩ := hi
  have hsp := ascii_specials ht.dict hasc d5 d8
  have j1 := d8.base.cls; have j2 := d8.base.mask; have j3 := d8.base.pad; have j4 := d8.base.sep
  rw [i1] at j1; rw [i2] at j2; rw [i3] at j3; rw [i4] at j4
  obtain ⟨j1', j1⟩ := j1
  obtain ⟨j2', j2⟩ := j2
  obtain ⟨j3', j3⟩ := j3
  obtain ⟨j4', j4⟩ := j4
  injection j1' with j1'; injection j2' with j2'; injection j3' with j3'; injection j4' with j4'
  subst j1' j2' j3' j4'
  have hl : k'.weights.lm = some lm := (m5.2.2.2.2.2.2.2.2.2 lm).2 lm1
  have hput : put (put fs (fsenc o) (metaData 32 (preamble g0.kv g0.dir.length) (g0.dir.map record) ++ b0)) out file' out =
      some file' := if_pos rfl
  refine ⟨k'.weights, lm, k', l', tcs, m5, hl, m1, by rw [← d7.enc]; exact d5, d7.scalar, ?_⟩
  exact roberta_fills hc hlay hne hmask hm3 hl lm2 (by rw [hput]; exact m6) m7 (by rw [hput]; exact m1)
    m2 (m4.trans d4) d5 d6 d7 rfl hsp hperm (by rw [hput, hsig]; exact d12) j1 j4

/-- C130, other files: the converter changes no file but the one at the output path of its command line, the quantizer
none but the one at the path of its last argument. -/
theorem C130_others (fs : Files) :
    (∀ (dig : Nat → Bool) (source : Text → Option Text → Option (Source α)) (enc : Bool → List α → List Nat)
      (fsenc : Text → List Nat) args fs', runConvert dig source enc fsenc args fs = some fs' →
      ∃ is o file, Line dig is args ∧ LastOf .output is (some o) ∧ fs' (fsenc o) = some file ∧
        ∀ p, p ≠ fsenc o → fs' p = fs p) ∧
    (∀ (cv : Quantize.Conv F) ver (disk : Option (List Nat) → World α) room args status fs',
      runQuant cv ver disk room args fs = .ok (status, fs') →
      ∀ p, (∀ input type, args ≠ [input, type, p]) → fs' p = fs p) := by
  constructor
  · intro dig source enc fsenc args fs' h
    unfold runConvert at h
    split at h
    · rename_i o file hm
      injection h with h
      subst h
      obtain ⟨is, i, c, s, f16, h1, _, h3, _⟩ := (C129_writes dig source enc args o file).1 hm
      exact ⟨is, o, file, h1, h3, if_pos rfl, fun p hp => if_neg hp⟩
    · cases h
  · intro cv ver disk room args status fs' h p hp
    unfold runQuant at h
    cases hq : Quantize.quantProgram cv ver preamble (fun p => disk (fs p)) room args with
    | ok r =>
      rw [hq] at h
      simp only [Res.bind] at h
      injection h with h
      injection h with _ h
      split at h
      · rename_i _ _ _ i t out _
        rw [← h]
        exact if_neg fun e => hp i t (by rw [e])
      · rw [h]
    | ub => rw [hq] at h; cases h
    | abort => rw [hq] at h; cases h
    | hang => rw [hq] at h; cases h

/-- C130, room: a file that was written without failure is complete; more room does not change it. -/
theorem C130_room (cv : Quantize.Conv F) (ver : Nat) (header : List (List Nat × Kv) → Nat → List Nat) (w : World α)
    {room room' : Nat} (hle : room ≤ room') (qtype : Nat) {b : Bool} {o : Out}
    (h : bertsModelQuantize cv ver header w (some room) qtype = .ok (b, some o)) (hg : o.fail = false) :
    ∃ o', bertsModelQuantize cv ver header w (some room') qtype = .ok (b, some o') ∧ o'.bytes = o.bytes :=
  Quantize.quantize_roomier cv ver header w hle qtype h hg

/-- The hypotheses of `C130_room` can be met, and without room the file is another. -/
example : ∃ o, bertsModelQuantize qfConv 2 qfHeader (qfWorld []) (some 2000) 8 = .ok (true, some o) ∧ o.fail = false ∧
    ∃ o', bertsModelQuantize qfConv 2 qfHeader (qfWorld []) (some 100) 8 = .ok (true, some o') ∧ o'.fail = true ∧
      o'.bytes ≠ o.bytes := by
  have h : (match bertsModelQuantize qfConv 2 qfHeader (qfWorld []) (some 2000) 8,
      bertsModelQuantize qfConv 2 qfHeader (qfWorld []) (some 100) 8 with
    | .ok (true, some o), .ok (true, some o') => !o.fail && o'.fail && o'.bytes != o.bytes
    | _, _ => false) = true := by decide +kernel
  split at h
  · rename_i o o' e e'
    simp only [Bool.and_eq_true, Bool.not_eq_true', bne_iff_ne, ne_eq] at h
    exact ⟨o, e, h.1.1, o', e', h.1.2, h.2⟩
  · cases h

/-! ### The programs run on small models -/

theorem tc_quant {s : Source Int} (f16 : Bool) (hl : ∀ p ∈ s.state, 10 ∉ p.key ∧ 13 ∉ p.key)
    (he : ∀ p ∈ s.state ++ s.lm, p.elems.length = p.shape.foldl (· * ·) 1 ∧
      p.elems.length = p.shape.reverse.foldl (· * ·) 1)
    (hn : ∀ p ∈ s.state ++ s.lm, ((ascii "LayerNorm.weight").isSuffixOf p.key ||
      (ascii "layer_norm.weight").isSuffixOf p.key) = true → wide p.shape = false) :
    QuantOk s chEnc chDec exRnd f16 chChunk chRound 8 chNb := by
  refine ⟨by decide, ⟨fun ne => rfl, fun ne => rfl, fun n => by simp [chNb], fun n => by simp [chNb]⟩, ?_, hl,
    fun p hp => (he p hp).1, ?_, ?_⟩
  · intro q xs
    induction xs with
    | nil => cases q <;> rfl
    | cons x xs ih =>
      have : chEnc q (x :: xs) = (if q then [x.toNat, 0] else [x.toNat, 0, 0, 0]) ++ chEnc q xs := rfl
      rw [this, List.length_append, ih, List.length_cons]
      cases q <;> simp <;> omega
  · intro p hp h
    refine hn p hp ?_
    rw [Bool.or_eq_true, List.isSuffixOf_iff_suffix, List.isSuffixOf_iff_suffix]
    exact h
  · intro p hp _
    refine ⟨_, rfl, ?_, ?_, ?_⟩
    · simp [stored, chNb, (he p hp).2]
    · simp only [stored, List.length_map]
      omega
    · simp [chDec, stored, chRound, Function.comp_def]

/-- The disk of the examples. -/
def tcDisk (f : Option (List Nat)) : World Int := fmWorld (f.getD [])

theorem tc_type : ∃ name, TypeName 8 name ∧ (CaseVariant (ascii "q8_0") name ∨ Number (ascii "q8_0") 8) :=
  (C58_accept_iff (ascii "q8_0") 8).1 (by decide +kernel)

theorem tc_line : Line asciiDigit [.value .input (ascii "m"), .value .output (ascii "a")]
    [ascii "-i", ascii "m", ascii "-o", ascii "a"] :=
  .cons (.apart (.inl rfl) (.inl (by decide))) (.cons (.apart (.inl rfl) (.inl (by decide))) .nil)

theorem tc_convert {s : Source Int} {file file0 : List Nat} {fs : Files}
    (h : runConvert asciiDigit (fun _ _ => some s) chEnc id [ascii "-i", ascii "m", ascii "-o", ascii "a"] fs =
      some (put fs (id (ascii "a")) file)) (hf : convertFile chEnc true s = some file0) : file0 = file := by
  have := (C129_writes asciiDigit (fun _ _ => some s) chEnc [ascii "-i", ascii "m", ascii "-o", ascii "a"]
    (ascii "a") file0).2 ⟨_, ascii "m", none, s, true, tc_line, ⟨[], _, rfl, fun u h => by simp at h⟩,
      ⟨[_], _, rfl, fun u h => by simp at h⟩, fun v h => by simp at h, by simp, rfl, hf⟩
  unfold runConvert at h
  rw [this] at h
  simp only [Option.some.injEq] at h
  have := congrFun h (ascii "a")
  simpa [put] using this

/-- The hypotheses of `C130_bert_partial` can be met: the converter and the quantizer run. -/
example : ∃ fs1 n fs2,
    runConvert asciiDigit (fun _ _ => some exBertLm) chEnc id [ascii "-i", ascii "m", ascii "-o", ascii "a"]
      (fun _ => none) = some fs1 ∧
    runQuant ⟨chDec 0, chDec 1, chChunk⟩ 2 tcDisk (fun _ => some n) [ascii "a", ascii "q8_0", ascii "b"] fs1 = .ok (0, fs2) := by
  obtain ⟨hh1, hh2⟩ := exHead_ok .bert (exConfig 8) (.inl ⟨rfl, rfl⟩)
  have hmk : ¬ marker <+: ascii "[MASK]" := by
    rw [← List.isPrefixOf_iff_prefix]
    decide
  have hq : QuantOk exBertLm chEnc chDec exRnd true chChunk chRound 8 chNb :=
    tc_quant true (by decide +kernel) (by decide +kernel) (by decide +kernel)
  obtain ⟨file, h1, h2⟩ := C130_bert_partial (s := exBertLm) rfl (exConfig_ok 8 (by decide)) (exParams_ok 8 (.inl rfl))
    hh1 hh2 exBertTok_ok (by decide) rfl (.inr rfl) (cls := 0) (mask := 4) (pad := 3) (sep := 1) (unk := 2)
    ⟨rfl, rfl, rfl, rfl, rfl⟩ (by decide) (maskTok := ascii "[MASK]") (by decide +kernel) (by decide) (by decide) hmk
    ch_codec 0 tc_line (i := ascii "m") (o := ascii "a") (c := none) ⟨[], _, rfl, fun u h => by simp at h⟩
    ⟨[_], _, rfl, fun u h => by simp at h⟩ (fun v h => by simp at h) (f16 := true) (by simp)
    (source := fun _ _ => some exBertLm) rfl hq (ok := fmOk)
    ⟨by decide +kernel, by decide +kernel, by decide +kernel, fun _ _ _ _ => rfl, fun _ _ _ => rfl⟩ 2 (by decide)
    tc_type id tcDisk (fun _ => none)
  obtain ⟨file0, g1, g2⟩ := fm_disk (s := exBertLm) (by decide +kernel)
  have hfile : file0 = file := tc_convert h1 g1
  subst hfile
  obtain ⟨file', h3⟩ := h2 g2
  exact ⟨_, _, _, h1, (h3 (ascii "b") (fun _ => some file'.length) file'.length rfl (Nat.le_refl _)).1⟩

/-- The hypotheses of `C130_roberta_partial` can be met: the converter and the quantizer run. -/
example : ∃ fs1 n fs2,
    runConvert asciiDigit (fun _ _ => some exRobLm) chEnc id [ascii "-i", ascii "m", ascii "-o", ascii "a"]
      (fun _ => none) = some fs1 ∧
    runQuant ⟨chDec 0, chDec 1, chChunk⟩ 2 tcDisk (fun _ => some n) [ascii "a", ascii "q8_0", ascii "b"] fs1 = .ok (0, fs2) := by
  obtain ⟨hh1, hh2⟩ := exHead_ok .roberta exRobConfig (.inr ⟨rfl, rfl⟩)
  have hq : QuantOk exRobLm chEnc chDec exRnd true chChunk chRound 8 chNb :=
    tc_quant true (by decide +kernel) (by decide +kernel) (by decide +kernel)
  obtain ⟨file, h1, h2⟩ := C130_roberta_partial (s := exRobLm) rfl exRobConfig_ok exRobParams_ok
    hh1 hh2 exLmTok_ok (by decide) exRobLm_ascii (cls := 0) (mask := 4) (pad := 1) (sep := 2) ⟨rfl, rfl, rfl, rfl⟩ (by decide)
    (maskTok := ascii "<mask>") (by decide +kernel) (by decide)
    ch_codec 0 tc_line (i := ascii "m") (o := ascii "a") (c := none) ⟨[], _, rfl, fun u h => by simp at h⟩
    ⟨[_], _, rfl, fun u h => by simp at h⟩ (fun v h => by simp at h) (f16 := true) (by simp)
    (source := fun _ _ => some exRobLm) rfl hq (ok := fmOk)
    ⟨by decide +kernel, by decide +kernel, by decide +kernel, fun _ _ _ _ => rfl, fun _ _ _ => rfl⟩ 2 (by decide)
    tc_type id tcDisk (fun _ => none)
  obtain ⟨file0, g1, g2⟩ := fm_disk (s := exRobLm) (by decide +kernel)
  have hfile : file0 = file := tc_convert h1 g1
  subst hfile
  obtain ⟨file', h3⟩ := h2 g2 (fun m => List.Perm.refl m)
  exact ⟨_, _, _, h1, (h3 (ascii "b") (fun _ => some file'.length) file'.length rfl (Nat.le_refl _)).1⟩

end Berts.Props
