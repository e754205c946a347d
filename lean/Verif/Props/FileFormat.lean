import Verif.Proofs.FileFormat
import Verif.Props.Chain

/-! # Property C127: what is written to files is what is read from them -/

namespace Berts.Props

open Berts.Convert
open Berts.FileFormat
open Berts.Quantize (Info Out bertsModelQuantize quantKv metaData up ReadBack Reopens Conv Quantizable QuantizedFrom AlignedAs)
open Berts.Load
open Berts.Vocab (ascii decimal VocabT)
open Berts.Spec

variable {α F : Type}

/-- C127: the reader returns the metadata and the directory that were written, and finds the data after them, at a
multiple of the alignment. -/
theorem C127_read (nb : Nat → List Nat → Nat) (ok : Nat → List Nat → Bool) {kv : List (List Nat × Kv)} {dir : List TInfo}
    (hk : MetaOk kv) (hc : dir.length < 2 ^ 64) (hi : ∀ t ∈ dir, InfoOk ok (record t))
    (hs : ∀ t ∈ dir, t.nbytes = nb t.type t.ne) (ha : AlignedAs kv 32) (data : List Nat) :
    ∃ off, readGguf nb ok (metaData 32 (preamble kv dir.length) (dir.map record) ++ data) = .ok (some ⟨kv, dir, off⟩) ∧
      off % 32 = 0 ∧ (metaData 32 (preamble kv dir.length) (dir.map record) ++ data).drop off = data := by
  refine ⟨_, written_read hk hc hi hs ha data, ?_, List.drop_left⟩
  have hval := Quantize.metaSize_val 32 (by omega) (preamble kv dir.length) (dir.map record)
  unfold Quantize.metaSize at hval
  rw [hval, ← Quantize.up_eq]
  unfold up
  exact Nat.mul_mod_left _ _

/-- C127, files cut short (partial: nothing is said about the last tensor of the directory, which the loader does not
check, see C56): a file that ends within the metadata or the directory, or within the data of a tensor that is not
the last, is not loaded. -/
theorem C127_cut_partial (nb : Nat → List Nat → Nat) (ok : Nat → List Nat → Bool) {kv : List (List Nat × Kv)}
    {dir : List TInfo} (hk : MetaOk kv) (hc : dir.length < 2 ^ 64) (hi : ∀ t ∈ dir, InfoOk ok (record t))
    (hs : ∀ t ∈ dir, t.nbytes = nb t.type t.ne) (ha : AlignedAs kv 32) {data p : List Nat}
    (hp : p <+: metaData 32 (preamble kv dir.length) (dir.map record) ++ data) {w : World α}
    (hg : readGguf nb ok p = .ok w.gguf) (hf : w.file = some p) :
    (p.length < (preamble kv dir.length ++ (dir.map record).flatMap Quantize.infoBytes).length →
      ∃ l, load w = .ok (none, l)) ∧
    (((dir.map (·.name)).Nodup ∧ ∀ t ∈ dir, t.name.length < 64) →
      (∀ t ∈ dir, (metaData 32 (preamble kv dir.length) (dir.map record)).length + t.offset < 2 ^ 64) →
      ∀ t ∈ dir.dropLast, t.nbytes ≠ 0 →
        p.length < (metaData 32 (preamble kv dir.length) (dir.map record)).length + t.offset + t.nbytes →
        ∀ c l, load w ≠ .ok (some c, l)) := by
  have hi' : ∀ i ∈ dir.map record, InfoOk ok i := fun i h => by
    obtain ⟨t, ht, rfl⟩ := List.mem_map.1 h
    exact hi t ht
  have hc' : (dir.map record).length < 2 ^ 64 := by rw [List.length_map]; exact hc
  have hpre : ∃ r, preamble kv dir.length ++ (dir.map record).flatMap Quantize.infoBytes ++ r =
      metaData 32 (preamble kv dir.length) (dir.map record) ++ data :=
    ⟨_, by unfold metaData; exact (List.append_assoc _ _ _).symm⟩
  have hnone : w.gguf = none → ∃ l, load w = .ok (none, l) := by
    intro h
    unfold load
    rw [h]
    exact ⟨_, rfl⟩
  obtain ⟨r, hr⟩ := hpre
  obtain ⟨q, hq⟩ := hp
  rw [← hr] at hq
  have hcut : p.length < (preamble kv dir.length ++ (dir.map record).flatMap Quantize.infoBytes).length → w.gguf = none := by
    intro hl
    rcases List.append_eq_append_iff.1 hq with ⟨e, h1, h2⟩ | ⟨e, h1, h2⟩
    · have he : e ≠ [] := by
        rintro rfl
        rw [h1, List.append_nil] at hl
        omega
      have := read_cut nb (p := p) (q := e) hk hc' hi' (by rw [List.length_map]; exact h1) he
      exact Res.ok.inj (hg.symm.trans this)
    · rw [h1, List.length_append] at hl
      omega
  refine ⟨fun hl => hnone (hcut hl), fun hn ho t ht h0 hl c l h => ?_⟩
  have ht' : t ∈ dir := List.dropLast_subset _ ht
  by_cases hlen : p.length < (preamble kv dir.length ++ (dir.map record).flatMap Quantize.infoBytes).length
  · obtain ⟨l', h'⟩ := hnone (hcut hlen)
    rw [h'] at h
    cases h
  · have hpp : ∃ e, p = preamble kv dir.length ++ (dir.map record).flatMap Quantize.infoBytes ++ e := by
      rcases List.append_eq_append_iff.1 hq with ⟨e, h1, h2⟩ | ⟨e, h1, h2⟩
      · have : e = [] := by
          rw [h1, List.length_append] at hlen
          exact List.length_eq_zero_iff.1 (by omega)
        subst this
        exact ⟨[], by rw [h1]; simp⟩
      · exact ⟨e, h1⟩
    obtain ⟨e, he⟩ := hpp
    have hread := written_any (nb := nb) hk hc hi hs ha e
    rw [← he] at hread
    have hgg := Res.ok.inj (hg.symm.trans hread)
    have hcomp := (C56_complete_partial h hgg hf hn ho).1 t ht (t.nbytes - 1) (by omega)
    simp only at hcomp
    omega

/-- Reading a quantized file gives what the contract of C80 asks for. -/
theorem quantized_read {nb : Nat → List Nat → Nat} {ok : Nat → List Nat → Bool} {g : Gguf} (hk : MetaOk g.kv)
    (hi : ∀ t ∈ g.dir, InfoOk ok (record t)) {ver qtype : Nat} (hv : ver < 2 ^ 32) (hq : qtype < 19)
    (hm : ∀ t ∈ g.dir, t.ndims = 2 → (∃ x, t.name = x ++ ascii "weight") → ok qtype t.ne = true)
    {cv : Conv F} {ts : List LT} (hs : Quantizable cv nb qtype g ts) {infos : List Info} (hd : Described g qtype infos)
    {data : List Nat} (hl : data.length = (infos.map fun e => up 32 e.size).sum) {dec : Nat → List Nat → List α} {dflt : α}
    {w w' : World α}
    (h : Disk nb ok dec dflt w' (metaData 32 (preamble (quantKv ver qtype g.kv) g.dir.length) infos ++ data))
    (h1 : w'.signed = w.signed) (h2 : w'.order = w.order) :
    ∃ g', ReadBack nb (quantKv ver qtype g.kv) (preamble (quantKv ver qtype g.kv) g.dir.length) infos g' ∧
      Reopens w w' g' (metaData 32 (preamble (quantKv ver qtype g.kv) g.dir.length) infos ++ data) := by
  have hlen := h.length
  rw [List.length_append] at hlen
  obtain ⟨c1, c2⟩ := counts_le 32 (quantKv ver qtype g.kv) g.dir.length infos
  have hal : AlignedAs (quantKv ver qtype g.kv) 32 := Quantize.aligned_same hs
  have hread := read_back nb (quant_meta hk hs.keys hv hq (by omega)) (by omega)
    (described_ok hd hq hi hm (by omega)) hal (by omega) 32 data
  rw [hd.length] at hread
  have hg : w'.gguf = some _ := (Res.ok.inj (h.gguf.symm.trans hread))
  exact ⟨_, readBack nb hal (by omega), hg, h.file, (h.pool _ hg).1, h.align, ⟨(h.pool _ hg).2, h.length⟩, h1, h2⟩

/-- C127, quantizer (partial, as C80): for any model that can be loaded, whose metadata and directory can be written,
the quantizer writes a file, the same whatever the room, if there is enough; whenever this file is read, it is loaded
as the same model with converted weights, and texts are tokenized as before. -/
theorem C127_quantized_partial {w : World α} {c : Ctx α} {l : Ledger} {g : Gguf} {bytes : List Nat}
    (h : load w = .ok (some c, l)) (hg : w.gguf = some g) (hf : w.file = some bytes) (hn : NamesOk g)
    (ho : ∀ t ∈ g.dir, g.dataOffset + t.offset < 2 ^ 64) (cv : Conv F) (nb : Nat → List Nat → Nat)
    (ok : Nat → List Nat → Bool) (ver qtype : Nat) (hv : ver < 2 ^ 32) (hq : qtype < 19)
    (hs : Quantizable cv nb qtype g c.tensors) (hk : MetaOk g.kv) (hi : ∀ t ∈ g.dir, InfoOk ok (record t))
    (hm : ∀ t ∈ g.dir, t.ndims = 2 → (∃ x, t.name = x ++ ascii "weight") → ok qtype t.ne = true) :
    ∃ file, (∀ room, ∃ o : Out, bertsModelQuantize cv ver preamble w (some room) qtype = .ok (true, some o) ∧
        (file.length ≤ room → o.bytes = file)) ∧
      ∀ dec dflt w', Disk nb ok dec dflt w' file → w'.signed = w.signed → w'.order = w.order →
        ∃ c' l', load w' = .ok (some c', l') ∧ QuantizedFrom cv qtype w'.conv c c' ∧
          ∀ u e setOrder text buf cap, Api.bertsTokenize (some (apiCtx u e setOrder c')) text buf cap =
            Api.bertsTokenize (some (apiCtx u e setOrder c)) text buf cap := by
  obtain ⟨ps, infos, h2, h3, h4, h5, h6⟩ := Quantize.quantize_files h hg hf hn ho (ver := ver) (header := preamble) hq hs
  refine ⟨metaData 32 (preamble (quantKv ver qtype g.kv) g.dir.length) infos ++ Quantize.body 32 (ps.map (·.2.2)),
    fun room => ?_, fun dec dflt w' hw e1 e2 => ?_⟩
  · obtain ⟨o, k1, k2⟩ := h6 room
    exact ⟨o, k1, fun hr => k2 (by rw [List.length_append] at hr; exact hr)⟩
  · obtain ⟨g', r1, r2⟩ := quantized_read hk hi hv hq hm hs (quantize_described h hg hf hn ho h2 h3 h4 h5)
      (written_sum h4 h5).symm hw e1 e2
    obtain ⟨_, _, _, c', l', k1, k2, k3, k4, k5, k6⟩ := Quantize.quantized_load h hg hf hn ho hq hs h2 h3 h4 h5 rfl r1 r2
    refine ⟨c', l', k1, quantizedFrom h2 h3 k2 k3 k4 k5 k6, ?_⟩
    intro u e setOrder text buf cap
    unfold apiCtx
    rw [k4, k2]

/-- Quantizing the model of the world `w`, which was loaded as `k`, leaves a file, the same whatever the room, if
there is enough; whenever it is read it is loaded with the settings and vocabulary of `k` and the weights of the
source, rounded. -/
def Requantized (s : Source α) (dec : Nat → List Nat → List α) (rnd : Bool → α → α) (dflt : α) (f16 : Bool)
    (chunk : Nat → List α → Option (List Nat)) (qz : List α → List α) (qtype : Nat) (nb : Nat → List Nat → Nat)
    (ok : Nat → List Nat → Bool) (ver : Nat) (w : World α) (k : Ctx α) (P : World α → Ctx α → Prop) : Prop :=
  ∃ file, (∀ room, ∃ o : Out,
      bertsModelQuantize ⟨dec 0, dec 1, chunk⟩ ver preamble w (some room) qtype = .ok (true, some o) ∧
      (file.length ≤ room → o.bytes = file)) ∧
    ∀ w', Disk nb ok dec dflt w' file → w'.signed = w.signed → w'.order = w.order →
      ∃ k' l', load w' = .ok (some k', l') ∧ k'.hp = k.hp ∧ k'.type = qtype ∧ k'.vocab = k.vocab ∧
        Load.Named (quantAt rnd qz qtype dflt f16 s) k.hp.hp.nLayers k'.weights ∧ P w' k'

section

variable {s : Source α} {enc : Bool → List α → List Nat} {dec : Nat → List Nat → List α}
  {rnd : Bool → α → α} {f16 : Bool} {chunk : Nat → List α → Option (List Nat)} {qz : List α → List α} {qtype : Nat}
  {nb : Nat → List Nat → Nat} (hcls : s.cls = .bert ∨ s.cls = .roberta) (hst : StateOk s.config s.state)
  (hlm : HeadOk s.cls s.lm) {m : List Convert.Tensor} (hm : MergeFile m) (hd : Codec enc dec rnd)
  (hq : QuantOk s enc dec rnd f16 chunk qz qtype nb) {ok : Nat → List Nat → Bool} (hf : FormatOk s ok qtype)
  {dflt : α} {kv : List (List Nat × Kv)} {ls ds header : List Nat}
  (hk : (kv.map (·.1)).Nodup) (ha : AlignedAs kv 32) (hmeta : MetaOk kv) {g : Gguf} {bytes : List Nat}
  (hg : g = ⟨kv, directory 0 (fileTensors ls ds m enc f16 s), header.length⟩)
  (hb : bytes = header ++ dataBytes (fileTensors ls ds m enc f16 s)) (hr : bytes.length < 2 ^ 63 → Ready g s.config)

include hcls hst hlm hm hd hq hf hk ha hmeta hg hb hr

theorem converted_opens (hh : header = metaData 32 (preamble g.kv g.dir.length) (g.dir.map record)) {w : World α}
    (hw : Disk nb ok dec dflt w bytes) : Opens w g bytes dec dflt := by
  have hl := hw.length
  have hr := hr hl
  have hl' := hl
  rw [hb, List.length_append] at hl'
  obtain ⟨c1, c2⟩ := counts_le 32 g.kv g.dir.length (g.dir.map record)
  rw [← hh, List.length_map] at c2
  have hs := file_quantizable (ls := ls) (ds := ds) hcls hst hlm hm hd hq hk ha header.length
  subst hg
  simp only at c2
  have hread := written_read (nb := nb) hmeta (by omega)
    (file_infos (header := header) (kv := kv) hcls hst hlm hm hq hf hr.names hr.offsets (by omega)).1 hs.sizes ha
    (dataBytes (fileTensors ls ds m enc f16 s))
  simp only at hh
  rw [← hh, ← hb, hw.gguf] at hread
  have hg := Res.ok.inj hread
  exact ⟨hg, hw.file, hw.conv, (hw.pool _ hg).1, hw.align, ⟨(hw.pool _ hg).2, hl⟩⟩

theorem chained_files {w : World α} (ho : Opens w g bytes dec dflt) {k : Ctx α} {ver : Nat} (hv : ver < 2 ^ 32)
    {P : World α → Gguf → Ctx α → Ledger → Prop} {P' : World α → Ctx α → Prop}
    (hP : ∀ w g k l bytes, Opens w g bytes dec dflt → P w g k l → P' w k)
    (h : Chained s dec rnd dflt f16 chunk qz qtype nb ver preamble g w k P) :
    Requantized s dec rnd dflt f16 chunk qz qtype nb ok ver w k P' := by
  have hl := ho.fits.2
  have hr := hr hl
  rw [hb, List.length_append] at hl
  have hs := file_quantizable (ls := ls) (ds := ds) hcls hst hlm hm hd hq hk ha header.length
  subst hg
  obtain ⟨hi, hmat⟩ := file_infos (header := header) (kv := kv) hcls hst hlm hm hq hf hr.names hr.offsets (by omega)
  obtain ⟨infos, data, h1, h2, h3⟩ := h
  refine ⟨metaData 32 (preamble (quantKv ver qtype kv) (directory 0 (fileTensors ls ds m enc f16 s)).length) infos ++ data,
    fun room => ?_, fun w' hw e1 e2 => ?_⟩
  · obtain ⟨o, k1, k2⟩ := h3 room
    exact ⟨o, k1, fun hroom => (k2 (by rw [List.length_append] at hroom; exact hroom)).1⟩
  · obtain ⟨g', r1, r2⟩ := quantized_read (g := ⟨kv, directory 0 (fileTensors ls ds m enc f16 s), header.length⟩)
      hmeta hi hv hq.type hmat hs h1 h2 hw e1 e2
    obtain ⟨o, k1, k2⟩ := h3 ((metaData 32 (preamble (quantKv ver qtype kv)
      (directory 0 (fileTensors ls ds m enc f16 s)).length) infos).length + data.length)
    obtain ⟨k2, k3⟩ := k2 (Nat.le_refl _)
    obtain ⟨k', l', d1, d2, d3, d4, d5, d6⟩ := k3 g' w' r1 (by rw [k2]; exact r2) hw.conv
    exact ⟨k', l', d1, d2, d3, d4, d5, hP _ _ _ _ _ ⟨r2.gguf, r2.file, hw.conv, r2.pool, r2.align, r2.fits⟩ d6⟩

end

theorem bert_meta {s : Source α} (hc : ConfigOk s.config) (hn : s.name.length < 2 ^ 64) (he : s.config.eps < 2 ^ 64)
    (hr : s.config.initRange < 2 ^ 64) {cls mask pad sep unk : Nat} (h : BertIds s.config s.tok cls mask pad sep unk)
    (f16 : Bool) : MetaOk (bertKv f16 s cls mask pad sep unk) := by
  have h1 := hc.vocab; have h2 := hc.hidden; have h3 := hc.layers; have h4 := hc.maxPos; have h5 := hc.interm
  have h6 := hc.types
  have h7 : s.config.heads < 2 ^ 32 := by have := Nat.le_of_dvd (by omega) hc.heads; omega
  have i1 := h.cls.2; have i2 := h.mask.2; have i3 := h.pad.2; have i4 := h.sep.2; have i5 := h.unk.2
  have hb : ∀ k b, (optBool k b).length ≤ 1 ∧ ∀ p ∈ optBool k b, p.1 = ascii k ∧ KvOk p.2 := by
    intro k b
    cases b with
    | none => exact ⟨by simp [optBool], by simp [optBool]⟩
    | some b => exact ⟨by simp [optBool], by simp [optBool, KvOk]⟩
  refine ⟨?_, fun p hp => ?_, fun p hp => ?_⟩
  · have b1 := (hb "berts.do_lower_case" s.tok.lowerCase).1
    have b2 := (hb "berts.do_basic_tokenize" s.tok.basic).1
    have b3 := (hb "berts.tokenize_chinese_chars" s.tok.chinese).1
    have b4 := (hb "berts.strip_accent" s.tok.strip).1
    simp only [bertKv, hparamList, specialList, List.length_append, List.length_cons, List.length_nil]
    omega
  · simp only [bertKv, hparamList, specialList, List.mem_append, List.mem_cons, List.not_mem_nil, or_false, or_assoc] at hp
    rcases hp with rfl | rfl | rfl | rfl | rfl | rfl | rfl | rfl | rfl | rfl | rfl | rfl | rfl | rfl | rfl | rfl | rfl |
      rfl | rfl | hp | hp | hp | hp | rfl
    all_goals first
      | (rw [((hb _ _).2 _ hp).1]; decide +kernel)
      | (simp only; decide +kernel)
  · simp only [bertKv, hparamList, specialList, List.mem_append, List.mem_cons, List.not_mem_nil, or_false, or_assoc] at hp
    rcases hp with rfl | rfl | rfl | rfl | rfl | rfl | rfl | rfl | rfl | rfl | rfl | rfl | rfl | rfl | rfl | rfl | rfl |
      rfl | rfl | hp | hp | hp | hp | rfl
    all_goals first
      | exact ((hb _ _).2 _ hp).2
      | (simp only [KvOk]; omega)
      | (simp only [KvOk]; decide +kernel)
      | (simp only [KvOk]; split <;> decide)

theorem roberta_meta {s : Source α} (hc : ConfigOk s.config) (hn : s.name.length < 2 ^ 64) (he : s.config.eps < 2 ^ 64)
    (hr : s.config.initRange < 2 ^ 64) {sp : Vocab.Special} (h : RobertaIds s.config s.tok sp)
    (f16 : Bool) : MetaOk (robertaKv f16 s sp) := by
  have h1 := hc.vocab; have h2 := hc.hidden; have h3 := hc.layers; have h4 := hc.maxPos; have h5 := hc.interm
  have h6 := hc.types
  have h7 : s.config.heads < 2 ^ 32 := by have := Nat.le_of_dvd (by omega) hc.heads; omega
  have i1 := h.base.cls.2; have i2 := h.base.mask.2; have i3 := h.base.pad.2; have i4 := h.base.sep.2
  have i5 := h.base.unk.2; have i6 := h.bos.2; have i7 := h.eos.2
  refine ⟨?_, fun p hp => ?_, fun p hp => ?_⟩
  · simp only [robertaKv, hparamList, specialList, List.length_append, List.length_cons, List.length_nil]
    omega
  · simp only [robertaKv, hparamList, specialList, List.mem_append, List.mem_cons, List.not_mem_nil, or_false, or_assoc] at hp
    rcases hp with rfl | rfl | rfl | rfl | rfl | rfl | rfl | rfl | rfl | rfl | rfl | rfl | rfl | rfl | rfl | rfl | rfl |
      rfl | rfl | rfl | rfl | rfl
    all_goals (simp only; decide +kernel)
  · simp only [robertaKv, hparamList, specialList, List.mem_append, List.mem_cons, List.not_mem_nil, or_false, or_assoc] at hp
    rcases hp with rfl | rfl | rfl | rfl | rfl | rfl | rfl | rfl | rfl | rfl | rfl | rfl | rfl | rfl | rfl | rfl | rfl |
      rfl | rfl | rfl | rfl | rfl
    all_goals first
      | (simp only [KvOk]; omega)
      | (simp only [KvOk]; decide +kernel)
      | (simp only [KvOk]; split <;> decide)

/-- The file of the converter is what `convert` says, with the computed header. -/
theorem file_of_convert {enc : Bool → List α → List Nat} {f16 : Bool} {s : Source α} {g : Gguf} {b : List Nat}
    (h : convert enc f16 [] s = some (g, b)) :
    let header := metaData 32 (preamble g.kv g.dir.length) (g.dir.map record)
    convertFile enc f16 s = some (header ++ b) ∧
    convert enc f16 header s = some (⟨g.kv, g.dir, header.length⟩, header ++ b) := by
  refine ⟨?_, ?_⟩
  · unfold convertFile
    rw [h]
    rfl
  · rw [convert_header, h]
    rfl

/-- C127, BERT (partial, as C126): the converter leaves a file; whenever it is read, the model has the configuration,
vocabulary, tokenizer and weights of the source; the quantizer then leaves a file, and whenever this is read, the
model is the same with rounded weights, and evaluates any text to the reference value. -/
theorem C127_bert_partial {s : Source α} (hcls : s.cls = .bert) (hc : ConfigOk s.config) (hst : StateOk s.config s.state)
    (hlm : HeadOk s.cls s.lm) (ht : BertTok s.config s.tok) {enc : Bool → List α → List Nat}
    {dec : Nat → List Nat → List α} {rnd : Bool → α → α} (hd : Codec enc dec rnd) (dflt : α) (f16 : Bool)
    {chunk : Nat → List α → Option (List Nat)} {qz : List α → List α} {qtype : Nat}
    {nb : Nat → List Nat → Nat} (hq : QuantOk s enc dec rnd f16 chunk qz qtype nb) {ok : Nat → List Nat → Bool}
    (hf : FormatOk s ok qtype) (ver : Nat) (hv : ver < 2 ^ 32) :
    ∃ file, convertFile enc f16 s = some file ∧ ∀ w : World α, Disk nb ok dec dflt w file →
      ∃ k l v sp cond ts, load w = .ok (some k, l) ∧ k.hp = hpOf 0 s.config ∧ k.type = (if f16 then 1 else 0) ∧
        k.vocab = .bert v sp cond ∧ Tokens s.config s.tok.dict ts ∧ Spec.Shows v ts ∧ OptionsOk s.tok cond ∧
        some sp.cls = s.tok.cls ∧ some sp.mask = s.tok.mask ∧ some sp.pad = s.tok.pad ∧ some sp.sep = s.tok.sep ∧
        some sp.unk = s.tok.unk ∧ sp.bos = INVALID ∧ sp.eos = INVALID ∧
        Load.Named (sourceAt rnd dflt f16 s) s.config.layers k.weights ∧
        Requantized s dec rnd dflt f16 chunk qz qtype nb ok ver w k fun _ k' =>
          s.config.layers ≤ 44 → EvaluatesText s 0 k'.weights sp.pad (· ≤ s.config.maxPos) k' := by
  obtain ⟨g0, b0, h0, _⟩ := bert_file hcls hc hst hlm ht hd dflt f16 []
  obtain ⟨f1, f2⟩ := file_of_convert h0
  refine ⟨_, f1, fun w hw => ?_⟩
  obtain ⟨g1, bytes1, h1, hr, hld⟩ := bert_file hcls hc hst hlm ht hd dflt f16
    (metaData 32 (preamble g0.kv g0.dir.length) (g0.dir.map record))
  obtain ⟨g, bytes, h2, h3⟩ := C126_bert_partial hcls hc hst hlm ht hd dflt f16
    (metaData 32 (preamble g0.kv g0.dir.length) (g0.dir.map record)) hq ver preamble
  obtain ⟨cls, mask, pad, sep, unk, hi⟩ := bert_ids ht.ids
  obtain ⟨_, ls, _, _, hwv, _⟩ := vocab_written hc ht.dict
  have hconv := convert_bert hcls hc hst hlm ht hi enc f16
    (metaData 32 (preamble g0.kv g0.dir.length) (g0.dir.map record)) hwv
  rw [f2] at h1 h2 hconv
  injection h1 with h1
  injection h1 with e1 e2
  subst e1 e2
  injection h2 with h2
  injection h2 with e1 e2
  subst e1 e2
  injection hconv with hconv
  injection hconv with e1 e2
  have hmeta := bert_meta hc hf.name hf.eps hf.range hi f16
  have ho := converted_opens (.inl hcls) hst hlm (.inl rfl) hd hq hf (bert_keys f16 s cls mask pad sep unk)
    (bert_aligned ..) hmeta e1 e2 hr rfl hw
  obtain ⟨k, l, v, sp, cond, ts, k1, k2, k3, k4, k5, k6, k7, k8, k9, k10, k11, k12, k13, k14⟩ := h3 w ho
  obtain ⟨k', l', _, _, _, _, _, _, _, _, d1, _, d3, _, _, _, _, _, d4⟩ := hld w ho
  rw [k1] at d1
  injection d1 with d1
  injection d1 with d1 _
  injection d1 with d1
  subst d1
  exact ⟨k, l, v, sp, cond, ts, k1, k2, d3, k3, k4, k5, k6, k7, k8, k9, k10, k11, k12, k13, d4,
    chained_files (.inl hcls) hst hlm (.inl rfl) hd hq hf (bert_keys f16 s cls mask pad sep unk)
      (bert_aligned ..) hmeta e1 e2 hr ho hv (fun _ _ _ _ _ _ h => h) k14⟩

/-- C127, RoBERTa (partial, as C126). -/
theorem C127_roberta_partial {s : Source α} (hcls : s.cls = .roberta) (hc : ConfigOk s.config)
    (hst : StateOk s.config s.state) (hlm : HeadOk s.cls s.lm) {rs : List ((List Nat × List Nat) × Nat)}
    (ht : RobertaTok s.config s.tok rs) {enc : Bool → List α → List Nat}
    {dec : Nat → List Nat → List α} {rnd : Bool → α → α} (hd : Codec enc dec rnd) (dflt : α) (f16 : Bool)
    {chunk : Nat → List α → Option (List Nat)} {qz : List α → List α} {qtype : Nat}
    {nb : Nat → List Nat → Nat} (hq : QuantOk s enc dec rnd f16 chunk qz qtype nb) {ok : Nat → List Nat → Bool}
    (hf : FormatOk s ok qtype) (ver : Nat) (hv : ver < 2 ^ 32) :
    ∃ file, convertFile enc f16 s = some file ∧ ∀ w : World α, Disk nb ok dec dflt w file → (∀ m, (w.order m).Perm m) →
      ∃ k l r ts, load w = .ok (some k, l) ∧ k.hp = hpOf 1 s.config ∧ k.type = (if f16 then 1 else 0) ∧
        k.vocab = .roberta r ∧ Tokens s.config s.tok.dict ts ∧ Spec.Shows r.v ts ∧
        some r.special.cls = s.tok.cls ∧ some r.special.mask = s.tok.mask ∧ some r.special.pad = s.tok.pad ∧
        some r.special.sep = s.tok.sep ∧ some r.special.unk = s.tok.unk ∧ some r.special.bos = s.tok.bos ∧
        some r.special.eos = s.tok.eos ∧ Load.Named (sourceAt rnd dflt f16 s) s.config.layers k.weights ∧
        Requantized s dec rnd dflt f16 chunk qz qtype nb ok ver w k fun _ k' =>
          s.config.layers ≤ 44 →
            EvaluatesText s 1 k'.weights r.special.pad (fun n => r.special.pad + n < s.config.maxPos) k' := by
  obtain ⟨g0, b0, h0, _⟩ := roberta_file hcls hc hst hlm ht hd dflt f16 []
  obtain ⟨f1, f2⟩ := file_of_convert h0
  refine ⟨_, f1, fun w hw hord => ?_⟩
  obtain ⟨g1, bytes1, h1, hr, hld⟩ := roberta_file hcls hc hst hlm ht hd dflt f16
    (metaData 32 (preamble g0.kv g0.dir.length) (g0.dir.map record))
  obtain ⟨g, bytes, h2, h3⟩ := C126_roberta_partial hcls hc hst hlm ht hd dflt f16
    (metaData 32 (preamble g0.kv g0.dir.length) (g0.dir.map record)) hq ver preamble
  obtain ⟨sp, hi⟩ := roberta_ids ht.ids
  obtain ⟨_, ls, _, _, hwv, _⟩ := vocab_written hc ht.dict
  obtain ⟨lm, hm, _⟩ := merge_written hc ht
  have hconv := convert_roberta hcls hc hst hlm hi enc f16
    (metaData 32 (preamble g0.kv g0.dir.length) (g0.dir.map record)) hwv hm
  rw [f2] at h1 h2 hconv
  injection h1 with h1
  injection h1 with e1 e2
  subst e1 e2
  injection h2 with h2
  injection h2 with e1 e2
  subst e1 e2
  injection hconv with hconv
  injection hconv with e1 e2
  have hmeta := roberta_meta hc hf.name hf.eps hf.range hi f16
  have ho := converted_opens (.inr hcls) hst hlm (.inr ⟨lm, rfl⟩) hd hq hf (roberta_keys f16 s sp)
    (roberta_aligned ..) hmeta e1 e2 hr rfl hw
  obtain ⟨k, l, r, ts, k1, k2, k3, k4, k5, k6, k7, k8, k9, k10, k11, k12, k13⟩ := h3 w ho hord
  obtain ⟨k', l', _, _, _, _, d1, _, d3, _, _, _, _, _, d4, _⟩ := hld w ho hord
  rw [k1] at d1
  injection d1 with d1
  injection d1 with d1 _
  injection d1 with d1
  subst d1
  exact ⟨k, l, r, ts, k1, k2, d3, k3, k4, k5, k6, k7, k8, k9, k10, k11, k12, d4,
    chained_files (.inr hcls) hst hlm (.inr ⟨lm, rfl⟩) hd hq hf (roberta_keys f16 s sp)
      (roberta_aligned ..) hmeta e1 e2 hr ho hv (fun _ _ _ _ _ _ h => h) k13⟩

/-! Files meeting the hypotheses. -/

def fmOk (_ : Nat) (_ : List Nat) : Bool := true

/-- The world in which the file is on disk. -/
def fmWorld (file : List Nat) : World Int :=
  ⟨(match readGguf chNb fmOk file with | .ok g => g | _ => none), fun _ => true, some file, fun _ _ => 0, decoded chDec 0,
    loadGg, false, id⟩

theorem fm_disk {s : Source Int} (h : (match convertFile chEnc true s with
      | some file => (match readGguf chNb fmOk file with
        | .ok (some g) => decide (needed loadGg g.dir < 2 ^ 64 ∧ file.length < 2 ^ 63)
        | _ => false)
      | none => false) = true) :
    ∃ file, convertFile chEnc true s = some file ∧ Disk chNb fmOk chDec 0 (fmWorld file) file := by
  split at h
  · rename_i file e
    split at h
    · rename_i g e'
      have h := of_decide_eq_true h
      have h1 : 0 < loadGg.align ∧ loadGg.tensorSize % loadGg.align = 0 := by decide
      have hg : (fmWorld file).gguf = some g := by unfold fmWorld; simp only [e']
      refine ⟨file, e, by rw [e', hg], rfl, rfl, fun g' h' => ?_, h1, h.2⟩
      rw [hg] at h'
      injection h' with h'
      subst h'
      exact ⟨rfl, h.1⟩
    · cases h
  · cases h

/-- The hypotheses of `C127_bert_partial` can be met, and the file can be read. -/
example : ConfigOk exBert.config ∧ StateOk exBert.config exBert.state ∧ HeadOk exBert.cls exBert.lm ∧
    BertTok exBert.config exBert.tok ∧ Codec chEnc chDec exRnd ∧
    QuantOk exBert chEnc chDec exRnd true chChunk chRound 8 chNb ∧ FormatOk exBert fmOk 8 ∧
    ∃ file, convertFile chEnc true exBert = some file ∧ Disk chNb fmOk chDec 0 (fmWorld file) file :=
  ⟨exConfig_ok 8 (by decide), exParams_ok 8 (.inl rfl), ⟨by decide, by simp [exBert], by simp [exBert]⟩, exBertTok_ok,
    ch_codec, ch_quant 8 (.inl rfl) true rfl rfl,
    ⟨by decide +kernel, by decide +kernel, by decide +kernel, fun _ _ _ _ => rfl, fun _ _ _ => rfl⟩,
    fm_disk (by decide +kernel)⟩

/-- The hypotheses of `C127_roberta_partial` can be met, and the file can be read. -/
example : ConfigOk exRob.config ∧ StateOk exRob.config exRob.state ∧ HeadOk exRob.cls exRob.lm ∧
    RobertaTok exRob.config exRob.tok exRanks ∧ Codec chEnc chDec exRnd ∧
    QuantOk exRob chEnc chDec exRnd true chChunk chRound 8 chNb ∧ FormatOk exRob fmOk 8 ∧
    ∃ file, convertFile chEnc true exRob = some file ∧ Disk chNb fmOk chDec 0 (fmWorld file) file ∧
      ∀ m, ((fmWorld file).order m).Perm m := by
  refine ⟨exConfig_ok 10 (by decide), exParams_ok 10 (.inr rfl), ⟨by decide, by simp [exRob], by simp [exRob]⟩,
    exRobTok_ok (.inl rfl), ch_codec, ch_quant 10 (.inr rfl) true rfl rfl,
    ⟨by decide +kernel, by decide +kernel, by decide +kernel, fun _ _ _ _ => rfl, fun _ _ _ => rfl⟩, ?_⟩
  obtain ⟨file, h1, h2⟩ := fm_disk (s := exRob) (by decide +kernel)
  exact ⟨file, h1, h2, fun m => List.Perm.refl _⟩

/-- A small file. -/
def fmKv : List (List Nat × Kv) := [(ascii "a", .u32 258), (ascii "b", .str (ascii "xy")), (ascii "c", .bool true)]
def fmDir : List TInfo := [⟨ascii "t", 1, [2], 16, 2, 0⟩, ⟨ascii "u.weight", 2, [2, 1], 0, 8, 32⟩]

/-- It meets the hypotheses of `C127_read` and `C127_cut_partial`. -/
example : MetaOk fmKv ∧ (∀ t ∈ fmDir, InfoOk fmOk (record t)) ∧ (∀ t ∈ fmDir, t.nbytes = chNb t.type t.ne) ∧
    AlignedAs fmKv 32 ∧ (fmDir.map (·.name)).Nodup ∧ ∀ t ∈ fmDir, t.name.length < 64 := by
  refine ⟨⟨by decide, by decide +kernel, ?_⟩, ?_, by decide +kernel, .inr ⟨by unfold NoKey fmKv; decide +kernel, rfl⟩, by decide +kernel,
    by decide +kernel⟩
  · intro p hp
    simp only [fmKv, List.mem_cons, List.not_mem_nil, or_false] at hp
    rcases hp with rfl | rfl | rfl
    · show 258 < 2 ^ 32; decide
    · show (ascii "xy").length < 2 ^ 64; decide +kernel
    · trivial
  · intro t ht
    simp only [fmDir, List.mem_cons, List.not_mem_nil, or_false] at ht
    rcases ht with rfl | rfl
    · exact ⟨by decide +kernel, by decide, by decide, by decide, by decide, rfl⟩
    · exact ⟨by decide +kernel, by decide, by decide, by decide, by decide, rfl⟩

/-- Its bytes. -/
example : preamble fmKv 2 = [71, 71, 85, 70, 3, 0, 0, 0, 2, 0, 0, 0, 0, 0, 0, 0, 3, 0, 0, 0, 0, 0, 0, 0,
    1, 0, 0, 0, 0, 0, 0, 0, 97, 4, 0, 0, 0, 2, 1, 0, 0,
    1, 0, 0, 0, 0, 0, 0, 0, 98, 8, 0, 0, 0, 2, 0, 0, 0, 0, 0, 0, 0, 120, 121,
    1, 0, 0, 0, 0, 0, 0, 0, 99, 7, 0, 0, 0, 1] := by
  decide +kernel

/-- The outcomes of reading. -/
def fmOutcome (file : List Nat) : String :=
  match readGguf chNb fmOk file with
  | .ok none => "refused"
  | .ok (some _) => "read"
  | .ub => "undefined"
  | .abort => "abort"
  | .hang => "hang"

/-- Other files: a wrong magic number or version 1 is refused; a value of unknown type stops the program; an alignment
of 0 is a division by zero. -/
example : fmOutcome (preamble [] 0) = "read" ∧
    fmOutcome (ascii "GGML" ++ (preamble [] 0).drop 4) = "refused" ∧
    fmOutcome (ascii "GGUF" ++ Quantize.le 4 1 ++ (preamble [] 0).drop 8) = "refused" ∧
    fmOutcome (ascii "GGUF" ++ Quantize.le 4 3 ++ Quantize.le 8 0 ++ Quantize.le 8 1 ++ Quantize.le 8 0 ++
      Quantize.le 4 13) = "abort" ∧
    fmOutcome (preamble [(ascii "general.alignment", .u32 0)] 0) = "undefined" := by
  decide +kernel

/-- With the source of C80, the hypotheses of `C127_quantized_partial` can be met. -/
example : MetaOk (qfGguf []).kv ∧ (∀ t ∈ (qfGguf []).dir, InfoOk fmOk (record t)) ∧
    ∀ t ∈ (qfGguf []).dir, t.ndims = 2 → (∃ x, t.name = x ++ ascii "weight") → fmOk 8 t.ne = true := by
  have h1 : (qfGguf []).kv.all (fun p => decide (p.1.length < 2 ^ 64) && (match p.2 with
      | .u32 n => decide (n < 2 ^ 32)
      | .f64 n => decide (n < 2 ^ 64)
      | .bool _ => true
      | .str s => decide (s.length < 2 ^ 64)
      | .other _ => false)) = true := by decide +kernel
  have h2 : ∀ t ∈ qfDir, t.name.length < 2 ^ 64 ∧ (t.ne.length = t.ndims ∧ t.ndims ≤ 4) ∧ (∀ n ∈ t.ne, n < 2 ^ 64) ∧
      t.type < 2 ^ 32 ∧ t.offset < 2 ^ 64 := by decide +kernel
  refine ⟨⟨by decide +kernel, fun p hp => ?_, fun p hp => ?_⟩, fun t ht => ?_, fun _ _ _ _ => rfl⟩
  · have := List.all_eq_true.1 h1 p hp
    rw [Bool.and_eq_true] at this
    exact of_decide_eq_true this.1
  · have := List.all_eq_true.1 h1 p hp
    rw [Bool.and_eq_true] at this
    have := this.2
    obtain ⟨k, v⟩ := p
    cases v with
    | u32 n => exact of_decide_eq_true (p := n < 2 ^ 32) this
    | f64 n => exact of_decide_eq_true (p := n < 2 ^ 64) this
    | bool b => trivial
    | str s => exact of_decide_eq_true (p := s.length < 2 ^ 64) this
    | other b => cases this
  · obtain ⟨a, b, c, d, e⟩ := h2 t ht
    exact ⟨a, b, c, d, e, rfl⟩

end Berts.Props
