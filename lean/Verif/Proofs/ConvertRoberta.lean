import Verif.Proofs.ConvertLoad
import Verif.Props.Roberta

/-! # Helper lemmas: the vocabulary of a converted RoBERTa model -/

namespace Berts.Convert

open Berts.Vocab (ascii decimal Holds unusedName VocabT Special)
open Berts.Unicode
open Berts.Spec (IsScalar Each)
open Berts.Roberta
open Berts.Bpe (Str)
open Berts.Props (OneToOne mergedToken C25_success)
open Berts.Load

variable {α : Type}

/-! ## The merge tensor -/

theorem words_le (l : List Nat) (h : ∀ x ∈ l, x < 2 ^ 31) : words (l.flatMap (Quantize.le 4)) = l := by
  induction l with
  | nil => rfl
  | cons a l ih =>
    have ha := h a (by simp)
    have : (a :: l).flatMap (Quantize.le 4) =
        a % 256 :: a / 256 % 256 :: a / 256 / 256 % 256 :: a / 256 / 256 / 256 % 256 :: l.flatMap (Quantize.le 4) := rfl
    rw [this]
    simp only [words, ih fun x hx => h x (by simp [hx])]
    congr 1
    omega

theorem find_dict {dict : List (List Nat × Nat)} {t : List Nat} (h : t ∈ dict.map (·.1)) :
    ∃ i, dict.find? (·.1 == t) = some (t, i) ∧ (t, i) ∈ dict := by
  rw [List.mem_map] at h
  obtain ⟨d, hd, rfl⟩ := h
  cases hf : dict.find? (·.1 == d.1) with
  | none => rw [List.find?_eq_none] at hf; exact absurd (by simp) (hf d hd)
  | some e =>
    have h1 := List.find?_some hf
    have h2 := List.mem_of_find?_eq_some hf
    obtain ⟨t, i⟩ := e
    simp only [beq_iff_eq] at h1
    subst h1
    exact ⟨i, rfl, h2⟩

theorem mergeData_spec {dict : List (List Nat × Nat)} {rs : List ((List Nat × List Nat) × Nat)} {n : Nat}
    (hn : n ≤ 2 ^ 31) (hr : ∀ d ∈ dict, d.2 < n)
    (h : ∀ r ∈ rs, r.1.1 ∈ dict.map (·.1) ∧ r.1.2 ∈ dict.map (·.1)) (hk : ∀ r ∈ rs, r.2 < 2 ^ 31) :
    ∃ l, mergeData dict rs = some l ∧ (∀ x ∈ l, x < 2 ^ 31) ∧ l.length = 3 * rs.length ∧
      Each (fun r p => (r.1.1, p.1) ∈ dict ∧ (r.1.2, p.2) ∈ dict) rs (mergePairs l) := by
  induction rs with
  | nil => exact ⟨[], rfl, by simp, rfl, trivial⟩
  | cons r rs ih =>
    obtain ⟨l, h1, h2, h3, h4⟩ := ih (fun r hr => h r (by simp [hr])) (fun r hr => hk r (by simp [hr]))
    obtain ⟨⟨a, b⟩, k⟩ := r
    obtain ⟨ha, hb⟩ := h ((a, b), k) (by simp)
    obtain ⟨i, i1, i2⟩ := find_dict ha
    obtain ⟨j, j1, j2⟩ := find_dict hb
    have hk' : k < 2 ^ 31 := hk ((a, b), k) (by simp)
    refine ⟨i :: j :: k :: l, ?_, ?_, ?_, ?_⟩
    · simp only at i1 j1
      simp only [mergeData, i1, j1, h1, Option.bind_eq_bind, Option.bind_some, Option.pure_def]
    · intro x hx
      simp only [List.mem_cons] at hx
      have := hr _ i2
      have := hr _ j2
      simp only at *
      rcases hx with rfl | rfl | rfl | hx
      · omega
      · omega
      · omega
      · exact h2 x hx
    · simp only [List.length_cons]; omega
    · exact ⟨⟨i2, j2⟩, h4⟩

theorem merge_written {c : Config} (hc : ConfigOk c) {t : Tokenizer} {rs : List ((List Nat × List Nat) × Nat)}
    (ht : RobertaTok c t rs) :
    ∃ l, writeMerge t = some [⟨ascii "berts.merge.data", [l.length], 18, l.flatMap (Quantize.le 4)⟩] ∧
      words (l.flatMap (Quantize.le 4)) = l ∧ l.length = 3 * rs.length ∧
      Each (fun r p => (r.1.1, p.1) ∈ t.dict ∧ (r.1.2, p.2) ∈ t.dict) rs (mergePairs l) := by
  obtain ⟨l, h1, h2, h3, h4⟩ := mergeData_spec hc.vocab ht.dict.range
    (fun r hr => ⟨ht.merges r hr _ (by simp), ht.merges r hr _ (by simp)⟩) ht.rank
  refine ⟨l, ?_, words_le l h2, h3, h4⟩
  unfold writeMerge
  rw [ht.ranks]
  simp only [h1, Option.bind_eq_bind, Option.bind_some]
  rw [if_pos]
  · rfl
  · rw [List.all_eq_true]
    intro x hx
    exact decide_eq_true (h2 x hx)

/-! ## The vocabulary -/

theorem decimal_ascii (n : Nat) : ∀ b ∈ decimal n, b < 0x80 := by
  induction n using Nat.strongRecOn with
  | ind n ih =>
    intro b hb
    rw [decimal] at hb
    split at hb
    · simp only [List.mem_singleton] at hb; omega
    · rw [List.mem_append, List.mem_singleton] at hb
      rcases hb with hb | hb
      · exact ih (n / 10) (by omega) b hb
      · omega

theorem unusedName_ascii (k : Nat) : ∀ b ∈ unusedName k, b < 0x80 := by
  intro b hb
  unfold unusedName at hb
  rw [List.mem_append, List.mem_append] at hb
  have h1 : ∀ b ∈ ascii "[unused", b < 0x80 := by decide +kernel
  have h2 : ∀ b ∈ ascii "]", b < 0x80 := by decide +kernel
  rcases hb with (hb | hb) | hb
  · exact h1 b hb
  · exact decimal_ascii k b hb
  · exact h2 b hb

/-- All tokens in the file are text. -/
theorem tokens_text {c : Config} {dict : List (List Nat × Nat)} {ts : List (List Nat)} (h : Tokens c dict ts)
    (ht : ∀ d ∈ dict, ∃ cs, (∀ x ∈ cs, IsScalar x) ∧ d.1 = utf8Encode cs) :
    ∃ tcs, Utf8Vocab ts tcs := by
  have hall : ∀ t ∈ ts, ∃ cs, (∀ x ∈ cs, IsScalar x) ∧ t = utf8Encode cs := by
    intro t hm
    obtain ⟨i, hi⟩ := List.getElem?_of_mem hm
    by_cases hd : ∃ t', (t', i) ∈ dict
    · obtain ⟨t', ht'⟩ := hd
      have := h.given t' i ht'
      rw [hi] at this
      injection this with this
      subst this
      exact ht _ ht'
    · have hlt := (List.getElem?_eq_some_iff.1 hi).1
      rw [h.length] at hlt
      obtain ⟨k, hk, _⟩ := h.other i hlt (fun t' ht' => hd ⟨t', ht'⟩)
      rw [hi] at hk
      injection hk with hk
      subst hk
      exact ⟨unusedName k, fun x hx => by have := unusedName_ascii k x hx; left; omega,
        (utf8_ascii _ (unusedName_ascii k)).symm⟩
  clear h ht
  induction ts with
  | nil => exact ⟨[], by simp, rfl⟩
  | cons t ts ih =>
    obtain ⟨tcs, h1, h2⟩ := ih fun t hm => hall t (by simp [hm])
    obtain ⟨cs, h3, h4⟩ := hall t (by simp)
    refine ⟨cs :: tcs, ?_, by rw [List.map_cons, ← h2, ← h4]⟩
    intro x hx
    rw [List.mem_cons] at hx
    rcases hx with rfl | hx
    · exact h3
    · exact h1 x hx

theorem utf8_inj {a b : List Nat} (ha : ∀ x ∈ a, IsScalar x) (hb : ∀ x ∈ b, IsScalar x)
    (h : utf8Encode a = utf8Encode b) : a = b := by
  have h1 := utf8Decode_encode a ha
  rw [h, utf8Decode_encode b hb] at h1
  injection h1 with h1
  exact h1.symm

/-- BPE is initialised if both parts of each merge and the merged token are in the vocabulary. -/
theorem initBpe_succeeds {merge : Option MergeTensor} {order : List (Str × Nat) → List (Str × Nat)}
    {v : VocabT} {sp : Special} {l tcs : List (List Nat)} (ho : ∀ m, (order m).Perm m) (hh : Holds v l)
    (hu : Utf8Vocab l tcs) {u : List Nat} (hun : l[sp.unk]? = some u) (hua : ∀ c ∈ u, c < 0x80)
    {ms : List (Nat × Nat)} (hcm : checkMerge merge = some ms)
    (hms : ∀ p ∈ ms, ∃ a b, tcs[p.1]? = some a ∧ tcs[p.2]? = some b ∧ a ++ b ∈ tcs) :
    ∃ b, initBpe merge order v sp = .ok (some ⟨v, sp, b⟩) := by
  have husc : ∀ c ∈ u, IsScalar c := fun c hc => by have := hua c hc; left; omega
  have h2 : (UImpl.ofUtf8 u).readUnits = .ok (utf16Encode u) := by
    have := ofUtf8_units u husc
    rwa [utf8_ascii u hua] at this
  unfold initBpe
  rw [Props.ascii_special hh hun hua, res_bind_ok, h2, res_bind_ok, hh.1, tokenUnits_ok hu, res_bind_ok, hcm]
  simp only
  have hnd := hu.nodup hh.2.1
  rw [emplaceAll_nodup [] 0 _ (by simpa using hnd), List.nil_append]
  generalize hb : (order ((tcs.map utf16Encode).zipIdx 0)) = bv
  have hperm : bv.Perm ((tcs.map utf16Encode).zipIdx 0) := hb ▸ ho _
  have hmem : ∀ t id, (t, id) ∈ bv ↔ (tcs.map utf16Encode)[id]? = some t := by
    intro t id
    rw [hperm.mem_iff, List.mem_zipIdx_iff_getElem?]
  have hone : OneToOne bv := by
    refine ⟨?_, ?_, ?_⟩
    · rw [(hperm.map (·.1)).nodup_iff]
      simpa using hnd
    · rw [(hperm.map (·.2)).nodup_iff]
      simp only [List.zipIdx_map_snd]
      exact List.nodup_range'
    · intro p hp
      obtain ⟨t, id⟩ := p
      have := List.mem_of_getElem? ((hmem t id).mp hp)
      obtain ⟨c, hc, rfl⟩ := List.mem_map.mp this
      exact utf16_units c (hu.scalar c hc)
  obtain ⟨ok, b, k1, k2⟩ := C25_success (utf16Encode u) 0 true [] [] bv hone ms
  have k1' : (Bpe.Bpe.new (utf16Encode u) 0 true).loadVocab bv ms = .ok (ok, b) := k1
  have hok : ok = true := by
    rw [k2]
    intro p hp
    obtain ⟨a, c, e1, e2, e3⟩ := hms p hp
    obtain ⟨n, hn⟩ := List.getElem?_of_mem e3
    refine ⟨utf16Encode a, utf16Encode c, n, ?_, ?_, ?_⟩
    · rw [hmem, List.getElem?_map, e1]; rfl
    · rw [hmem, List.getElem?_map, e2]; rfl
    · rw [hmem, List.getElem?_map, hn]
      simp [mergedToken, codepoints, eachCp, eachCpFrom, utf16Encode]
  subst hok
  rw [k1', res_bind_ok]
  exact ⟨b, rfl⟩

/-- The metadata of a converted RoBERTa model. -/
def robertaKv (f16 : Bool) (s : Source α) (sp : Special) : List (List Nat × Kv) :=
  [(ascii "general.architecture", .str (ascii "RoBERTa")), (ascii "general.name", .str s.name),
      (ascii "general.alignment", .u32 32)] ++
    (hparamList 1 0 s.config ++ specialList sp.cls sp.mask sp.pad sp.sep sp.unk ++
      [(ascii "berts.bos_id", .u32 sp.bos), (ascii "berts.eos_id", .u32 sp.eos)]) ++
    [(ascii "general.file_type", .u32 (if f16 then 1 else 0))]

/-- The ids of a RoBERTa tokenizer. -/
structure RobertaIds (c : Config) (t : Tokenizer) (sp : Special) : Prop where
  base : BertIds c t sp.cls sp.mask sp.pad sp.sep sp.unk
  bos : t.bos = some sp.bos ∧ sp.bos < c.vocabSize
  eos : t.eos = some sp.eos ∧ sp.eos < c.vocabSize

theorem roberta_ids {c : Config} {t : Tokenizer}
    (h : ∀ o ∈ [t.cls, t.mask, t.pad, t.sep, t.unk, t.bos, t.eos], IdOk c o) : ∃ sp, RobertaIds c t sp := by
  obtain ⟨cls, mask, pad, sep, unk, hb⟩ := bert_ids (c := c) (t := t) fun o ho => h o (by
    simp only [List.mem_cons, List.not_mem_nil, or_false] at ho ⊢
    rcases ho with h | h | h | h | h <;> simp [h])
  obtain ⟨bos, h6⟩ := h t.bos (by simp)
  obtain ⟨eos, h7⟩ := h t.eos (by simp)
  exact ⟨⟨cls, mask, pad, sep, unk, bos, eos⟩, hb, h6, h7⟩

theorem convert_roberta {s : Source α} (hcls : s.cls = .roberta) (hc : ConfigOk s.config) (hst : StateOk s.config s.state)
    (hlm : HeadOk s.cls s.lm) {sp : Special} (hi : RobertaIds s.config s.tok sp) (enc : Bool → List α → List Nat)
    (f16 : Bool) (header : List Nat) {ls ds l : List Nat}
    (hw : writeVocab s.config s.tok = some [⟨ascii "berts.vocab.size", [ls.length], 16, ls⟩,
        ⟨ascii "berts.vocab.data", [ds.length], 16, ds⟩])
    (hm : writeMerge s.tok = some [⟨ascii "berts.merge.data", [l.length], 18, l.flatMap (Quantize.le 4)⟩]) :
    convert enc f16 header s = some (⟨robertaKv f16 s sp,
        directory 0 (fileTensors ls ds [⟨ascii "berts.merge.data", [l.length], 18, l.flatMap (Quantize.le 4)⟩] enc f16 s),
        header.length⟩,
      header ++ dataBytes (fileTensors ls ds
        [⟨ascii "berts.merge.data", [l.length], 18, l.flatMap (Quantize.le 4)⟩] enc f16 s)) := by
  have hv := hc.vocab
  have hact : actType s.config.act = some 0 := by rw [hc.act]; decide +kernel
  have b6 : sp.bos < 2 ^ 32 := by have := hi.bos.2; omega
  have b7 : sp.eos < 2 ^ 32 := by have := hi.eos.2; omega
  have e1 : writeRoberta s.config s.tok = some (hparamList 1 0 s.config ++
      specialList sp.cls sp.mask sp.pad sp.sep sp.unk ++
      [(ascii "berts.bos_id", .u32 sp.bos), (ascii "berts.eos_id", .u32 sp.eos)]) := by
    have hi' := hi.base
    unfold writeRoberta
    rw [hact]
    simp only [Option.bind_eq_bind, Option.bind_some]
    rw [hparamKv_eq hc (by decide) (by decide), specialKv_eq hi'.cls.1 hi'.mask.1 hi'.pad.1 hi'.sep.1 hi'.unk.1
      (by have := hi'.cls.2; have := hi'.mask.2; have := hi'.pad.2; have := hi'.sep.2; have := hi'.unk.2; omega),
      hi.bos.1, hi.eos.1]
    simp only [Option.bind_some, optU32, u32kv]
    rw [if_pos b6, if_pos b7]
    simp
  have e3 := names_nodup (ls := ls) (ds := ds) (enc := enc) (f16 := f16)
    (m := [⟨ascii "berts.merge.data", [l.length], 18, l.flatMap (Quantize.le 4)⟩]) (.inr hcls) hst hlm
    (.inr ⟨_, _, _, rfl⟩)
  unfold fileTensors at e3
  unfold convert
  rw [hcls] at e3 ⊢
  simp only [e1, hw, hm, Option.bind_eq_bind, Option.bind_some, Option.pure_def]
  rw [if_pos e3]
  unfold fileTensors robertaKv
  rw [hcls]

theorem roberta_general (f16 : Bool) (s : Source α) (sp : Special) (dir : List TInfo) (off : Nat) :
    general ⟨robertaKv f16 s sp, dir, off⟩ = .ok () := by
  cases f16 <;>
  simp [general, strOr, u32Opt, u32, find_lookup, robertaKv, hparamList, specialList, lookup_append, lookup_cons, lookup_nil,
    Res.bind, ftype]

theorem roberta_hparams (f16 : Bool) (s : Source α) (sp : Special) (dir : List TInfo) (off : Nat) :
    hparams ⟨robertaKv f16 s sp, dir, off⟩ = .ok (hpOf 1 s.config) := by
  simp [hparams, u32Opt, u32, f64Opt, find_lookup, robertaKv, hparamList, specialList, lookup_append, lookup_cons, lookup_nil,
    Res.bind, hpOf]

theorem roberta_meta (f16 : Bool) (s : Source α) (sp : Special) (dir : List TInfo) (off : Nat) :
    robertaMeta ⟨robertaKv f16 s sp, dir, off⟩ =
      .ok ⟨some sp.cls, some sp.mask, some sp.pad, some sp.sep, some sp.unk, some sp.bos, some sp.eos⟩ := by
  simp [robertaMeta, u32Opt, find_lookup, robertaKv, hparamList, specialList, lookup_append, lookup_cons, lookup_nil,
    Res.bind]

theorem getTokenId_some {i : Nat} (h : i < 2 ^ 31) (f : List Nat → Nat) (a b : Option (List Nat)) :
    Vocab.getTokenId (some i) f a b = i := by
  unfold Vocab.getTokenId
  simp only [Option.getD_some]
  rw [if_neg (by unfold INVALID; omega)]

theorem roberta_specials {c : Config} (hc : ConfigOk c) {t : Tokenizer} {sp : Special} (hi : RobertaIds c t sp)
    (f : List Nat → Nat) :
    Vocab.robertaSpecials ⟨some sp.cls, some sp.mask, some sp.pad, some sp.sep, some sp.unk, some sp.bos, some sp.eos⟩ f =
      some sp := by
  have hv := hc.vocab
  have h1 := hi.base.cls.2; have h2 := hi.base.mask.2; have h3 := hi.base.pad.2; have h4 := hi.base.sep.2
  have h5 := hi.base.unk.2; have h6 := hi.bos.2; have h7 := hi.eos.2
  have hne : ∀ i, i < c.vocabSize → i ≠ INVALID := fun i h => by unfold INVALID; omega
  unfold Vocab.robertaSpecials
  simp only
  rw [getTokenId_some (by omega), getTokenId_some (by omega), getTokenId_some (by omega), getTokenId_some (by omega),
    getTokenId_some (by omega), getTokenId_some (by omega), getTokenId_some (by omega),
    if_neg (hne _ h6), if_neg (hne _ h7), if_neg (hne _ h1), if_neg (hne _ h4), if_neg]
  have := hne _ h1; have := hne _ h2; have := hne _ h3; have := hne _ h4; have := hne _ h5; have := hne _ h6
  have := hne _ h7
  omega

theorem bert_specials {c : Config} (hc : ConfigOk c) {t : Tokenizer} {cls mask pad sep unk : Nat}
    (hi : BertIds c t cls mask pad sep unk) {v : VocabT} {ts : List (List Nat)} (hh : Holds v ts)
    (hl : ts.length = c.vocabSize) :
    Vocab.bertSpecials ⟨some cls, some mask, some pad, some sep, some unk, none, none⟩ v =
      some ⟨cls, mask, pad, sep, unk, INVALID, INVALID⟩ := by
  have hv := hc.vocab
  have h1 := hi.cls.2; have h2 := hi.mask.2; have h3 := hi.pad.2; have h4 := hi.sep.2; have h5 := hi.unk.2
  have hne : ∀ i, i < c.vocabSize → i ≠ INVALID := fun i h => by unfold INVALID; omega
  unfold Vocab.bertSpecials
  simp only
  rw [getTokenId_some (by omega), getTokenId_some (by omega), getTokenId_some (by omega), getTokenId_some (by omega),
    getTokenId_some (by omega), if_neg, if_neg]
  · unfold VocabT.tokenCount
    rw [hh.1, hl]
    omega
  · have := hne _ h1; have := hne _ h2; have := hne _ h3; have := hne _ h4; have := hne _ h5
    omega

theorem bert_vocabInit {s : Source α} (hc : ConfigOk s.config) {cls mask pad sep unk : Nat}
    (hi : BertIds s.config s.tok cls mask pad sep unk) {ls : List Nat} {ts : List (List Nat)} {v : VocabT}
    (hh : Holds v ts) (hl : ts.length = s.config.vocabSize)
    (hv : Vocab.initVocab (some ⟨true, 1, ls⟩) (some ⟨true, 1, ts.flatten⟩) VocabT.new some = .ok (some v))
    (enc : Bool → List α → List Nat) (f16 : Bool) (signed : Bool) (order : List (Str × Nat) → List (Str × Nat))
    (dir : List TInfo) (off : Nat) :
    vocabInit signed order 0 ⟨bertKv f16 s cls mask pad sep unk, dir, off⟩
      ((fileTensors ls ts.flatten [] enc f16 s).map asLT) =
    .ok (some (.bert v ⟨cls, mask, pad, sep, unk, INVALID, INVALID⟩
      { (if s.tok.basic.getD true then Bert.basicInfo else Bert.noBasicInfo) with
        lowerCase := s.tok.lowerCase.getD true, addCjk := s.tok.chinese.getD true,
        stripAcc := s.tok.strip.getD (s.tok.lowerCase.getD true) })) := by
  unfold vocabInit
  rw [find_vocab_size, find_vocab_data]
  simp only [Option.map_some, blob]
  rw [show ((16 : Nat) == 16) = true from rfl, hv]
  simp only [Res.bind, if_pos]
  unfold bertInit
  rw [bert_meta]
  simp only [Res.bind]
  rw [if_neg (by
    intro h
    have hv := hc.vocab
    have h1 := hi.cls.2; have h2 := hi.mask.2; have h3 := hi.pad.2; have h4 := hi.sep.2; have h5 := hi.unk.2
    have hne : ∀ i, i < s.config.vocabSize → INVALID ≠ i := fun i h => by unfold INVALID; omega
    unfold bertIds at h
    simp only at h
    rw [getTokenId_some (by omega), getTokenId_some (by omega), getTokenId_some (by omega), getTokenId_some (by omega),
      getTokenId_some (by omega)] at h
    simp [hne _ h1, hne _ h2, hne _ h3, hne _ h4, hne _ h5] at h), bert_specials hc hi hh hl, bert_cond]
  rfl

/-- The merges of the file, as positions. -/
theorem merges_known {c : Config} {t : Tokenizer} {rs : List ((List Nat × List Nat) × Nat)} (ht : RobertaTok c t rs)
    {ts tcs : List (List Nat)} (hts : Tokens c t.dict ts) (hu : Utf8Vocab ts tcs) {ms : List (Nat × Nat)}
    (he : Each (fun r p => (r.1.1, p.1) ∈ t.dict ∧ (r.1.2, p.2) ∈ t.dict) rs ms) :
    ∀ p ∈ ms, ∃ a b, tcs[p.1]? = some a ∧ tcs[p.2]? = some b ∧ a ++ b ∈ tcs := by
  have hsub : ∀ r ∈ rs, r.1.1 ++ r.1.2 ∈ t.dict.map (·.1) := fun r hr => ht.merges r hr _ (by simp)
  clear ht
  have hget : ∀ tok i, (tok, i) ∈ t.dict → ∃ a, tcs[i]? = some a ∧ utf8Encode a = tok ∧ ∀ x ∈ a, IsScalar x := by
    intro tok i h
    have := hts.given tok i h
    rw [hu.enc, List.getElem?_map, Option.map_eq_some_iff] at this
    obtain ⟨a, h1, h2⟩ := this
    exact ⟨a, h1, h2, hu.scalar a (List.mem_of_getElem? h1)⟩
  induction rs generalizing ms with
  | nil => cases ms with
    | nil => simp
    | cons _ _ => exact he.elim
  | cons r rs ih => cases ms with
    | nil => exact he.elim
    | cons q ms =>
      obtain ⟨⟨h1, h2⟩, he⟩ := he
      intro p hp
      rw [List.mem_cons] at hp
      rcases hp with rfl | hp
      · obtain ⟨a, a1, a2, a3⟩ := hget _ _ h1
        obtain ⟨b, b1, b2, b3⟩ := hget _ _ h2
        refine ⟨a, b, a1, b1, ?_⟩
        have hm := hsub r (by simp)
        rw [List.mem_map] at hm
        obtain ⟨⟨tok, i⟩, hd, e⟩ := hm
        obtain ⟨d, d1, d2, d3⟩ := hget _ _ hd
        have hab : ∀ x ∈ a ++ b, IsScalar x := by
          intro x hx
          rw [List.mem_append] at hx
          exact hx.elim (a3 x) (b3 x)
        have : a ++ b = d := utf8_inj hab d3 (by rw [utf8Encode_append, a2, b2, d2]; exact e.symm)
        rw [this]
        exact List.mem_of_getElem? d1
      · exact ih he (fun r hr => hsub r (by simp [hr])) p hp

theorem roberta_vocabInit {s : Source α} (hc : ConfigOk s.config) {rs : List ((List Nat × List Nat) × Nat)}
    (ht : RobertaTok s.config s.tok rs) {sp : Special}
    (hi : RobertaIds s.config s.tok sp) {ls l : List Nat} {ts tcs : List (List Nat)} {v : VocabT}
    (hh : Holds v ts) (hts : Tokens s.config s.tok.dict ts) (hu : Utf8Vocab ts tcs)
    (hv : Vocab.initVocab (some ⟨true, 1, ls⟩) (some ⟨true, 1, ts.flatten⟩) VocabT.new some = .ok (some v))
    (hl3 : l.length = 3 * rs.length) (hwl : words (l.flatMap (Quantize.le 4)) = l)
    (he : Each (fun r p => (r.1.1, p.1) ∈ s.tok.dict ∧ (r.1.2, p.2) ∈ s.tok.dict) rs (mergePairs l))
    (enc : Bool → List α → List Nat) (f16 : Bool) (signed : Bool) (order : List (Str × Nat) → List (Str × Nat))
    (ho : ∀ m, (order m).Perm m) (dir : List TInfo) (off : Nat) :
    ∃ b, Roberta.init signed ⟨some sp.cls, some sp.mask, some sp.pad, some sp.sep, some sp.unk, some sp.bos, some sp.eos⟩
        (some ⟨true, 1, l⟩) order v = .ok (some ⟨v, sp, b⟩) ∧
      vocabInit signed order 1 ⟨robertaKv f16 s sp, dir, off⟩
        ((fileTensors ls ts.flatten [⟨ascii "berts.merge.data", [l.length], 18, l.flatMap (Quantize.le 4)⟩] enc f16 s).map
          asLT) = .ok (some (.roberta ⟨v, sp, b⟩)) := by
  have hcm : checkMerge (some ⟨true, 1, l⟩) = some (mergePairs l) := by
    unfold checkMerge
    simp only [ne_eq, not_true_eq_false, if_false, Bool.not_true, Bool.false_eq_true]
    rw [if_neg (by omega)]
  obtain ⟨d, hd, hdu, hda⟩ := ht.unk
  have hun : ts[sp.unk]? = some d.1 := by
    have : sp.unk = d.2 := by
      rw [hi.base.unk.1] at hdu
      injection hdu
    rw [this]
    exact hts.given d.1 d.2 hd
  obtain ⟨b, hb⟩ := initBpe_succeeds (merge := some ⟨true, 1, l⟩) (order := order) ho hh hu hun hda hcm
    (merges_known ht hts hu he)
  have hinit : Roberta.init signed ⟨some sp.cls, some sp.mask, some sp.pad, some sp.sep, some sp.unk, some sp.bos,
      some sp.eos⟩ (some ⟨true, 1, l⟩) order v = .ok (some ⟨v, sp, b⟩) := by
    unfold Roberta.init
    rw [roberta_specials hc hi]
    exact hb
  refine ⟨b, hinit, ?_⟩
  unfold vocabInit
  rw [find_vocab_size, find_vocab_data]
  simp only [Option.map_some, blob]
  rw [show ((16 : Nat) == 16) = true from rfl, hv]
  simp only [Res.bind]
  rw [if_neg (by decide)]
  unfold robertaInit
  rw [roberta_meta, find_merge]
  simp only [Res.bind, Option.map_some, mergeT, List.length_singleton, hwl]
  rw [show ((18 : Nat) == 18) = true from rfl, hinit]
  rfl

end Berts.Convert
