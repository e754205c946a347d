import Verif.Proofs.ConvertRoberta
import Verif.Props.Pipeline

/-! # Helper lemmas: a converted file is consistent -/

namespace Berts.Convert

open Berts.Vocab (ascii decimal Holds VocabT Special)
open Berts.Load
open Berts.Graph (T)
open Berts.Props (specialKeys)
open Berts.Spec (Each)
open Berts.Roberta (Utf8Vocab)

variable {α : Type}

theorem decoded_ok (dec : Nat → List Nat → List α) (dflt : α) : ConvOk (decoded dec dflt) :=
  ⟨fun _ => rfl, fun _ => rfl, fun _ => rfl, fun _ => rfl, fun _ => rfl, fun t h => by simp [decoded, h]⟩

/-- What evaluating tokenized text needs of a file. -/
structure Ready (g : Gguf) (c : Config) : Prop where
  names : NamesOk g
  offsets : ∀ t ∈ g.dir, g.dataOffset + t.offset < 2 ^ 64
  consistent : c.layers ≤ 44 → Consistent g c.vocabSize c.maxPos c.typeVocab
  size : ∀ t ∈ g.dir, t.name = ascii "berts.vocab.size" → t.nbytes = c.vocabSize
  specials : ∀ k ∈ specialKeys, ∀ i, HasU32 g k i → i < c.vocabSize
  segments : ¬ HasU32 g "berts.segments" 0

theorem has_unique {g : Gguf} {k : String} {n m : Nat} (h : HasU32 g k n) (h' : HasU32 g k m) : n = m := by
  have h1 := (u32_iff _ _ _).2 h
  rw [(u32_iff _ _ _).2 h'] at h1
  injection h1 with h1
  exact h1.symm

theorem has_key {g : Gguf} {k : String} {n : Nat} (h : HasU32 g k n) : ¬ NoKey g k := by
  obtain ⟨a, b, e, _⟩ := h
  intro hn
  exact hn (ascii k, .u32 n) (by rw [e]; simp) rfl

theorem map_nodup_inj {β γ : Type} {f : β → γ} {l : List β} (h : (l.map f).Nodup) {a b : β} (ha : a ∈ l) (hb : b ∈ l)
    (e : f a = f b) : a = b := by
  induction l with
  | nil => cases ha
  | cons x l ih =>
    rw [List.map_cons, List.nodup_cons] at h
    rw [List.mem_cons] at ha hb
    rcases ha with rfl | ha <;> rcases hb with rfl | hb
    · rfl
    · exact absurd (e ▸ List.mem_map_of_mem hb) h.1
    · exact absurd (e ▸ List.mem_map_of_mem ha) h.1
    · exact ih h.2 ha hb

section
variable {c : Config} {ls ds : List Nat} {m : List Tensor} {enc : Bool → List α → List Nat} {f16 : Bool}
  {s : Source α} (hcls : s.cls = .bert ∨ s.cls = .roberta) (hst : StateOk c s.state) (hlm : HeadOk s.cls s.lm)
  (hm : MergeOk m) (kv : List (List Nat × Kv)) (header : List Nat)
include hcls hst hlm hm

theorem file_ready (hc : ConfigOk c) {arch : Nat} (hls : ls.length = c.vocabSize)
    (hfit : (header ++ dataBytes (fileTensors ls ds m enc f16 s)).length < 2 ^ 63)
    (hhp : hparams ⟨kv, directory 0 (fileTensors ls ds m enc f16 s), header.length⟩ = .ok (hpOf arch c))
    (hsp : ∀ k ∈ specialKeys, ∀ i,
      HasU32 ⟨kv, directory 0 (fileTensors ls ds m enc f16 s), header.length⟩ k i → i < c.vocabSize) :
    Ready ⟨kv, directory 0 (fileTensors ls ds m enc f16 s), header.length⟩ c := by
  obtain ⟨h1, h2, h3, h4, h5, h6, h7, h8, h9, _⟩ := hparams_iff _ _ hhp
  have hh := hc.hidden
  have hi := hc.interm
  have hnd := names_nodup (ls := ls) (ds := ds) (enc := enc) (f16 := f16) hcls hst hlm hm
  refine ⟨file_names hcls hst hlm hm kv header, ?_, fun hdepth => ⟨?_, ?_, ?_, ?_, ?_, ?_⟩, ?_, hsp, ?_⟩
  · intro t ht
    have := file_bounds header _ t ht
    simp only
    omega
  · intro h i n e1 e2 e3
    rw [← has_unique h3 e1, ← has_unique h7 e2, ← has_unique h4 e3]
    exact shapes_of hcls hst hlm hm kv header.length
  · intro h
    have : c.hidden = 0 := has_unique h3 h
    omega
  · intro h
    have : c.interm = 0 := has_unique h7 h
    omega
  · intro h a e1 e2
    rw [← has_unique h3 e1, ← has_unique h5 e2]
    exact hc.heads
  · intro n hn
    rcases hn with hn | ⟨hn, rfl⟩
    · rcases h9 with h9 | ⟨h9, _⟩
      · rw [← has_unique h9 hn]
        exact Nat.le_refl _
      · exact absurd h9 (has_key hn)
    · rcases h9 with h9 | ⟨_, h9⟩
      · exact absurd hn (has_key h9)
      · exact Nat.le_of_eq h9.symm
  · intro n e
    have : c.layers = n := has_unique h4 e
    omega
  · intro t ht hn
    simp only at ht
    have hv : (⟨ascii "berts.vocab.size", [ls.length], 16, ls⟩ : Tensor) ∈ fileTensors ls ds m enc f16 s := by
      simp [fileTensors]
    obtain ⟨x, hx, e1, _, _, e2⟩ := directory_mem _ _ _ ht
    rw [e2, map_nodup_inj hnd hx hv (e1.symm.trans hn)]
    exact hls
  · intro h
    rcases h9 with h9 | ⟨h9, _⟩
    · have : c.typeVocab = 0 := has_unique h9 h
      have := hc.types
      omega
    · exact absurd h9 (has_key h)

end

theorem named_unique {f : List Nat → Option (T α)} {n : Nat} {w w' : Berts.Graph.Weights α} (h : Named f n w)
    (h' : Named f n w') : w = w' := by
  obtain ⟨h1, h2, h3, h4, h5, h6, h7, h8, h9, h10⟩ := h
  obtain ⟨k1, k2, k3, k4, k5, k6, k7, k8, k9, k10⟩ := h'
  have e1 := Option.some.inj (h1.symm.trans k1)
  have e2 := Option.some.inj (h2.symm.trans k2)
  have e3 := Option.some.inj (h3.symm.trans k3)
  have e4 := Option.some.inj (h4.symm.trans k4)
  have e5 := Option.some.inj (h5.symm.trans k5)
  have e6 := Option.some.inj (h6.symm.trans k6)
  have e7 := Option.some.inj (h7.symm.trans k7)
  have e8 : w.layers = w'.layers := by
    apply List.ext_getElem (by omega)
    intro i hi hi'
    have a := h9 i _ (List.getElem?_eq_getElem hi)
    have b := k9 i _ (List.getElem?_eq_getElem hi')
    generalize w.layers[i] = x at a
    generalize w'.layers[i] = y at b
    unfold LayerNamed at a b
    simp only at a b
    obtain ⟨a1, a2, a3, a4, a5, a6, a7, a8, a9, a10, a11, a12, a13, a14, a15, a16⟩ := a
    rw [a1, a2, a3, a4, a5, a6, a7, a8, a9, a10, a11, a12, a13, a14, a15, a16] at b
    simp only [Option.some.injEq] at b
    cases x
    cases y
    simp only at b
    simp only [b]
  have e9 : w.lm = w'.lm := by
    cases hl : w.lm with
    | some l => exact ((k10 l).2 ((h10 l).1 hl)).symm
    | none =>
      cases hl' : w'.lm with
      | none => rfl
      | some l => rw [(h10 l).2 ((k10 l).1 hl')] at hl; cases hl
  cases w
  cases w'
  simp only at e1 e2 e3 e4 e5 e6 e7 e8 e9
  simp only [e1, e2, e3, e4, e5, e6, e7, e8, e9]

/-! ## Whole files -/

theorem bert_special_keys (f16 : Bool) (s : Source α) {cls mask pad sep unk : Nat}
    (hi : BertIds s.config s.tok cls mask pad sep unk) (dir : List TInfo) (off : Nat) :
    ∀ k ∈ specialKeys, ∀ i, HasU32 ⟨bertKv f16 s cls mask pad sep unk, dir, off⟩ k i → i < s.config.vocabSize := by
  intro k hk i h
  have h := (u32_iff _ _ _).2 h
  simp only [specialKeys, List.mem_cons, List.not_mem_nil, or_false] at hk
  have h1 := hi.cls.2; have h2 := hi.mask.2; have h3 := hi.pad.2; have h4 := hi.sep.2; have h5 := hi.unk.2
  rcases hk with rfl | rfl | rfl | rfl | rfl | rfl | rfl <;>
    simp [u32, find_lookup, bertKv, hparamList, specialList, lookup_append, lookup_cons, lookup_nil, lookup_optBool] at h <;>
    omega

theorem roberta_special_keys (f16 : Bool) (s : Source α) {sp : Special}
    (hi : RobertaIds s.config s.tok sp) (dir : List TInfo) (off : Nat) :
    ∀ k ∈ specialKeys, ∀ i, HasU32 ⟨robertaKv f16 s sp, dir, off⟩ k i → i < s.config.vocabSize := by
  intro k hk i h
  have h := (u32_iff _ _ _).2 h
  simp only [specialKeys, List.mem_cons, List.not_mem_nil, or_false] at hk
  have h1 := hi.base.cls.2; have h2 := hi.base.mask.2; have h3 := hi.base.pad.2; have h4 := hi.base.sep.2
  have h5 := hi.base.unk.2; have h6 := hi.bos.2; have h7 := hi.eos.2
  rcases hk with rfl | rfl | rfl | rfl | rfl | rfl | rfl <;>
    simp [u32, find_lookup, robertaKv, hparamList, specialList, lookup_append, lookup_cons, lookup_nil] at h <;>
    omega

theorem bert_file {s : Source α} (hcls : s.cls = .bert) (hc : ConfigOk s.config) (hst : StateOk s.config s.state)
    (hlm : HeadOk s.cls s.lm) (ht : BertTok s.config s.tok) {enc : Bool → List α → List Nat}
    {dec : Nat → List Nat → List α} {rnd : Bool → α → α} (hd : Codec enc dec rnd) (dflt : α) (f16 : Bool)
    (header : List Nat) :
    ∃ g bytes, convert enc f16 header s = some (g, bytes) ∧ (bytes.length < 2 ^ 63 → Ready g s.config) ∧
      ∀ w : World α, Opens w g bytes dec dflt →
      ∃ k l v cls mask pad sep unk cond ts, load w = .ok (some k, l) ∧ k.hp = hpOf 0 s.config ∧
        k.type = (if f16 then 1 else 0) ∧ k.vocab = .bert v ⟨cls, mask, pad, sep, unk, INVALID, INVALID⟩ cond ∧
        Tokens s.config s.tok.dict ts ∧ Holds v ts ∧ OptionsOk s.tok cond ∧
        BertIds s.config s.tok cls mask pad sep unk ∧ Named (sourceAt rnd dflt f16 s) s.config.layers k.weights := by
  obtain ⟨cls, mask, pad, sep, unk, hi⟩ := bert_ids ht.ids
  obtain ⟨ts, ls, hts, hls, hw, v, hv, hin⟩ := vocab_written hc ht.dict
  refine ⟨_, _, convert_bert hcls hc hst hlm ht hi enc f16 header hw, fun hfit => ?_, fun w ho => ?_⟩
  · exact file_ready (.inl hcls) hst hlm (.inl rfl) _ header hc hls hfit (bert_hparams ..) (bert_special_keys f16 s hi _ _)
  · obtain ⟨k, l, h1, h2, h3, h4, h5⟩ := converted_load (.inl hcls) hst hlm (.inl rfl) _ header hc (.inl rfl) hd ho
      (bert_general ..) (bert_hparams ..) (type := if f16 then 1 else 0) (by
        cases f16 <;>
        simp [u32, find_lookup, bertKv, hparamList, specialList, lookup_append, lookup_cons, lookup_nil, lookup_optBool])
      (bert_vocabInit hc hi hv hts.length hin enc f16 w.signed w.order _ _)
    refine ⟨k, l, v, cls, mask, pad, sep, unk, _, ts, h1, h2, h3, h4, hts, hv, ⟨rfl, rfl, rfl, ?_⟩, hi, h5⟩
    cases hb : s.tok.basic.getD true <;> simp [Bert.basicInfo, Bert.noBasicInfo]

theorem roberta_file {s : Source α} (hcls : s.cls = .roberta) (hc : ConfigOk s.config) (hst : StateOk s.config s.state)
    (hlm : HeadOk s.cls s.lm) {rs : List ((List Nat × List Nat) × Nat)} (ht : RobertaTok s.config s.tok rs)
    {enc : Bool → List α → List Nat}
    {dec : Nat → List Nat → List α} {rnd : Bool → α → α} (hd : Codec enc dec rnd) (dflt : α) (f16 : Bool)
    (header : List Nat) :
    ∃ g bytes, convert enc f16 header s = some (g, bytes) ∧ (bytes.length < 2 ^ 63 → Ready g s.config) ∧
      ∀ w : World α, Opens w g bytes dec dflt → (∀ m, (w.order m).Perm m) →
      ∃ k l r ts tcs data, load w = .ok (some k, l) ∧ k.hp = hpOf 1 s.config ∧
        k.type = (if f16 then 1 else 0) ∧ k.vocab = .roberta r ∧
        Tokens s.config s.tok.dict ts ∧ Holds r.v ts ∧ Utf8Vocab ts tcs ∧
        RobertaIds s.config s.tok r.special ∧ Named (sourceAt rnd dflt f16 s) s.config.layers k.weights ∧
        data.length = 3 * rs.length ∧
        Each (fun r p => (r.1.1, p.1) ∈ s.tok.dict ∧ (r.1.2, p.2) ∈ s.tok.dict) rs (Roberta.mergePairs data) ∧
        ∃ m, Roberta.init w.signed m (some ⟨true, 1, data⟩) w.order r.v = .ok (some r) := by
  obtain ⟨sp, hi⟩ := roberta_ids ht.ids
  obtain ⟨ts, ls, hts, hls, hw, v, hv, hin⟩ := vocab_written hc ht.dict
  obtain ⟨tcs, hu⟩ := tokens_text hts ht.text
  obtain ⟨l, hm, hwl, hl3, he⟩ := merge_written hc ht
  refine ⟨_, _, convert_roberta hcls hc hst hlm hi enc f16 header hw hm, fun hfit => ?_, fun w ho hord => ?_⟩
  · exact file_ready (.inr hcls) hst hlm (.inr ⟨_, _, _, rfl⟩) _ header hc hls hfit (roberta_hparams ..)
      (roberta_special_keys f16 s hi _ _)
  · obtain ⟨b, hb, hvi⟩ := roberta_vocabInit hc ht hi hv hts hu hin hl3 hwl he enc f16 w.signed w.order hord
      (directory 0 (fileTensors ls ts.flatten
        [⟨ascii "berts.merge.data", [l.length], 18, l.flatMap (Quantize.le 4)⟩] enc f16 s)) header.length
    obtain ⟨k, l', h1, h2, h3, h4, h5⟩ := converted_load (.inr hcls) hst hlm (.inr ⟨_, _, _, rfl⟩) _ header hc
      (.inr rfl) hd ho (roberta_general ..) (roberta_hparams ..) (type := if f16 then 1 else 0) (by
        cases f16 <;>
        simp [u32, find_lookup, robertaKv, hparamList, specialList, lookup_append, lookup_cons, lookup_nil]) hvi
    exact ⟨k, l', _, ts, tcs, l, h1, h2, h3, h4, hts, hv, hu, hi, h5, hl3, he, _, hb⟩

end Berts.Convert
