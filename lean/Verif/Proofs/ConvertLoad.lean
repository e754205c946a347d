import Verif.Proofs.Convert

/-! # Helper lemmas: loading a converted file -/

namespace Berts.Convert

open Berts.Vocab (ascii decimal converterTokens writeBlobs unusedName freshIndex fillLoop placeTokens)
open Berts.Load
open Berts.Graph (T pad HParams)

variable {α : Type}

/-! ## Length of the names of unused tokens -/

theorem decimal_length (d n : Nat) (h : n < 10 ^ (d + 1)) : (decimal n).length ≤ d + 1 := by
  induction d generalizing n with
  | zero =>
    rw [decimal, if_pos (by simpa using h)]
    simp
  | succ d ih =>
    rw [decimal]
    split
    · simp
    · have : n / 10 < 10 ^ (d + 1) := by
        rw [Nat.div_lt_iff_lt_mul (by decide)]
        rwa [Nat.pow_succ] at h
      have := ih _ this
      simp only [List.length_append, List.length_singleton]
      omega

theorem unusedName_sizes (k : Nat) (h : k < 10 ^ 20) : unusedName k ≠ [] ∧ (unusedName k).length ≤ 256 := by
  have h1 : (ascii "[unused").length = 7 := by decide +kernel
  have h2 : (ascii "]").length = 1 := by decide +kernel
  have h3 := decimal_length 19 k h
  have h4 : (unusedName k).length = 7 + (decimal k).length + 1 := by
    unfold unusedName
    simp only [List.length_append, h1, h2]
  constructor
  · intro e
    rw [e] at h4
    simp at h4
  · omega

theorem freshIndex_bound (tokens : List (Option (List Nat))) (fuel k j : Nat) (h : freshIndex tokens fuel k = some j) :
    j < k + fuel := by
  induction fuel generalizing k with
  | zero => cases h
  | succ fuel ih =>
    simp only [freshIndex] at h
    split at h
    · have := ih _ h; omega
    · cases h; omega

theorem fillLoop_bound (tokens todo : List (Option (List Nat))) (k : Nat) (ts : List (List Nat))
    (h : fillLoop tokens todo k = some ts) (t : List Nat) (ht : t ∈ ts) :
    some t ∈ todo ∨ ∃ j, t = unusedName j ∧ j < k + todo.length * (tokens.length + 2) := by
  induction todo generalizing k ts with
  | nil => cases h; cases ht
  | cons x todo ih =>
    cases x with
    | some y =>
      simp only [fillLoop, Option.map_eq_some_iff] at h
      obtain ⟨ts', h', rfl⟩ := h
      rw [List.mem_cons] at ht
      rcases ht with rfl | ht
      · simp
      · rcases ih _ _ h' ht with h2 | ⟨j, hj, h2⟩
        · exact .inl (by simp [h2])
        · refine .inr ⟨j, hj, ?_⟩
          rw [List.length_cons, Nat.succ_mul]
          omega
    | none =>
      simp only [fillLoop] at h
      split at h
      · cases h
      · rename_i j hj
        have hb := freshIndex_bound _ _ _ _ hj
        rw [Option.map_eq_some_iff] at h
        obtain ⟨ts', h', rfl⟩ := h
        rw [List.length_cons, Nat.succ_mul]
        rw [List.mem_cons] at ht
        rcases ht with rfl | ht
        · exact .inr ⟨j, rfl, by omega⟩
        · rcases ih _ _ h' ht with h2 | ⟨i, hi, h2⟩
          · exact .inl (by simp [h2])
          · exact .inr ⟨i, hi, by omega⟩

theorem placed_from (tokens tokens' : List (Option (List Nat))) (dict : List (List Nat × Nat))
    (h : placeTokens tokens dict = some tokens') :
    tokens'.length = tokens.length ∧ ∀ t, some t ∈ tokens' → some t ∈ tokens ∨ t ∈ dict.map (·.1) := by
  induction dict generalizing tokens with
  | nil => cases h; exact ⟨rfl, fun t ht => .inl ht⟩
  | cons d dict ih =>
    obtain ⟨t, i⟩ := d
    simp only [placeTokens] at h
    split at h
    · obtain ⟨h1, h2⟩ := ih _ h
      refine ⟨by rw [h1, List.length_set], fun x hx => ?_⟩
      rcases h2 x hx with h3 | h3
      · rcases List.mem_or_eq_of_mem_set h3 with h4 | h4
        · exact .inl h4
        · injection h4 with h4
          exact .inr (by simp [h4])
      · exact .inr (by simp [h3])
    · cases h

/-- The tokens that are written have sizes that can be written. -/
theorem converter_sizes {c : Config} (hv : c.vocabSize ≤ 2 ^ 31) {dict : List (List Nat × Nat)} (hd : DictOk c dict)
    {ts : List (List Nat)} (h : converterTokens c.vocabSize dict = some ts) :
    ∀ t ∈ ts, t ≠ [] ∧ t.length ≤ 256 := by
  intro t ht
  unfold converterTokens at h
  split at h
  · cases h
  · rename_i tokens hp
    obtain ⟨h1, h2⟩ := placed_from _ _ _ hp
    rw [List.length_replicate] at h1
    rcases fillLoop_bound _ _ _ _ h t ht with h3 | ⟨j, rfl, hj⟩
    · rcases h2 t h3 with h4 | h4
      · have := List.eq_of_mem_replicate h4
        cases this
      · rw [List.mem_map] at h4
        obtain ⟨d, hd', rfl⟩ := h4
        exact hd.sizes d hd'
    · apply unusedName_sizes
      rw [h1] at hj
      have : c.vocabSize * (c.vocabSize + 2) ≤ 2 ^ 31 * (2 ^ 31 + 2) := Nat.mul_le_mul hv (by omega)
      omega

/-! ## What is written for a BERT model -/

theorem vocab_written {c : Config} (hc : ConfigOk c) {t : Tokenizer} (hd : DictOk c t.dict) :
    ∃ ts ls, Tokens c t.dict ts ∧ ls.length = c.vocabSize ∧
      writeVocab c t = some [⟨ascii "berts.vocab.size", [ls.length], 16, ls⟩,
        ⟨ascii "berts.vocab.data", [ts.flatten.length], 16, ts.flatten⟩] ∧
      ∃ v, Vocab.Holds v ts ∧
        Vocab.initVocab (some ⟨true, 1, ls⟩) (some ⟨true, 1, ts.flatten⟩) Vocab.VocabT.new some = .ok (some v) := by
  obtain ⟨ts, hts⟩ := Props.C39_converter_succeeds c.vocabSize t.dict hd.ids hd.range
  obtain ⟨h1, h2, h3, h4⟩ := Props.C39_converter_tokens _ _ _ hd.tokens hts
  have hs := converter_sizes hc.vocab hd hts
  have hlen : ts.length ≤ INVALID := by
    have := hc.vocab
    rw [h1]; unfold INVALID; omega
  obtain ⟨ls, b1, b2, b3, b4⟩ := Vocab.writeBlobs_spec ts hs []
  rw [List.append_nil] at b3
  obtain ⟨v, e1, e2⟩ := (Vocab.readTokens_spec ts.flatten ls 0 Vocab.VocabT.new [] Vocab.holds_new
    (by simp [b4]; exact hlen) (by omega)).1 (by simpa [b3] using h2)
  simp only [List.nil_append, List.drop_zero, b3] at e2
  refine ⟨ts, ls, ⟨h1, h2, h3, h4, hs⟩, by rw [b4, h1], ?_, v, e2, ?_⟩
  · unfold writeVocab
    simp only [hts, b1, Option.bind_eq_bind, Option.bind_some]
    rfl
  · unfold Vocab.initVocab
    simp only [ne_eq, not_true_eq_false, or_self, if_false, Bool.not_true, Bool.false_eq_true, e1, Res.bind_ok]
    simp [b2]

/-- The metadata of a converted BERT model. -/
def bertKv (f16 : Bool) (s : Source α) (cls mask pad sep unk : Nat) : List (List Nat × Kv) :=
  [(ascii "general.architecture", .str (ascii "BERT")), (ascii "general.name", .str s.name),
      (ascii "general.alignment", .u32 32)] ++
    (hparamList 0 0 s.config ++ specialList cls mask pad sep unk ++ optBool "berts.do_lower_case" s.tok.lowerCase ++
      optBool "berts.do_basic_tokenize" s.tok.basic ++ optBool "berts.tokenize_chinese_chars" s.tok.chinese ++
      optBool "berts.strip_accent" s.tok.strip) ++
    [(ascii "general.file_type", .u32 (if f16 then 1 else 0))]

/-- The ids of a BERT tokenizer. -/
structure BertIds (c : Config) (t : Tokenizer) (cls mask pad sep unk : Nat) : Prop where
  cls : t.cls = some cls ∧ cls < c.vocabSize
  mask : t.mask = some mask ∧ mask < c.vocabSize
  pad : t.pad = some pad ∧ pad < c.vocabSize
  sep : t.sep = some sep ∧ sep < c.vocabSize
  unk : t.unk = some unk ∧ unk < c.vocabSize

theorem bert_ids {c : Config} {t : Tokenizer} (h : ∀ o ∈ [t.cls, t.mask, t.pad, t.sep, t.unk], IdOk c o) :
    ∃ cls mask pad sep unk, BertIds c t cls mask pad sep unk := by
  obtain ⟨cls, h1⟩ := h t.cls (by simp)
  obtain ⟨mask, h2⟩ := h t.mask (by simp)
  obtain ⟨pad, h3⟩ := h t.pad (by simp)
  obtain ⟨sep, h4⟩ := h t.sep (by simp)
  obtain ⟨unk, h5⟩ := h t.unk (by simp)
  exact ⟨cls, mask, pad, sep, unk, h1, h2, h3, h4, h5⟩

theorem convert_bert {s : Source α} (hcls : s.cls = .bert) (hc : ConfigOk s.config) (hst : StateOk s.config s.state)
    (hlm : HeadOk s.cls s.lm) (ht : BertTok s.config s.tok) {cls mask pad sep unk : Nat}
    (hi : BertIds s.config s.tok cls mask pad sep unk) (enc : Bool → List α → List Nat) (f16 : Bool) (header : List Nat) {ls ds : List Nat}
    (hw : writeVocab s.config s.tok = some [⟨ascii "berts.vocab.size", [ls.length], 16, ls⟩,
        ⟨ascii "berts.vocab.data", [ds.length], 16, ds⟩]) :
    convert enc f16 header s = some (⟨bertKv f16 s cls mask pad sep unk,
        directory 0 (fileTensors ls ds [] enc f16 s), header.length⟩,
      header ++ dataBytes (fileTensors ls ds [] enc f16 s)) := by
  have hv := hc.vocab
  have e1 : writeBert s.config s.tok = some (hparamList 0 0 s.config ++ specialList cls mask pad sep unk ++
      optBool "berts.do_lower_case" s.tok.lowerCase ++
      optBool "berts.do_basic_tokenize" s.tok.basic ++ optBool "berts.tokenize_chinese_chars" s.tok.chinese ++
      optBool "berts.strip_accent" s.tok.strip) := by
    unfold writeBert
    rw [hparamKv_eq hc (by decide) (by decide), specialKv_eq hi.cls.1 hi.mask.1 hi.pad.1 hi.sep.1 hi.unk.1
      (by have := hi.cls.2; have := hi.mask.2; have := hi.pad.2; have := hi.sep.2; have := hi.unk.2; omega)]
    simp only [Option.bind_eq_bind, Option.bind_some, if_pos hc.act]
    rcases ht.never with e | e <;> rw [e] <;> rfl
  have e2 : writeMerge s.tok = some [] := by
    unfold writeMerge
    rw [ht.ranks]
  have e3 := names_nodup (ls := ls) (ds := ds) (enc := enc) (f16 := f16) (.inl hcls) hst hlm (.inl rfl)
  unfold fileTensors at e3
  unfold convert
  rw [hcls] at e3 ⊢
  simp only [e1, hw, e2, Option.bind_eq_bind, Option.bind_some, Option.pure_def]
  rw [if_pos e3]
  unfold fileTensors bertKv
  rw [hcls]

theorem bert_general (f16 : Bool) (s : Source α) (cls mask pad sep unk : Nat) (dir : List TInfo) (off : Nat) :
    general ⟨bertKv f16 s cls mask pad sep unk, dir, off⟩ = .ok () := by
  cases f16 <;>
  simp [general, strOr, u32Opt, u32, find_lookup, bertKv, hparamList, specialList, lookup_append, lookup_cons, lookup_nil,
    lookup_optBool, Res.bind, ftype]

theorem bert_hparams (f16 : Bool) (s : Source α) (cls mask pad sep unk : Nat) (dir : List TInfo) (off : Nat) :
    hparams ⟨bertKv f16 s cls mask pad sep unk, dir, off⟩ = .ok (hpOf 0 s.config) := by
  simp [hparams, u32Opt, u32, f64Opt, find_lookup, bertKv, hparamList, specialList, lookup_append, lookup_cons, lookup_nil,
    Res.bind, hpOf]

theorem bert_meta (f16 : Bool) (s : Source α) (cls mask pad sep unk : Nat) (dir : List TInfo) (off : Nat) :
    bertMeta ⟨bertKv f16 s cls mask pad sep unk, dir, off⟩ =
      .ok ⟨some cls, some mask, some pad, some sep, some unk, none, none⟩ := by
  simp [bertMeta, u32Opt, find_lookup, bertKv, hparamList, specialList, lookup_append, lookup_cons, lookup_nil, Res.bind]

theorem bert_cond (f16 : Bool) (s : Source α) (cls mask pad sep unk : Nat) (dir : List TInfo) (off : Nat) :
    bertCond ⟨bertKv f16 s cls mask pad sep unk, dir, off⟩ =
      .ok { (if s.tok.basic.getD true then Bert.basicInfo else Bert.noBasicInfo) with
        lowerCase := s.tok.lowerCase.getD true, addCjk := s.tok.chinese.getD true,
        stripAcc := s.tok.strip.getD (s.tok.lowerCase.getD true) } := by
  have h1 : boolOr ⟨bertKv f16 s cls mask pad sep unk, dir, off⟩ "berts.do_lower_case" true =
      .ok (s.tok.lowerCase.getD true) := by
    cases h : s.tok.lowerCase <;>
    simp [boolOr, find_lookup, bertKv, hparamList, specialList, lookup_append, lookup_cons, lookup_nil, lookup_optBool, h]
  have h2 : boolOr ⟨bertKv f16 s cls mask pad sep unk, dir, off⟩ "berts.do_basic_tokenize" true =
      .ok (s.tok.basic.getD true) := by
    cases h : s.tok.basic <;>
    simp [boolOr, find_lookup, bertKv, hparamList, specialList, lookup_append, lookup_cons, lookup_nil, lookup_optBool, h]
  have h3 : boolOr ⟨bertKv f16 s cls mask pad sep unk, dir, off⟩ "berts.tokenize_chinese_chars" true =
      .ok (s.tok.chinese.getD true) := by
    cases h : s.tok.chinese <;>
    simp [boolOr, find_lookup, bertKv, hparamList, specialList, lookup_append, lookup_cons, lookup_nil, lookup_optBool, h]
  have h4 : ∀ d, boolOr ⟨bertKv f16 s cls mask pad sep unk, dir, off⟩ "berts.strip_accent" d =
      .ok (s.tok.strip.getD d) := by
    intro d
    cases h : s.tok.strip <;>
    simp [boolOr, find_lookup, bertKv, hparamList, specialList, lookup_append, lookup_cons, lookup_nil, lookup_optBool, h]
  unfold bertCond
  rw [h1, h2, h3]
  simp only [Res.bind]
  rw [h4]

/-! ## Loading -/

/-- The fields of a loaded model. -/
theorem load_values {w : World α} {c : Ctx α} {l : Ledger} {g : Gguf} {bytes : List Nat} (h : load w = .ok (some c, l))
    (hg : w.gguf = some g) (hf : w.file = some bytes) (hn : NamesOk g)
    (ho : ∀ t ∈ g.dir, g.dataOffset + t.offset < 2 ^ 64) :
    hparams g = .ok c.hp ∧ u32 g "general.file_type" = .ok c.type ∧
      vocabInit w.signed w.order c.hp.arch g (loadedFrom g bytes w.junk 0 g.dir) = .ok (some c.vocab) ∧
      Named (fun k => (getTensor (loadedFrom g bytes w.junk 0 g.dir) k).map w.conv) c.hp.hp.nLayers c.weights := by
  have hc := load_cases h
  generalize hr : some c = r at hc
  generalize l.acq = la at hc
  generalize l.h.freed = lf at hc
  cases hc with
  | noFile h0 => cases hr
  | noPool g' size => cases hr
  | noStream g' size => cases hr
  | truncated g' size bytes' => cases hr
  | finished g' size bytes' ts r acq freed h1 h2 h3 h4 h5 h6 =>
    rw [hg] at h1
    cases h1
    rw [hf] at h4
    cases h4
    have hts : ts = loadedFrom g bytes w.junk 0 g.dir := by
      have := (loop_sound w.gg g hn ho _ _ bytes g.dir 0 0 ⟨bytes, 0, false⟩ [] ts (fun _ h => h) rfl rfl h5).2
      rwa [List.nil_append] at this
    subst hts
    subst hr
    cases h6 with
    | create hp type r k1 k2 k3 k4 k5 k6 =>
      cases k6 with
      | ok v ws m1 m2 => exact ⟨k1, k4, m1, (initWeights_iff _ _ _).1 m2⟩

theorem named_congr {f g : List Nat → Option (T α)} {n : Nat} {w : Berts.Graph.Weights α}
    (h : ∀ k, ascii "berts.bert." <+: k → f k = g k) (hf : Named f n w) : Named g n w := by
  have hb : ∀ x : String, f (ascii ("berts.bert." ++ x)) = g (ascii ("berts.bert." ++ x)) := by
    intro x
    apply h
    rw [ascii_append]
    exact List.prefix_append _ _
  have hl : ∀ (i : Nat) (x : String), f (ascii "berts.bert.encoder.layer." ++ decimal i ++ ascii ("." ++ x)) =
      g (ascii "berts.bert.encoder.layer." ++ decimal i ++ ascii ("." ++ x)) := by
    intro i x
    apply h
    rw [layer_name]
    exact List.prefix_append _ _
  have hp : ∀ x : String, f (ascii ("berts.bert.predictions." ++ x)) = g (ascii ("berts.bert.predictions." ++ x)) := by
    intro x
    apply h
    rw [← headName_eq]
    exact List.prefix_append _ _
  unfold Named at hf ⊢
  simp only [hb] at hf
  obtain ⟨h1, h2, h3, h4, h5, h6, h7, h8, h9, h10⟩ := hf
  refine ⟨h1, h2, h3, h4, h5, h6, h7, h8, fun i l hi => ?_, fun l => ?_⟩
  · have := h9 i l hi
    unfold LayerNamed at this ⊢
    simp only [hl] at this
    exact this
  · rw [h10 l]
    unfold LmNamed
    simp only [hp]

section
variable {c : Config} {ls ds : List Nat} {m : List Tensor} {enc : Bool → List α → List Nat} {f16 : Bool}
  {s : Source α} (hcls : s.cls = .bert ∨ s.cls = .roberta) (hst : StateOk c s.state) (hlm : HeadOk s.cls s.lm)
  (hm : MergeOk m) (kv : List (List Nat × Kv)) (header : List Nat)
include hcls hst hlm hm

theorem file_names : NamesOk ⟨kv, directory 0 (fileTensors ls ds m enc f16 s), header.length⟩ := by
  constructor
  · simp only
    rw [directory_names]
    exact names_nodup hcls hst hlm hm
  · intro t ht
    obtain ⟨x, hx, h1, _⟩ := directory_mem _ _ _ ht
    rw [h1]
    exact names_short hcls hst hlm hm x hx

omit hcls hst hlm hm in
theorem file_bounds (ts : List Tensor) (t : TInfo) (ht : t ∈ directory 0 ts) :
    header.length + t.offset + t.nbytes ≤ (header ++ dataBytes ts).length := by
  have := directory_bounds ts 0 t ht
  rw [List.length_append]
  omega

theorem converted_load (hc : ConfigOk c) {arch : Nat} (harch : arch = 0 ∨ arch = 1) {type : Nat} {V : VocabR} {w : World α}
    {dec : Nat → List Nat → List α} {rnd : Bool → α → α} {dflt : α} (hd : Codec enc dec rnd)
    (hw : Opens w ⟨kv, directory 0 (fileTensors ls ds m enc f16 s), header.length⟩
      (header ++ dataBytes (fileTensors ls ds m enc f16 s)) dec dflt)
    (hgen : general ⟨kv, directory 0 (fileTensors ls ds m enc f16 s), header.length⟩ = .ok ())
    (hhp : hparams ⟨kv, directory 0 (fileTensors ls ds m enc f16 s), header.length⟩ = .ok (hpOf arch c))
    (hty : u32 ⟨kv, directory 0 (fileTensors ls ds m enc f16 s), header.length⟩ "general.file_type" = .ok type)
    (hv : vocabInit w.signed w.order arch ⟨kv, directory 0 (fileTensors ls ds m enc f16 s), header.length⟩
      ((fileTensors ls ds m enc f16 s).map asLT) = .ok (some V)) :
    ∃ k l, load w = .ok (some k, l) ∧ k.hp = hpOf arch c ∧ k.type = type ∧ k.vocab = V ∧
      Named (sourceAt rnd dflt f16 s) c.layers k.weights := by
  have hn := file_names (ls := ls) (ds := ds) (enc := enc) (f16 := f16) hcls hst hlm hm kv header
  have hb := file_bounds header (fileTensors ls ds m enc f16 s)
  have hlt := hw.fits.2
  have ho : OffsetsOk ⟨kv, directory 0 (fileTensors ls ds m enc f16 s), header.length⟩ := by
    intro t ht
    have := hb t ht
    simp only
    omega
  have hlo := loaded_directory ⟨kv, directory 0 (fileTensors ls ds m enc f16 s), header.length⟩ w.junk
    (fileTensors ls ds m enc f16 s) 0 0 header rfl
  obtain ⟨r, l, h1, h2⟩ := Props.C57_exact w _ _ (hpOf arch c) (some V) hw.gguf hw.file hw.pool hn ho hw.align.1 hw.align.2
    hw.fits.1 hgen (by
      intro t ht j hj
      have := hb t ht
      simp only
      omega) hhp (by
      simp only
      rw [hlo]
      exact hv)
  have hsome := h2.2 ⟨rfl, harch, rfl, by
    have := required_of (ls := ls) (ds := ds) (m := m) (enc := enc) (f16 := f16) hst
    simpa [hpOf] using this⟩
  rw [Option.isSome_iff_exists] at hsome
  obtain ⟨k, rfl⟩ := hsome
  obtain ⟨e1, e2, e3, e4⟩ := load_values h1 hw.gguf hw.file hn (fun t ht => by have := ho t ht; omega)
  rw [hhp] at e1
  injection e1 with e1
  rw [hty] at e2
  injection e2 with e2
  simp only at e3 e4
  rw [hlo] at e3 e4
  rw [← e1] at e3 e4
  rw [show (hpOf arch c).arch = arch from rfl, hv] at e3
  injection e3 with e3
  injection e3 with e3
  refine ⟨k, l, h1, e1.symm, e2.symm, e3.symm, named_congr (fun x hx => ?_) e4⟩
  rw [hw.conv]
  exact tensors_source hd dflt f16 hcls hst hlm hm hx

end

end Berts.Convert
