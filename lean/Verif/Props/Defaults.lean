import Verif.Spec.Defaults
import Verif.Props.Load
import Verif.Props.Loaded

/-!
# Properties of optional metadata (keys.h)
-/

namespace Berts.Props

open Berts.Load
open Berts.Handle (res_inv)
open Berts.Vocab
open Berts.Spec (firstValid)
open Berts.Graph (T Gg)

variable {α : Type}

theorem u32Opt_id {g : Gguf} {k : String} {x : Option Nat} (h : u32Opt g k = .ok x) :
    (∃ i, x = some i ∧ HasU32 g k i) ∨ (x = none ∧ NoKey g k) := by
  unfold u32Opt at h
  split at h
  · rename_i hf; cases h; exact .inr ⟨rfl, (find_none _ _).1 hf⟩
  · rename_i n hf; cases h; exact .inl ⟨n, rfl, (find_some _ _ _).1 hf⟩
  · cases h

theorem boolOr_opt {g : Gguf} {k : String} {d b : Bool} (h : boolOr g k d = .ok b) : OptBool g k d b := by
  unfold boolOr at h
  split at h
  · rename_i hf; cases h; exact .inr ⟨(find_none _ _).1 hf, rfl⟩
  · rename_i b hf; cases h; exact .inl ((find_some _ _ _).1 hf)
  · cases h

/-- The first valid candidate is the id of the key or the rest decides. -/
theorem firstValid_key {g : Gguf} {k : String} {x : Option Nat} (h : u32Opt g k = .ok x) {l : List (Option Nat)}
    {id : Nat} (hf : firstValid (x :: l) = some id) :
    (HasU32 g k id ∧ id ≠ INVALID) ∨ (NoId g k ∧ firstValid l = some id) := by
  rcases u32Opt_id h with ⟨i, rfl, hk⟩ | ⟨rfl, hk⟩
  · rw [firstValid] at hf
    split at hf
    · rename_i hi; exact .inr ⟨.inr (hi ▸ hk), hf⟩
    · rename_i hi; cases hf; exact .inl ⟨hk, hi⟩
  · exact .inr ⟨.inl hk, hf⟩

/-- The first valid candidate among the ids of names. -/
theorem firstValid_names {toId : List Nat → Nat} {names : List String} {id : Nat}
    (h : firstValid (names.map fun n => some (toId (ascii n))) = some id) : FirstToken toId names id := by
  induction names with
  | nil => cases h
  | cons n ns ih =>
    rw [List.map_cons, firstValid] at h
    split at h
    · rename_i hi
      obtain ⟨pre, name, post, e, h1, h2⟩ := ih h
      refine ⟨n :: pre, name, post, by rw [e]; rfl, ?_, h2⟩
      intro m hm
      rcases List.mem_cons.1 hm with rfl | hm
      · exact hi
      · exact h1 m hm
    · rename_i hi
      cases h
      exact ⟨[], n, ns, rfl, by simp, rfl, hi⟩

theorem optId_of {g : Gguf} {k : String} {x : Option Nat} (h : u32Opt g k = .ok x) {toId : List Nat → Nat}
    {names : List String} {id : Nat}
    (hf : firstValid (x :: names.map fun n => some (toId (ascii n))) = some id) : OptId g k toId names id := by
  rcases firstValid_key h hf with h | ⟨h1, h2⟩
  · exact .inl h
  · exact .inr ⟨h1, firstValid_names h2⟩

theorem bind_ok_inv {β γ : Type} {x : Res β} {f : β → Res γ} {y : γ} (h : x.bind f = .ok y) :
    ∃ a, x = .ok a ∧ f a = .ok y := by
  cases x with
  | ok a => exact ⟨a, rfl, h⟩
  | ub => cases h
  | abort => cases h
  | hang => cases h

theorem initBpe_vocab {merge : Option Roberta.MergeTensor} {order : List (Bpe.Str × Nat) → List (Bpe.Str × Nat)}
    {v : VocabT} {sp : Special} {r : Roberta.RVocab} (h : Roberta.initBpe merge order v sp = .ok (some r)) :
    r.v = v := by
  simp only [Roberta.initBpe] at h
  obtain ⟨u1, _, h⟩ := bind_ok_inv h
  obtain ⟨u2, _, h⟩ := bind_ok_inv h
  obtain ⟨u3, _, h⟩ := bind_ok_inv h
  split at h
  · cases h
  · obtain ⟨u4, _, h⟩ := bind_ok_inv h
    split at h
    · simp only [Res.ok.injEq, Option.some.injEq] at h
      rw [← h]
    · cases h

/-- The id of cls (or sep) when there is also an id of bos (or eos). -/
theorem pair_cls {g : Gguf} {k k' : String} {x y : Option Nat} (hx : u32Opt g k = .ok x) (hy : u32Opt g k' = .ok y)
    {toId : List Nat → Nat} {n : String} {id : Nat}
    (hf : firstValid [x, some (toId (ascii n)), y] = some id) :
    OptId g k toId [n] id ∨ NoId g k ∧ toId (ascii n) = INVALID ∧ HasU32 g k' id := by
  rcases firstValid_key hx hf with h | ⟨h1, h2⟩
  · exact .inl (.inl h)
  · rw [firstValid] at h2
    split at h2
    · rename_i hi
      rcases firstValid_key hy h2 with h | ⟨_, h⟩
      · exact .inr ⟨h1, hi, h.1⟩
      · cases h
    · rename_i hi
      cases h2
      exact .inl (.inr ⟨h1, [], n, [], rfl, by simp, rfl, hi⟩)

theorem noId_valid {g : Gguf} {k : String} {x : Option Nat} (hx : u32Opt g k = .ok x) (h : NoId g k)
    (l : List (Option Nat)) : firstValid (x :: l) = firstValid l := by
  rcases u32Opt_id hx with ⟨i, rfl, hk⟩ | ⟨rfl, _⟩
  · have hi : i = INVALID := by
      rcases h with h | h
      · obtain ⟨a, b, e, _⟩ := hk
        exact absurd rfl (h (ascii k, .u32 i) (by rw [e]; simp))
      · have h1 := (u32_iff _ _ _).2 h
        rw [(u32_iff _ _ _).2 hk] at h1
        cases h1; rfl
    rw [firstValid, if_pos hi]
  · rfl

/-- The id of bos (or eos). -/
theorem pair_bos {g : Gguf} {k k' : String} {x y : Option Nat} (hx : u32Opt g k = .ok x) (hy : u32Opt g k' = .ok y)
    {toId : List Nat → Nat} {n : String} {id id' : Nat}
    (hf : firstValid [x, some (toId (ascii n)), y] = some id)
    (hf' : firstValid [y, some (toId (ascii n)), x] = some id') :
    (HasU32 g k id ∧ id ≠ INVALID) ∨ NoId g k ∧ (FirstToken toId [n] id ∨ id = id') ∧ (NoId g k' → id = id') := by
  rcases firstValid_key hx hf with h | ⟨h1, h2⟩
  · exact .inl h
  · refine .inr ⟨h1, ?_, ?_⟩
    · rw [firstValid] at h2
      split at h2
      · rcases firstValid_key hy h2 with h | ⟨_, h⟩
        · refine .inr ?_
          have := (u32_iff _ _ _).2 h.1
          rcases u32Opt_id hy with ⟨i, rfl, hk⟩ | ⟨_, hk⟩
          · rw [(u32_iff _ _ _).2 hk] at this
            cases this
            rw [firstValid, if_neg h.2] at hf'
            cases hf'; rfl
          · obtain ⟨a, b, e, _⟩ := h.1
            exact absurd rfl (hk _ (by rw [e]; exact List.mem_append_right _ (List.mem_cons_self ..)))
        · cases h
      · rename_i hi
        cases h2
        exact .inl ⟨[], n, [], rfl, by simp, rfl, hi⟩
    · intro h3
      rw [noId_valid hx h1] at hf
      rw [noId_valid hy h3] at hf'
      rw [firstValid] at hf hf'
      split at hf
      · rename_i hi
        rw [noId_valid hy h3] at hf
        cases hf
      · rename_i hi
        rw [if_neg hi] at hf'
        cases hf; cases hf'; rfl

/-- C91 (partial: the keys `berts.bos_id`, `berts.eos_id` and `berts.never_split` are ignored): in every BERT model
that is loaded, an optional key has the value the file gives, and without the key the default that keys.h
documents. -/
theorem C91_bert_partial {w : World α} {c : Load.Ctx α} {l : Ledger} {g : Gguf} (h : load w = .ok (some c, l))
    (hg : w.gguf = some g) (ha : HasU32 g "berts.bert_type" 0) :
    HasSegments g c.hp.hp.segments ∧ OptF64 g "berts.layer_norm_eps" 1 (10 ^ 12) c.hp.hp.eps ∧
    OptF64 g "berts.initializer_range" 2 100 c.hp.initRange ∧
    ∃ v sp cond, c.vocab = .bert v sp cond ∧
      OptId g "berts.cls_id" v.tokenToId ["[CLS]", "<s>"] sp.cls ∧
      OptId g "berts.mask_id" v.tokenToId ["[MASK]", "<mask>"] sp.mask ∧
      OptId g "berts.pad_id" v.tokenToId ["[PAD]", "<pad>"] sp.pad ∧
      OptId g "berts.sep_id" v.tokenToId ["[SEP]", "</s>"] sp.sep ∧
      OptId g "berts.unk_id" v.tokenToId ["[UNK]", "<unk>"] sp.unk ∧
      OptBool g "berts.do_lower_case" true cond.lowerCase ∧
      OptBool g "berts.tokenize_chinese_chars" true cond.addCjk ∧
      OptBool g "berts.strip_accent" cond.lowerCase cond.stripAcc ∧
      (∀ b, b ∈ [cond.removeRepl, cond.removeNull, cond.removeCtrl, cond.splitPunc] →
        OptBool g "berts.do_basic_tokenize" true b) ∧ cond.normWs = true := by
  obtain ⟨g', bytes, n, hg', _, _, _, _, _, _, _, ⟨hA, _, _, _, _, _, _, _, hS, hE, hR⟩, _, hv⟩ := C57_supported h
  rw [hg] at hg'
  cases hg'
  refine ⟨hS, hE, hR, ?_⟩
  have h0 : c.hp.arch = 0 := by
    have := (u32_iff _ _ _).2 hA
    rw [(u32_iff _ _ _).2 ha] at this
    exact (Res.ok.inj this).symm
  unfold vocabInit at hv
  obtain ⟨r, _, hv⟩ := bind_ok_inv hv
  cases r with
  | none => cases hv
  | some v =>
  rw [h0] at hv
  simp only [if_true] at hv
  unfold bertInit at hv
  obtain ⟨m, hm, hv⟩ := bind_ok_inv hv
  split at hv
  · cases hv
  obtain ⟨cond, hc, hv⟩ := bind_ok_inv hv
  cases hs : bertSpecials m v with
  | none => rw [hs] at hv; cases hv
  | some sp =>
  rw [hs] at hv
  refine ⟨v, sp, cond, (Option.some.inj (Res.ok.inj hv)).symm, ?_⟩
  clear hv
  unfold bertMeta at hm
  obtain ⟨cls, m1, hm⟩ := bind_ok_inv hm
  obtain ⟨mask, m2, hm⟩ := bind_ok_inv hm
  obtain ⟨pad, m3, hm⟩ := bind_ok_inv hm
  obtain ⟨sep, m4, hm⟩ := bind_ok_inv hm
  obtain ⟨unk, m5, hm⟩ := bind_ok_inv hm
  cases hm
  unfold bertCond at hc
  obtain ⟨lower, c1, hc⟩ := bind_ok_inv hc
  obtain ⟨basic, c2, hc⟩ := bind_ok_inv hc
  obtain ⟨cjk, c3, hc⟩ := bind_ok_inv hc
  obtain ⟨strip, c4, hc⟩ := bind_ok_inv hc
  cases hc
  obtain ⟨s1, s2, s3, s4, s5⟩ := C38_bert_values _ v sp hs
  refine ⟨optId_of m1 s1, optId_of m2 s2, optId_of m3 s3, optId_of m4 s4, optId_of m5 s5, boolOr_opt c1,
    boolOr_opt c3, boolOr_opt c4, ?_, ?_⟩
  · have := boolOr_opt c2
    cases basic <;> simpa [Bert.basicInfo, Bert.noBasicInfo] using this
  · cases basic <;> rfl

/-- C91 (partial: "[CLS]" and the like are never tried; without `berts.bos_id` the token "<s>" comes before the
cls token): in every RoBERTa model that is loaded, an optional key has the value the file gives, and without the
key the default that keys.h documents, for bos and eos if the file does not give cls and sep either. -/
theorem C91_roberta_partial {w : World α} {c : Load.Ctx α} {l : Ledger} {g : Gguf} (h : load w = .ok (some c, l))
    (hg : w.gguf = some g) (ha : HasU32 g "berts.bert_type" 1) :
    HasSegments g c.hp.hp.segments ∧ OptF64 g "berts.layer_norm_eps" 1 (10 ^ 12) c.hp.hp.eps ∧
    OptF64 g "berts.initializer_range" 2 100 c.hp.initRange ∧
    ∃ r, c.vocab = .roberta r ∧
      let id := Roberta.literalId w.signed r.v
      OptId g "berts.mask_id" id ["<mask>"] r.special.mask ∧
      OptId g "berts.pad_id" id ["<pad>"] r.special.pad ∧
      OptId g "berts.unk_id" id ["<unk>"] r.special.unk ∧
      (OptId g "berts.cls_id" id ["<s>"] r.special.cls ∨
        NoId g "berts.cls_id" ∧ id (ascii "<s>") = INVALID ∧ HasU32 g "berts.bos_id" r.special.cls) ∧
      (OptId g "berts.sep_id" id ["</s>"] r.special.sep ∨
        NoId g "berts.sep_id" ∧ id (ascii "</s>") = INVALID ∧ HasU32 g "berts.eos_id" r.special.sep) ∧
      (HasU32 g "berts.bos_id" r.special.bos ∧ r.special.bos ≠ INVALID ∨
        NoId g "berts.bos_id" ∧ (FirstToken id ["<s>"] r.special.bos ∨ r.special.bos = r.special.cls) ∧
          (NoId g "berts.cls_id" → r.special.bos = r.special.cls)) ∧
      (HasU32 g "berts.eos_id" r.special.eos ∧ r.special.eos ≠ INVALID ∨
        NoId g "berts.eos_id" ∧ (FirstToken id ["</s>"] r.special.eos ∨ r.special.eos = r.special.sep) ∧
          (NoId g "berts.sep_id" → r.special.eos = r.special.sep)) := by
  obtain ⟨g', bytes, n, hg', _, _, _, _, _, _, _, ⟨hA, _, _, _, _, _, _, _, hS, hE, hR⟩, _, hv⟩ := C57_supported h
  rw [hg] at hg'
  cases hg'
  refine ⟨hS, hE, hR, ?_⟩
  have h0 : c.hp.arch = 1 := by
    have := (u32_iff _ _ _).2 hA
    rw [(u32_iff _ _ _).2 ha] at this
    exact (Res.ok.inj this).symm
  unfold vocabInit at hv
  obtain ⟨r, _, hv⟩ := bind_ok_inv hv
  cases r with
  | none => cases hv
  | some v =>
  rw [h0] at hv
  simp only [Nat.one_ne_zero, if_false] at hv
  unfold robertaInit at hv
  obtain ⟨m, hm, hv⟩ := bind_ok_inv hv
  obtain ⟨o, hi, hv⟩ := bind_ok_inv hv
  cases o with
  | none => cases hv
  | some r =>
  simp only [Option.map_some, Res.ok.injEq, Option.some.injEq] at hv
  refine ⟨r, hv.symm, ?_⟩
  unfold Roberta.init at hi
  cases hs : robertaSpecials m (Roberta.literalId w.signed v) with
  | none => rw [hs] at hi; cases hi
  | some sp =>
  rw [hs] at hi
  have hr := initBpe_special hi
  have hrv := initBpe_vocab hi
  rw [hr, hrv]
  unfold robertaMeta at hm
  obtain ⟨bos, m1, hm⟩ := bind_ok_inv hm
  obtain ⟨eos, m2, hm⟩ := bind_ok_inv hm
  obtain ⟨cls, m3, hm⟩ := bind_ok_inv hm
  obtain ⟨mask, m4, hm⟩ := bind_ok_inv hm
  obtain ⟨pad, m5, hm⟩ := bind_ok_inv hm
  obtain ⟨sep, m6, hm⟩ := bind_ok_inv hm
  obtain ⟨unk, m7, hm⟩ := bind_ok_inv hm
  cases hm
  obtain ⟨s1, s2, s3, s4, s5, s6, s7⟩ := C38_roberta_values _ _ _ hs
  refine ⟨optId_of m4 s5, optId_of m5 s6, optId_of m7 s7, pair_cls m3 m1 s2, pair_cls m6 m2 s4,
    pair_bos m1 m3 s1 s2, pair_bos m2 m6 s3 s4⟩

/-! ## Keys without meaning -/

theorem find_sameBut {skip : List Nat → Prop} {g g' : Gguf} (h : SameBut skip g g') {k : String}
    (hk : ¬ skip (ascii k)) : find g k = find g' k := by
  obtain ⟨_, _, l, h1, h2, h3⟩ := h
  unfold find
  rw [h1, h2]
  clear h1 h2
  induction l with
  | nil => rfl
  | cons x l ih =>
    have ih := ih fun y hy => h3 y (List.mem_cons_of_mem _ hy)
    by_cases hx : x.1.1 = ascii k
    · obtain ⟨e1, e2⟩ := h3 x (List.mem_cons_self ..) (hx ▸ hk)
      simp [List.filter_cons, e1, e2, hx]
    · obtain ⟨⟨n, v⟩, b, b'⟩ := x
      have hx' : (n == ascii k) = false := by simpa using hx
      cases b <;> cases b' <;> simpa [List.filter_cons, hx'] using ih

section
variable {skip : List Nat → Prop} {g g' : Gguf}

theorem u32_same (h : SameBut skip g g') {k : String} (hk : ¬ skip (ascii k)) : u32 g k = u32 g' k := by
  unfold u32; rw [find_sameBut h hk]

theorem u32Opt_same (h : SameBut skip g g') {k : String} (hk : ¬ skip (ascii k)) : u32Opt g k = u32Opt g' k := by
  unfold u32Opt; rw [find_sameBut h hk]

theorem f64Opt_same (h : SameBut skip g g') {k : String} (hk : ¬ skip (ascii k)) : f64Opt g k = f64Opt g' k := by
  unfold f64Opt; rw [find_sameBut h hk]

theorem boolOr_same (h : SameBut skip g g') {k : String} (hk : ¬ skip (ascii k)) (d : Bool) :
    boolOr g k d = boolOr g' k d := by
  unfold boolOr; rw [find_sameBut h hk]

theorem strOr_same (h : SameBut skip g g') {k : String} (hk : ¬ skip (ascii k)) : strOr g k = strOr g' k := by
  unfold strOr; rw [find_sameBut h hk]

theorem general_same (h : SameBut skip g g') (hk : ∀ k ∈ knownKeys, ¬ skip (ascii k)) : general g = general g' := by
  unfold general
  rw [strOr_same h (hk "general.architecture" (by decide)), u32Opt_same h (hk "general.quantization_version" (by decide)),
    u32Opt_same h (hk "general.alignment" (by decide)), strOr_same h (hk "general.name" (by decide)),
    strOr_same h (hk "general.author" (by decide)), strOr_same h (hk "general.url" (by decide)),
    strOr_same h (hk "general.description" (by decide)), strOr_same h (hk "general.license" (by decide)),
    u32_same h (hk "general.file_type" (by decide))]

theorem hparams_same (h : SameBut skip g g') (hk : ∀ k ∈ knownKeys, ¬ skip (ascii k)) : hparams g = hparams g' := by
  unfold hparams
  rw [u32_same h (hk "berts.bert_type" (by decide)), u32_same h (hk "berts.vocab_size" (by decide)),
    u32_same h (hk "berts.hidden_dim" (by decide)), u32_same h (hk "berts.n_layers" (by decide)),
    u32_same h (hk "berts.attn_heads" (by decide)), u32_same h (hk "berts.max_token" (by decide)),
    u32_same h (hk "berts.intermediate_dim" (by decide)), u32Opt_same h (hk "berts.segments" (by decide)),
    u32_same h (hk "berts.hidden_act" (by decide)), f64Opt_same h (hk "berts.layer_norm_eps" (by decide)),
    f64Opt_same h (hk "berts.initializer_range" (by decide))]

theorem vocabInit_same (h : SameBut skip g g') (hk : ∀ k ∈ knownKeys, ¬ skip (ascii k)) (signed : Bool) (order)
    (arch : Nat) (ts : List LT) : vocabInit signed order arch g ts = vocabInit signed order arch g' ts := by
  have h1 : bertMeta g = bertMeta g' := by
    unfold bertMeta
    rw [u32Opt_same h (hk "berts.cls_id" (by decide)), u32Opt_same h (hk "berts.mask_id" (by decide)),
      u32Opt_same h (hk "berts.pad_id" (by decide)), u32Opt_same h (hk "berts.sep_id" (by decide)),
      u32Opt_same h (hk "berts.unk_id" (by decide))]
  have h2 : robertaMeta g = robertaMeta g' := by
    unfold robertaMeta
    rw [u32Opt_same h (hk "berts.cls_id" (by decide)), u32Opt_same h (hk "berts.mask_id" (by decide)),
      u32Opt_same h (hk "berts.pad_id" (by decide)), u32Opt_same h (hk "berts.sep_id" (by decide)),
      u32Opt_same h (hk "berts.unk_id" (by decide)), u32Opt_same h (hk "berts.bos_id" (by decide)),
      u32Opt_same h (hk "berts.eos_id" (by decide))]
  have h3 : bertCond g = bertCond g' := by
    unfold bertCond
    simp only [boolOr_same h (hk "berts.do_lower_case" (by decide)),
      boolOr_same h (hk "berts.do_basic_tokenize" (by decide)),
      boolOr_same h (hk "berts.tokenize_chinese_chars" (by decide)),
      boolOr_same h (hk "berts.strip_accent" (by decide))]
  unfold vocabInit bertInit robertaInit
  rw [h1, h2, h3]

theorem loadLoop_same (h : SameBut skip g g') (gg : Gg) (pool : Nat) (junk : Nat → Nat → Nat) :
    ∀ ts i used s acc, loadLoop gg g pool junk i ts used s acc = loadLoop gg g' pool junk i ts used s acc := by
  intro ts
  induction ts with
  | nil => intros; rfl
  | cons t ts ih =>
    intro i used s acc
    unfold loadLoop metaTensor
    rw [h.1, h.2.1]
    simp only [ih]

theorem sizeLoop_same (h : SameBut skip g g') (gg : Gg) : ∀ ts acc, sizeLoop gg g ts acc = sizeLoop gg g' ts acc := by
  intro ts
  induction ts with
  | nil => intros; rfl
  | cons t ts ih =>
    intro acc
    unfold sizeLoop metaTensor
    rw [h.1]
    simp only [ih]

end

/-- C91: other keys mean nothing: two files that agree but for keys that are not in the list load to the same
result. -/
theorem C91_other_keys (w : World α) (g g' : Gguf) (h : SameBut (· ∉ knownKeys.map ascii) g g') :
    load { w with gguf := some g } = load { w with gguf := some g' } := by
  have hk : ∀ k ∈ knownKeys, ¬ (ascii k ∉ knownKeys.map ascii) := by
    intro k hk hn
    exact hn (List.mem_map_of_mem hk)
  unfold load
  simp only [initGg, loadWeights, finish, create, general_same h hk, sizeLoop_same h, h.1, loadLoop_same h,
    hparams_same h hk, u32_same h (hk "general.file_type" (by decide)), vocabInit_same h hk]

/-! ## Example files -/

/-- The directory of a file without layers for the given vocabulary; the merge table is empty. -/
def defDir (tokens : List String) : List TInfo :=
  let n := tokens.length
  let m := (tokens.flatMap ascii).length
  [⟨ascii "berts.vocab.size", 1, [n], 16, n, 0⟩, ⟨ascii "berts.vocab.data", 1, [m], 16, m, n⟩] ++
    (loadNames.drop 2).map (fun k => ⟨k, 1, [1], 16, 1, 0⟩) ++ [⟨ascii "berts.merge.data", 1, [0], 18, 0, 0⟩]

/-- The bytes of the file. -/
def defBytes (tokens : List String) : List Nat := tokens.map (·.length) ++ tokens.flatMap ascii

/-- A file with the mandatory metadata and `more`. -/
def defWorld (arch : Nat) (tokens : List String) (more : List (String × Kv)) : World Nat :=
  loadWorld ⟨(loadKv 0 arch).take 9 ++ more.map (fun p => (ascii p.1, p.2)), defDir tokens, 0⟩ (defBytes tokens)

/-- The special ids of a loaded model. -/
def loadedIds (w : World Nat) : Option Special :=
  match load w with
  | .ok (some c, _) =>
    match c.vocab with
    | .bert _ sp _ => some sp
    | .roberta r => some r.special
  | _ => none

def bertTokens : List String := ["a", "[CLS]", "[MASK]", "[PAD]", "[SEP]", "[UNK]"]
def robertaTokens : List String := ["<s>", "<pad>", "</s>", "<unk>", "<mask>", "x"]

/-- Files without any optional key are loaded. -/
example : loadedIds (defWorld 0 bertTokens []) = some ⟨1, 2, 3, 4, 5, INVALID, INVALID⟩ ∧
    loadedIds (defWorld 1 robertaTokens []) = some ⟨0, 4, 1, 2, 3, 0, 2⟩ := by decide +kernel

/-- The hypotheses of `C91_bert_partial` and `C91_roberta_partial` hold for them. -/
example : (∃ c l, load (defWorld 0 bertTokens []) = .ok (some c, l)) ∧
    (∃ c l, load (defWorld 1 robertaTokens []) = .ok (some c, l)) := by
  constructor
  · exact loads_some (by decide +kernel)
  · exact loads_some (by decide +kernel)

example : HasU32 ⟨(loadKv 0 1).take 9, defDir robertaTokens, 0⟩ "berts.bert_type" 1 :=
  (u32_iff _ _ _).1 (by decide +kernel)

/-- Two files that differ in keys without meaning. -/
example : SameBut (· ∉ knownKeys.map ascii) ⟨[(ascii "berts.segments", .u32 1), (ascii "berts.never_split", .other [])], [], 0⟩
    ⟨[(ascii "x", .u32 7), (ascii "berts.segments", .u32 1)], [], 0⟩ :=
  ⟨rfl, rfl, [((ascii "x", .u32 7), false, true), ((ascii "berts.segments", .u32 1), true, true),
    ((ascii "berts.never_split", .other []), true, false)], rfl, rfl, by
      intro x hx hn
      simp only [List.mem_cons, List.not_mem_nil, or_false] at hx
      rcases hx with rfl | rfl | rfl
      · exact absurd (by decide +kernel) hn
      · exact ⟨rfl, rfl⟩
      · exact absurd (by decide +kernel) hn⟩

/-! ## Counterexamples -/

/-- C91: `berts.bos_id` of a RoBERTa model does not default to the id of the cls token: with the cls token 5 and
no key for bos, bos is the token "<s>"; likewise eos. -/
theorem C91_bos_counterexample :
    loadedIds (defWorld 1 robertaTokens [("berts.cls_id", .u32 5), ("berts.sep_id", .u32 5)]) =
      some ⟨5, 4, 1, 5, 3, 0, 2⟩ := by decide +kernel

/-- C91: `berts.cls_id` of a RoBERTa model does not default to the id of "[CLS]": the file is rejected. -/
theorem C91_cls_counterexample :
    loads (defWorld 1 ("[CLS]" :: robertaTokens.tail) []) = some false ∧
    loads (defWorld 1 ("[CLS]" :: robertaTokens.tail) [("berts.cls_id", .u32 0)]) = some true := by
  decide +kernel

/-- C91: the keys `berts.bos_id` and `berts.eos_id` of a BERT model are ignored, and there is no default: every
BERT model that is loaded has neither. -/
theorem C91_bert_bos_counterexample {w : World α} {c : Load.Ctx α} {l : Ledger} (h : load w = .ok (some c, l))
    {v : VocabT} {sp : Special} {cond : Bert.TokInfo} (hc : c.vocab = .bert v sp cond) :
    sp.bos = INVALID ∧ sp.eos = INVALID := by
  obtain ⟨g, bytes, n, _, _, _, _, _, _, _, _, _, _, hv⟩ := C57_supported h
  unfold vocabInit at hv
  obtain ⟨r, _, hv⟩ := bind_ok_inv hv
  cases r with
  | none => cases hv
  | some v' =>
  simp only at hv
  split at hv
  · unfold bertInit at hv
    obtain ⟨m, _, hv⟩ := bind_ok_inv hv
    split at hv
    · cases hv
    obtain ⟨cond', _, hv⟩ := bind_ok_inv hv
    cases hs : bertSpecials m v' with
    | none => rw [hs] at hv; cases hv
    | some sp' =>
    rw [hs] at hv
    have e := Option.some.inj (Res.ok.inj hv)
    rw [hc] at e
    cases e
    unfold bertSpecials at hs
    simp only at hs
    split at hs
    · cases hs
    · split at hs
      · cases hs
      · cases hs; exact ⟨rfl, rfl⟩
  · unfold robertaInit at hv
    obtain ⟨m, _, hv⟩ := bind_ok_inv hv
    obtain ⟨o, _, hv⟩ := bind_ok_inv hv
    cases o with
    | none => cases hv
    | some r =>
      have e := Option.some.inj (Res.ok.inj hv)
      rw [hc] at e
      cases e

/-- Even when the file gives them. -/
example : loadedIds (defWorld 0 bertTokens [("berts.bos_id", .u32 1), ("berts.eos_id", .u32 4)]) =
    some ⟨1, 2, 3, 4, 5, INVALID, INVALID⟩ := by decide +kernel

end Berts.Props
