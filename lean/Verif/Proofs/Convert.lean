import Verif.Spec.Convert
import Verif.Props.Load
import Verif.Props.Loaded

/-! # Helper lemmas: the converted file -/

namespace Berts.Convert

open Berts.Vocab (ascii decimal converterTokens writeBlobs unusedName)
open Berts.Load
open Berts.Graph (T pad)

variable {α : Type}

/-! ## Strings -/

theorem ascii_inj {a b : String} (h : ascii a = ascii b) : a = b := by
  unfold Vocab.ascii at h
  rw [← String.toList_inj]
  revert h
  generalize a.toList = l
  generalize b.toList = m
  intro h
  induction l generalizing m with
  | nil => cases m with
    | nil => rfl
    | cons x m => simp at h
  | cons x l ih => cases m with
    | nil => simp at h
    | cons y m =>
      simp only [List.map_cons, List.cons.injEq] at h
      rw [ih m h.2, Char.toNat_inj.mp h.1]

theorem ascii_beq (a b : String) : (ascii a == ascii b) = decide (a = b) := by
  by_cases h : a = b
  · simp [h]
  · have : ascii a ≠ ascii b := fun e => h (ascii_inj e)
    simp [h, this]

/-! ## Directory and data -/

/-- What becomes of a written tensor when the file is loaded. -/
def asLT (t : Tensor) : LT := ⟨t.name, t.ne.length, t.ne, t.type, t.data⟩

theorem loaded_directory (g : Gguf) (junk : Nat → Nat → Nat) (ts : List Tensor) (off i : Nat) (pre : List Nat)
    (hp : pre.length = g.dataOffset + off) :
    loadedFrom g (pre ++ dataBytes ts) junk i (directory off ts) = ts.map asLT := by
  induction ts generalizing off i pre with
  | nil => rfl
  | cons t ts ih =>
    have hle : t.data.length ≤ pad t.data.length 32 := le_pad _ _ (by decide)
    simp only [directory, loadedFrom, List.map_cons, dataBytes]
    congr 1
    · unfold loadedT asLT
      congr 1
      have hd : (pre ++ (t.data ++ List.replicate (pad t.data.length 32 - t.data.length) 0 ++ dataBytes ts)).drop
          (g.dataOffset + off) = t.data ++ List.replicate (pad t.data.length 32 - t.data.length) 0 ++ dataBytes ts := by
        rw [← hp, List.drop_left]
      simp only
      rw [hd, List.append_assoc, List.take_left]
      exact fill_complete _ _ _ rfl
    · have := ih (off + pad t.data.length 32) (i + 1)
        (pre ++ (t.data ++ List.replicate (pad t.data.length 32 - t.data.length) 0)) (by
          simp only [List.length_append, List.length_replicate]
          omega)
      rw [← this]
      simp only [List.append_assoc]

theorem directory_bounds (ts : List Tensor) (off : Nat) (t : TInfo) (ht : t ∈ directory off ts) :
    t.offset + t.nbytes ≤ off + (dataBytes ts).length := by
  induction ts generalizing off with
  | nil => cases ht
  | cons x ts ih =>
    have hle : x.data.length ≤ pad x.data.length 32 := le_pad _ _ (by decide)
    simp only [directory, List.mem_cons] at ht
    simp only [dataBytes, List.length_append, List.length_replicate]
    rcases ht with rfl | ht
    · simp only; omega
    · have := ih _ ht; omega

theorem directory_names (ts : List Tensor) (off : Nat) : (directory off ts).map (·.name) = ts.map (·.name) := by
  induction ts generalizing off with
  | nil => rfl
  | cons x ts ih => simp [directory, ih]

theorem directory_mem (ts : List Tensor) (off : Nat) (t : TInfo) (ht : t ∈ directory off ts) :
    ∃ x ∈ ts, t.name = x.name ∧ t.ne = x.ne ∧ t.type = x.type ∧ t.nbytes = x.data.length := by
  induction ts generalizing off with
  | nil => cases ht
  | cons x ts ih =>
    simp only [directory, List.mem_cons] at ht
    rcases ht with rfl | ht
    · exact ⟨x, by simp, rfl, rfl, rfl, rfl⟩
    · obtain ⟨y, hy, h⟩ := ih _ ht
      exact ⟨y, by simp [hy], h⟩

/-! ## Metadata -/

/-- First value of a key in a list of metadata. -/
def lookup (l : List (List Nat × Kv)) (k : String) : Option Kv := (l.find? fun p => p.1 == ascii k).map (·.2)

theorem lookup_append (a b : List (List Nat × Kv)) (k : String) :
    lookup (a ++ b) k = (lookup a k).or (lookup b k) := by
  unfold lookup
  rw [List.find?_append, Option.map_or]

theorem lookup_nil (k : String) : lookup [] k = none := rfl

theorem lookup_cons (k' : String) (v : Kv) (l : List (List Nat × Kv)) (k : String) :
    lookup ((ascii k', v) :: l) k = if k' = k then some v else lookup l k := by
  unfold lookup
  rw [List.find?_cons]
  simp only [ascii_beq]
  by_cases h : k' = k <;> simp [h]

theorem lookup_optBool (k' : String) (o : Option Bool) (k : String) :
    lookup (optBool k' o) k = if k' = k then o.map Kv.bool else none := by
  cases o with
  | none => simp [optBool, lookup_nil]
  | some b => simp [optBool, lookup_cons, lookup_nil]

theorem find_lookup (g : Gguf) (k : String) : find g k = lookup g.kv k := rfl

/-- The hyperparameters of a file. -/
def hparamList (arch act : Nat) (c : Config) : List (List Nat × Kv) :=
  [(ascii "berts.bert_type", .u32 arch), (ascii "berts.vocab_size", .u32 c.vocabSize),
    (ascii "berts.hidden_dim", .u32 c.hidden), (ascii "berts.n_layers", .u32 c.layers),
    (ascii "berts.attn_heads", .u32 c.heads), (ascii "berts.max_token", .u32 c.maxPos),
    (ascii "berts.intermediate_dim", .u32 c.interm), (ascii "berts.hidden_act", .u32 act),
    (ascii "berts.layer_norm_eps", .f64 c.eps), (ascii "berts.segments", .u32 c.typeVocab),
    (ascii "berts.initializer_range", .f64 c.initRange)]

theorem hparamKv_eq {c : Config} (h : ConfigOk c) {arch act : Nat} (ha : arch < 2 ^ 32) (hb : act < 2 ^ 32) :
    hparamKv arch act c = some (hparamList arch act c) := by
  have h1 := h.vocab; have h2 := h.hidden; have h3 := h.layers; have h4 := h.maxPos; have h5 := h.interm
  have h6 := h.types
  have h7 : c.heads < 2 ^ 32 := by have := Nat.le_of_dvd (by omega) h.heads; omega
  unfold hparamKv u32kv hparamList
  rw [if_pos ha, if_pos hb, if_pos (by omega), if_pos (by omega), if_pos (by omega), if_pos (by omega), if_pos (by omega),
    if_pos (by omega), if_pos (by omega)]
  rfl

/-- The special tokens of a file. -/
def specialList (cls mask pad sep unk : Nat) : List (List Nat × Kv) :=
  [(ascii "berts.cls_id", .u32 cls), (ascii "berts.mask_id", .u32 mask), (ascii "berts.pad_id", .u32 pad),
    (ascii "berts.sep_id", .u32 sep), (ascii "berts.unk_id", .u32 unk)]

theorem specialKv_eq {t : Tokenizer} {cls mask pad sep unk : Nat} (h1 : t.cls = some cls) (h2 : t.mask = some mask)
    (h3 : t.pad = some pad) (h4 : t.sep = some sep) (h5 : t.unk = some unk)
    (hb : cls < 2 ^ 32 ∧ mask < 2 ^ 32 ∧ pad < 2 ^ 32 ∧ sep < 2 ^ 32 ∧ unk < 2 ^ 32) :
    specialKv t = some (specialList cls mask pad sep unk) := by
  obtain ⟨b1, b2, b3, b4, b5⟩ := hb
  unfold specialKv
  rw [h1, h2, h3, h4, h5]
  simp only [optU32, u32kv]
  rw [if_pos b1, if_pos b2, if_pos b3, if_pos b4, if_pos b5]
  rfl

/-! ## Tensors of the file -/

/-- Keys that the head can have. -/
def headKeys (cls : Cls) : List String := headBias cls :: (headNames cls).map (·.1)

theorem head_key {cls : Cls} {lm : List (Param α)} (h : HeadOk cls lm) {p : Param α} (hp : p ∈ lm) :
    ∃ k ∈ headKeys cls, p.key = ascii k := by
  rcases h.keys p hp with e | ⟨k, hk, e⟩
  · exact ⟨_, by simp [headKeys], e⟩
  · exact ⟨k.1, by simp only [headKeys, List.mem_cons, List.mem_map]; exact .inr ⟨k, hk, rfl⟩, e⟩

theorem head_inj : ∀ cls ∈ [Cls.bert, Cls.roberta, Cls.other], ∀ a ∈ headKeys cls, ∀ b ∈ headKeys cls,
    lmKey cls (ascii a) = lmKey cls (ascii b) → a = b := by decide +kernel

theorem head_prefix : ∀ cls ∈ [Cls.bert, Cls.roberta], ∀ a ∈ headKeys cls,
    ascii "predictions." <+: lmKey cls (ascii a) ∧ (lmKey cls (ascii a)).length ≤ 52 := by decide +kernel

/-- The tensors of a converted file; `m` is the merge tensor, if any. -/
def fileTensors (ls ds : List Nat) (m : List Tensor) (enc : Bool → List α → List Nat) (f16 : Bool) (s : Source α) :
    List Tensor :=
  [⟨ascii "berts.vocab.size", [ls.length], 16, ls⟩, ⟨ascii "berts.vocab.data", [ds.length], 16, ds⟩] ++ m ++
    stateTensors enc f16 s.state ++ lmTensors enc f16 s.cls s.lm

/-- There is at most one merge tensor. -/
def MergeOk (m : List Tensor) : Prop := m = [] ∨ ∃ ne ty d, m = [⟨ascii "berts.merge.data", ne, ty, d⟩]

theorem prefix_clash {a b l : List Nat} (h1 : a <+: l) (h2 : b <+: l) (h : ¬ a <+: b) (h' : ¬ b <+: a) : False :=
  (List.prefix_or_prefix_of_prefix h1 h2).elim h h'

theorem place_clash {r : String} (hr : r ∈ ["embeddings.", "encoder.", "pooler."]) {k : List Nat}
    (h1 : ascii r <+: k) (h2 : ascii "predictions." <+: k) : False := by
  have : ∀ r ∈ ["embeddings.", "encoder.", "pooler."], ¬ ascii r <+: ascii "predictions." ∧
      ¬ ascii "predictions." <+: ascii r := by decide +kernel
  exact prefix_clash h1 h2 (this r hr).1 (this r hr).2

theorem merge_name {m : List Tensor} (hm : MergeOk m) {t : Tensor} (ht : t ∈ m) :
    t.name = ascii "berts.merge.data" := by
  rcases hm with rfl | ⟨ne, ty, d, rfl⟩
  · cases ht
  · simp only [List.mem_singleton] at ht
    rw [ht]

theorem state_names {enc : Bool → List α → List Nat} {f16 : Bool} {st : List (Param α)} :
    (stateTensors enc f16 st).map (·.name) = st.map fun p => ascii "berts.bert." ++ p.key := by
  simp [stateTensors, convTensor, Function.comp_def]

theorem lm_names {enc : Bool → List α → List Nat} {f16 : Bool} {cls : Cls} {lm : List (Param α)} :
    (lmTensors enc f16 cls lm).map (·.name) =
      (lm.filter fun p => lmKey cls p.key ≠ ascii "predictions.bias").map
        fun p => ascii "berts.bert." ++ lmKey cls p.key := by
  simp [lmTensors, convTensor, Function.comp_def]

theorem names_nodup {c : Config} {ls ds : List Nat} {m : List Tensor} {enc : Bool → List α → List Nat} {f16 : Bool}
    {s : Source α} (hcls : s.cls = .bert ∨ s.cls = .roberta) (hst : StateOk c s.state) (hlm : HeadOk s.cls s.lm)
    (hm : MergeOk m) : ((fileTensors ls ds m enc f16 s).map (·.name)).Nodup := by
  have hcls' : s.cls ∈ [Cls.bert, Cls.roberta] := by simpa using hcls
  have hcls'' : s.cls ∈ [Cls.bert, Cls.roberta, Cls.other] := by rcases hcls with h | h <;> simp [h]
  have hpre : ∀ k : List Nat, ∀ x ∈ [ascii "berts.vocab.size", ascii "berts.vocab.data", ascii "berts.merge.data"],
      x ≠ ascii "berts.bert." ++ k := by
    intro k x hx e
    have h : ∀ x ∈ [ascii "berts.vocab.size", ascii "berts.vocab.data", ascii "berts.merge.data"],
      ¬ ascii "berts.bert." <+: x := by decide +kernel
    exact h x hx (e ▸ List.prefix_append _ _)
  have h1 : (s.state.map fun p => ascii "berts.bert." ++ p.key).Nodup := by
    have := hst.distinct
    rw [List.nodup_iff_pairwise_ne, List.pairwise_map] at this ⊢
    exact this.imp fun h e => h (List.append_cancel_left e)
  have h2 : ((s.lm.filter fun p => lmKey s.cls p.key ≠ ascii "predictions.bias").map
      fun p => ascii "berts.bert." ++ lmKey s.cls p.key).Nodup := by
    have := hlm.distinct
    rw [List.nodup_iff_pairwise_ne, List.pairwise_map] at this ⊢
    refine (List.Pairwise.imp_of_mem (fun {a b} ha hb hab e => ?_) this).filter _
    obtain ⟨ka, hka, ea⟩ := head_key hlm ha
    obtain ⟨kb, hkb, eb⟩ := head_key hlm hb
    have e := List.append_cancel_left e
    rw [ea, eb] at e
    exact hab (by rw [ea, eb, head_inj _ hcls'' ka hka kb hkb e])
  have h3 : ∀ a ∈ s.state.map (fun p => ascii "berts.bert." ++ p.key),
      ∀ b ∈ (s.lm.filter fun p => lmKey s.cls p.key ≠ ascii "predictions.bias").map
        (fun p => ascii "berts.bert." ++ lmKey s.cls p.key), a ≠ b := by
    intro a ha b hb e
    rw [List.mem_map] at ha hb
    obtain ⟨p, hp, rfl⟩ := ha
    obtain ⟨q, hq, rfl⟩ := hb
    have e := List.append_cancel_left e
    obtain ⟨r, hr, hpr⟩ := hst.place p hp
    obtain ⟨k, hk, ek⟩ := head_key hlm (List.mem_filter.1 hq).1
    rw [ek] at e
    exact place_clash hr hpr (e ▸ (head_prefix _ hcls' k hk).1)
  unfold fileTensors
  rw [List.map_append, List.map_append, List.map_append, state_names, lm_names]
  have h4 : ∀ x ∈ (s.state.map fun p => ascii "berts.bert." ++ p.key) ++
      (s.lm.filter fun p => lmKey s.cls p.key ≠ ascii "predictions.bias").map
        (fun p => ascii "berts.bert." ++ lmKey s.cls p.key), ∃ k, x = ascii "berts.bert." ++ k := by
    intro x hx
    rw [List.mem_append, List.mem_map, List.mem_map] at hx
    rcases hx with ⟨p, _, rfl⟩ | ⟨p, _, rfl⟩ <;> exact ⟨_, rfl⟩
  rw [List.append_assoc, List.nodup_append]
  refine ⟨?_, List.nodup_append.2 ⟨h1, h2, h3⟩, ?_⟩
  · rcases hm with rfl | ⟨ne, ty, d, rfl⟩
    · simp only [List.map_cons, List.map_nil, List.append_nil]
      decide +kernel
    · simp only [List.map_cons, List.map_nil, List.cons_append, List.nil_append]
      decide +kernel
  · intro a ha b hb e
    obtain ⟨k, rfl⟩ := h4 b hb
    refine hpre k a ?_ e
    rw [List.mem_append] at ha
    rcases ha with ha | ha
    · simp only [List.map_cons, List.map_nil, List.mem_cons, List.not_mem_nil, or_false] at ha
      rcases ha with ha | ha <;> simp [ha]
    · rw [List.mem_map] at ha
      obtain ⟨t, ht, rfl⟩ := ha
      rw [merge_name hm ht]
      simp

theorem names_short {c : Config} {ls ds : List Nat} {m : List Tensor} {enc : Bool → List α → List Nat} {f16 : Bool}
    {s : Source α} (hcls : s.cls = .bert ∨ s.cls = .roberta) (hst : StateOk c s.state) (hlm : HeadOk s.cls s.lm)
    (hm : MergeOk m) : ∀ t ∈ fileTensors ls ds m enc f16 s, t.name.length < 64 := by
  have hcls' : s.cls ∈ [Cls.bert, Cls.roberta] := by simpa using hcls
  have h11 : (ascii "berts.bert.").length = 11 := by decide +kernel
  intro t ht
  unfold fileTensors at ht
  rw [List.mem_append, List.mem_append, List.mem_append] at ht
  rcases ht with ((ht | ht) | ht) | ht
  · simp only [List.mem_cons, List.not_mem_nil, or_false] at ht
    rcases ht with rfl | rfl <;> (simp only; decide +kernel)
  · rw [merge_name hm ht]; decide +kernel
  · simp only [stateTensors, List.mem_map] at ht
    obtain ⟨p, hp, rfl⟩ := ht
    have := hst.short p hp
    simp only [convTensor, List.length_append, h11]
    omega
  · simp only [lmTensors, List.mem_map] at ht
    obtain ⟨p, hp, rfl⟩ := ht
    obtain ⟨k, hk, ek⟩ := head_key hlm (List.mem_filter.1 hp).1
    have := (head_prefix _ hcls' k hk).2
    simp only [convTensor, List.length_append, h11, ek]
    omega

theorem find_map_name (ts : List Tensor) (k : List Nat) :
    getTensor (ts.map asLT) k = (ts.find? fun t => t.name == k).map asLT := by
  unfold getTensor
  rw [List.find?_map]
  rfl

theorem find_vocab_size {ls ds : List Nat} {m : List Tensor} {enc : Bool → List α → List Nat} {f16 : Bool}
    {s : Source α} : getTensor ((fileTensors ls ds m enc f16 s).map asLT) (ascii "berts.vocab.size") =
      some ⟨ascii "berts.vocab.size", 1, [ls.length], 16, ls⟩ := by
  rw [find_map_name]
  unfold fileTensors
  simp [List.find?_cons, asLT]

theorem find_vocab_data {ls ds : List Nat} {m : List Tensor} {enc : Bool → List α → List Nat} {f16 : Bool}
    {s : Source α} : getTensor ((fileTensors ls ds m enc f16 s).map asLT) (ascii "berts.vocab.data") =
      some ⟨ascii "berts.vocab.data", 1, [ds.length], 16, ds⟩ := by
  rw [find_map_name]
  unfold fileTensors
  simp [List.find?_cons, asLT, ascii_beq]

theorem find_merge {ls ds : List Nat} {ne : List Nat} {ty : Nat} {d : List Nat} {enc : Bool → List α → List Nat}
    {f16 : Bool} {s : Source α} :
    getTensor ((fileTensors ls ds [⟨ascii "berts.merge.data", ne, ty, d⟩] enc f16 s).map asLT)
      (ascii "berts.merge.data") = some ⟨ascii "berts.merge.data", ne.length, ne, ty, d⟩ := by
  rw [find_map_name]
  unfold fileTensors
  simp [List.find?_cons, asLT, ascii_beq]

/-- Squeezing and reversing a tame shape. -/
theorem tame_ne {shape : List Nat} (h : Tame shape) :
    let ne := (squeeze shape).reverse
    ne.getD 0 1 = shape.getLastD 1 ∧ ne.getD 1 1 = shape.dropLast.headD 1 ∧ ne.getD 2 1 = 1 ∧ ne.getD 3 1 = 1 ∧
    ((squeeze shape).length == 2) = wide shape := by
  rcases h with ⟨n, hn, rfl⟩ | ⟨a, b, ha, hb, rfl⟩
  · have : (n ≠ 1) := by omega
    simp [squeeze, wide, this]
  · have h1 : b ≠ 1 := by omega
    by_cases h2 : a = 1
    · simp [squeeze, wide, h1, h2]
    · have : 2 ≤ a := by omega
      simp [squeeze, wide, h1, h2, hb, this]

theorem suffix_eq (k s : List Nat) : (k.drop (k.length - s.length) == s) = s.isSuffixOf k := by
  rw [Bool.eq_iff_iff, List.isSuffixOf_iff_suffix, beq_iff_eq]
  constructor
  · intro h; rw [← h]; exact List.drop_suffix _ _
  · rintro ⟨t, rfl⟩
    simp

/-- A written parameter is decoded to the tensor that the parameter stands for. -/
theorem decoded_param {enc : Bool → List α → List Nat} {dec : Nat → List Nat → List α} {rnd : Bool → α → α}
    (hd : Codec enc dec rnd) (dflt : α) (f16 : Bool) (name : List Nat) {p : Param α} (hp : Tame p.shape) :
    decoded dec dflt (asLT (convTensor enc f16 name p)) = tensorFor rnd dflt f16 p := by
  obtain ⟨h0, h1, h2, h3, h4⟩ := tame_ne hp
  have h7 : (ascii ".weight").length = 7 := by decide +kernel
  have hq : (f16 && (squeeze p.shape).length == 2 && p.key.drop (p.key.length - 7) == ascii ".weight") = Half f16 p := by
    unfold Half
    rw [h4, ← suffix_eq, h7]
  unfold convTensor asLT decoded tensorFor
  simp only [hq, h0, h1, h2, h3]
  congr 1
  · cases Half f16 p <;> rfl
  · funext i j k l
    rw [Nat.one_mul, hd]

theorem headName_eq (s : String) :
    ascii "berts.bert." ++ ascii ("predictions." ++ s) = ascii ("berts.bert.predictions." ++ s) := by
  rw [← ascii_append, ← String.append_assoc]
  rfl

/-- The names of the head: which keys are written, and how. -/
theorem head_match {cls : Cls} (hcls : cls = .bert ∨ cls = .roberta) {k : String} (hk : k ∈ headKeys cls)
    (name : List Nat) :
    (decide (lmKey cls (ascii k) ≠ ascii "predictions.bias") && (ascii "berts.bert." ++ lmKey cls (ascii k) == name)) =
      (headNames cls).any fun x => ascii k == ascii x.1 && name == ascii ("berts.bert.predictions." ++ x.2) := by
  have table : ∀ cls ∈ [Cls.bert, Cls.roberta], ∀ k ∈ headKeys cls,
      (lmKey cls (ascii k) = ascii "predictions.bias" ∧ ∀ x ∈ headNames cls, k ≠ x.1) ∨
      ∃ x ∈ headNames cls, k = x.1 ∧ lmKey cls (ascii k) = ascii ("predictions." ++ x.2) ∧
        lmKey cls (ascii k) ≠ ascii "predictions.bias" ∧ ∀ y ∈ headNames cls, k = y.1 → y = x := by decide +kernel
  rcases table cls (by simpa using hcls) k hk with ⟨h1, h2⟩ | ⟨x, hx, h1, h2, h3, h4⟩
  · rw [h1]
    simp only [ne_eq, not_true, decide_false, Bool.false_and]
    symm
    rw [List.any_eq_false]
    intro x hx
    have := h2 x hx
    simp [ascii_beq, this]
  · rw [Bool.eq_iff_iff]
    simp only [h3, ne_eq, not_false_eq_true, decide_true, Bool.true_and, beq_iff_eq, List.any_eq_true, Bool.and_eq_true,
      ascii_beq, decide_eq_true_eq]
    rw [h2, headName_eq]
    constructor
    · intro e; exact ⟨x, hx, h1, e.symm⟩
    · rintro ⟨y, hy, e1, e2⟩
      rw [h4 y hy e1] at e2
      exact e2.symm

theorem find_congr {β : Type} (l : List β) (f g : β → Bool) (h : ∀ x ∈ l, f x = g x) : l.find? f = l.find? g := by
  induction l with
  | nil => rfl
  | cons a l ih =>
    rw [List.find?_cons, List.find?_cons, h a (by simp), ih fun x hx => h x (by simp [hx])]

/-- The tensors of the file, decoded, are those of the source model. -/
theorem tensors_source {c : Config} {ls ds : List Nat} {m : List Tensor} {enc : Bool → List α → List Nat}
    {dec : Nat → List Nat → List α} {rnd : Bool → α → α} (hd : Codec enc dec rnd) (dflt : α) (f16 : Bool)
    {s : Source α} (hcls : s.cls = .bert ∨ s.cls = .roberta) (hst : StateOk c s.state) (hlm : HeadOk s.cls s.lm)
    (hm : MergeOk m) {name : List Nat} (hn : ascii "berts.bert." <+: name) :
    (getTensor ((fileTensors ls ds m enc f16 s).map asLT) name).map (decoded dec dflt) =
      sourceAt rnd dflt f16 s name := by
  rw [find_map_name]
  unfold fileTensors sourceAt
  rw [List.find?_append, List.find?_append, List.find?_append]
  have hno : ∀ x ∈ [ascii "berts.vocab.size", ascii "berts.vocab.data", ascii "berts.merge.data"], x ≠ name := by
    have h : ∀ x ∈ [ascii "berts.vocab.size", ascii "berts.vocab.data", ascii "berts.merge.data"],
      ¬ ascii "berts.bert." <+: x := by decide +kernel
    intro x hx e
    exact h x hx (e ▸ hn)
  have e1 : [(⟨ascii "berts.vocab.size", [ls.length], 16, ls⟩ : Tensor),
      ⟨ascii "berts.vocab.data", [ds.length], 16, ds⟩].find? (fun t => t.name == name) = none := by
    simp [hno]
  have e2 : m.find? (fun t => t.name == name) = none := by
    rw [List.find?_eq_none]
    intro t ht
    rw [merge_name hm ht]
    simp [hno]
  rw [e1, e2, Option.none_or, Option.none_or, Option.map_map, Option.map_or, Option.map_or]
  congr 1
  · unfold stateTensors
    rw [List.find?_map, Option.map_map]
    simp only [Function.comp_def, convTensor]
    cases hf : s.state.find? (fun p => ascii "berts.bert." ++ p.key == name) with
    | none => rfl
    | some p =>
      have := decoded_param hd dflt f16 (ascii "berts.bert." ++ p.key) (hst.tame p (List.mem_of_find?_eq_some hf))
      simpa [convTensor] using this
  · unfold lmTensors
    rw [List.find?_map, Option.map_map, List.find?_filter]
    have hc := find_congr s.lm
      (fun a => decide (decide (lmKey s.cls a.key ≠ ascii "predictions.bias") = true ∧
        ((fun t : Tensor => t.name == name) ∘ fun p =>
          convTensor enc f16 (ascii "berts.bert." ++ lmKey s.cls p.key) p) a = true))
      (fun p => (headNames s.cls).any fun k => p.key == ascii k.1 && name == ascii ("berts.bert.predictions." ++ k.2))
      (by
        intro p hp
        obtain ⟨k, hk, ek⟩ := head_key hlm hp
        have := head_match hcls hk name
        simp only [Function.comp_def, convTensor, ek, Bool.decide_and, Bool.decide_eq_true]
        exact this)
    rw [hc]
    cases hf : s.lm.find? (fun p => (headNames s.cls).any fun k =>
        p.key == ascii k.1 && name == ascii ("berts.bert.predictions." ++ k.2)) with
    | none => rfl
    | some p =>
      exact congrArg some (decoded_param hd dflt f16 _ (hlm.tame p (List.mem_of_find?_eq_some hf)))

/-! ## Shapes -/

theorem same_key {l : List (Param α)} (h : (l.map (·.key)).Nodup) {p q : Param α} (hp : p ∈ l) (hq : q ∈ l)
    (e : p.key = q.key) : p = q := by
  induction l with
  | nil => cases hp
  | cons a l ih =>
    rw [List.map_cons, List.nodup_cons] at h
    rw [List.mem_cons] at hp hq
    rcases hp with rfl | hp
    · rcases hq with rfl | hq
      · rfl
      · exact absurd (List.mem_map.2 ⟨q, hq, e.symm⟩) h.1
    · rcases hq with rfl | hq
      · exact absurd (List.mem_map.2 ⟨p, hp, e⟩) h.1
      · exact ih h.2 hp hq

section
variable {c : Config} {ls ds : List Nat} {m : List Tensor} {enc : Bool → List α → List Nat} {f16 : Bool}
  {s : Source α} (hcls : s.cls = .bert ∨ s.cls = .roberta) (hst : StateOk c s.state) (hlm : HeadOk s.cls s.lm)
  (hm : MergeOk m)
include hcls hst hlm hm

theorem entry_param {t : TInfo} {key shape : List Nat} (ht : t ∈ directory 0 (fileTensors ls ds m enc f16 s))
    (hk : t.name = ascii "berts.bert." ++ key) (hp : HasParam s.state key shape) :
    Tame shape ∧ t.ne = (squeeze shape).reverse ∧ ((squeeze shape).length ≠ 2 → t.type = 0) := by
  obtain ⟨p, hp, rfl, rfl⟩ := hp
  refine ⟨hst.tame p hp, ?_⟩
  obtain ⟨x, hx, h1, h2, h3, _⟩ := directory_mem _ _ _ ht
  rw [h2, h3]
  rw [h1] at hk
  have hno : ∀ y ∈ [ascii "berts.vocab.size", ascii "berts.vocab.data", ascii "berts.merge.data"],
      y ≠ ascii "berts.bert." ++ p.key := by
    have h : ∀ x ∈ [ascii "berts.vocab.size", ascii "berts.vocab.data", ascii "berts.merge.data"],
      ¬ ascii "berts.bert." <+: x := by decide +kernel
    intro x hx e
    exact h x hx (e ▸ List.prefix_append _ _)
  unfold fileTensors at hx
  rw [List.mem_append, List.mem_append, List.mem_append] at hx
  rcases hx with ((hx | hx) | hx) | hx
  · simp only [List.mem_cons, List.not_mem_nil, or_false] at hx
    rcases hx with rfl | rfl
    · exact absurd hk (hno _ (by simp))
    · exact absurd hk (hno _ (by simp))
  · rw [merge_name hm hx] at hk
    exact absurd hk (hno _ (by simp))
  · simp only [stateTensors, List.mem_map] at hx
    obtain ⟨q, hq, rfl⟩ := hx
    have hk := List.append_cancel_left hk
    have := same_key hst.distinct hq hp hk
    subst this
    refine ⟨rfl, fun h => ?_⟩
    have : ((squeeze q.shape).length == 2) = false := by simpa using h
    simp [convTensor, this]
  · simp only [lmTensors, List.mem_map] at hx
    obtain ⟨q, hq, rfl⟩ := hx
    have hk : lmKey s.cls q.key = p.key := List.append_cancel_left hk
    obtain ⟨k, hk1, ek⟩ := head_key hlm (List.mem_filter.1 hq).1
    obtain ⟨r, hr, hpr⟩ := hst.place p hp
    have := (head_prefix s.cls (by simpa using hcls) k hk1).1
    rw [← ek, hk] at this
    exact (place_clash hr hpr this).elim

variable (kv : List (List Nat × Kv)) (off : Nat)

theorem matrix_of {key : List Nat} {a b : Nat} (hp : HasParam s.state key [a, b]) :
    IsMatrix ⟨kv, directory 0 (fileTensors ls ds m enc f16 s), off⟩ (ascii "berts.bert." ++ key) b a := by
  intro t ht hk
  obtain ⟨h1, h2, _⟩ := entry_param hcls hst hlm hm ht hk hp
  obtain ⟨e0, e1, e2, e3, _⟩ := tame_ne h1
  rw [h2]
  exact ⟨e0, e1, e2, e3⟩

theorem vector_of {key : List Nat} {n : Nat} (hp : HasParam s.state key [n]) :
    IsVector ⟨kv, directory 0 (fileTensors ls ds m enc f16 s), off⟩ (ascii "berts.bert." ++ key) n := by
  intro t ht hk
  obtain ⟨h1, h2, h3⟩ := entry_param hcls hst hlm hm ht hk hp
  obtain ⟨e0, e1, e2, e3, e4⟩ := tame_ne h1
  rw [h2]
  refine ⟨⟨e0, e1, e2, e3⟩, h3 ?_⟩
  simpa [wide] using e4

theorem base_matrix {k : String} {a b : Nat} (h : (k, [a, b]) ∈ baseParams c) :
    IsMatrix ⟨kv, directory 0 (fileTensors ls ds m enc f16 s), off⟩ (ascii ("berts.bert." ++ k)) b a := by
  rw [ascii_append]
  exact matrix_of hcls hst hlm hm kv off (hst.base _ h)

theorem base_vector {k : String} {n : Nat} (h : (k, [n]) ∈ baseParams c) :
    IsVector ⟨kv, directory 0 (fileTensors ls ds m enc f16 s), off⟩ (ascii ("berts.bert." ++ k)) n := by
  rw [ascii_append]
  exact vector_of hcls hst hlm hm kv off (hst.base _ h)

omit hcls hst hlm hm in
theorem layer_pre : ("berts.bert.encoder.layer." : String) = "berts.bert." ++ "encoder.layer." := by decide +kernel

omit hcls hst hlm hm in
theorem layer_name (i : Nat) (k : List Nat) : ascii "berts.bert.encoder.layer." ++ decimal i ++ k =
    ascii "berts.bert." ++ (ascii "encoder.layer." ++ decimal i ++ k) := by
  rw [layer_pre, ascii_append "berts.bert."]
  simp only [List.append_assoc]

theorem layer_matrix {i : Nat} (hi : i < c.layers) {k : String} {a b : Nat} (h : (k, [a, b]) ∈ layerParams c) :
    IsMatrix ⟨kv, directory 0 (fileTensors ls ds m enc f16 s), off⟩
      (ascii "berts.bert.encoder.layer." ++ decimal i ++ ascii ("." ++ k)) b a := by
  rw [layer_name]
  exact matrix_of hcls hst hlm hm kv off (hst.layers i hi (k, [a, b]) h)

theorem layer_vector {i : Nat} (hi : i < c.layers) {k : String} {n : Nat} (h : (k, [n]) ∈ layerParams c) :
    IsVector ⟨kv, directory 0 (fileTensors ls ds m enc f16 s), off⟩
      (ascii "berts.bert.encoder.layer." ++ decimal i ++ ascii ("." ++ k)) n := by
  rw [layer_name]
  exact vector_of hcls hst hlm hm kv off (hst.layers i hi (k, [n]) h)

theorem layer_shapes_of {i : Nat} (hi : i < c.layers) :
    LayerShapes ⟨kv, directory 0 (fileTensors ls ds m enc f16 s), off⟩ c.hidden c.interm i := by
  unfold LayerShapes
  refine ⟨?_, layer_matrix hcls hst hlm hm kv off hi (by simp [layerParams]),
    layer_matrix hcls hst hlm hm kv off hi (by simp [layerParams]), ?_,
    layer_vector hcls hst hlm hm kv off hi (by simp [layerParams])⟩
  · intro k hk
    refine layer_matrix hcls hst hlm hm kv off hi ?_
    simp only [List.mem_cons, List.not_mem_nil, or_false] at hk
    rcases hk with rfl | rfl | rfl | rfl <;> simp [layerParams]
  · intro k hk
    refine layer_vector hcls hst hlm hm kv off hi ?_
    simp only [List.mem_cons, List.not_mem_nil, or_false] at hk
    rcases hk with rfl | rfl | rfl | rfl | rfl | rfl | rfl | rfl | rfl <;> simp [layerParams]

theorem shapes_of : Shapes ⟨kv, directory 0 (fileTensors ls ds m enc f16 s), off⟩ c.hidden c.interm c.layers
    c.vocabSize c.maxPos c.typeVocab := by
  unfold Shapes
  exact ⟨base_matrix hcls hst hlm hm kv off (by simp [baseParams]),
    base_matrix hcls hst hlm hm kv off (by simp [baseParams]),
    base_matrix hcls hst hlm hm kv off (by simp [baseParams]),
    base_vector hcls hst hlm hm kv off (by simp [baseParams]),
    base_vector hcls hst hlm hm kv off (by simp [baseParams]),
    base_matrix hcls hst hlm hm kv off (by simp [baseParams]),
    base_vector hcls hst hlm hm kv off (by simp [baseParams]),
    fun i hi => layer_shapes_of hcls hst hlm hm kv off hi⟩

end

/-- The names of the parameters do not depend on the configuration. -/
def zeroConfig : Config := ⟨0, 0, 0, 0, 0, 0, [], 0, 0, 0⟩

theorem base_of (c : Config) {x : String} (h : x ∈ (baseParams zeroConfig).map (·.1)) : ∃ sh, (x, sh) ∈ baseParams c := by
  have : (baseParams zeroConfig).map (·.1) = (baseParams c).map (·.1) := rfl
  rw [this, List.mem_map] at h
  obtain ⟨⟨k, sh⟩, hk, rfl⟩ := h
  exact ⟨sh, hk⟩

theorem layer_of (c : Config) {x : String} (h : x ∈ (layerParams zeroConfig).map (·.1)) : ∃ sh, (x, sh) ∈ layerParams c := by
  have : (layerParams zeroConfig).map (·.1) = (layerParams c).map (·.1) := rfl
  rw [this, List.mem_map] at h
  obtain ⟨⟨k, sh⟩, hk, rfl⟩ := h
  exact ⟨sh, hk⟩

theorem required_of {c : Config} {ls ds : List Nat} {m : List Tensor} {enc : Bool → List α → List Nat} {f16 : Bool}
    {s : Source α} (hst : StateOk c s.state) :
    ∀ k ∈ requiredNames c.layers, k ∈ (directory 0 (fileTensors ls ds m enc f16 s)).map (·.name) := by
  have hmem : ∀ key sh, HasParam s.state key sh →
      ascii "berts.bert." ++ key ∈ (directory 0 (fileTensors ls ds m enc f16 s)).map (·.name) := by
    rintro key sh ⟨p, hp, rfl, _⟩
    rw [directory_names]
    unfold fileTensors
    rw [List.map_append, List.map_append, state_names, List.mem_append, List.mem_append]
    exact .inl (.inr (List.mem_map.2 ⟨p, hp, rfl⟩))
  have hbase : ∀ x ∈ ["embeddings.word_embeddings.weight", "embeddings.token_type_embeddings.weight",
      "embeddings.position_embeddings.weight", "embeddings.LayerNorm.weight", "embeddings.LayerNorm.bias",
      "pooler.dense.weight", "pooler.dense.bias"], x ∈ (baseParams zeroConfig).map (·.1) := by decide +kernel
  have hlayer : ∀ x ∈ ["attention.self.query", "attention.self.key", "attention.self.value", "attention.output.dense",
      "attention.output.LayerNorm", "intermediate.dense", "output.dense", "output.LayerNorm"],
      x ++ ".weight" ∈ (layerParams zeroConfig).map (·.1) ∧ x ++ ".bias" ∈ (layerParams zeroConfig).map (·.1) := by
    decide +kernel
  intro k hk
  unfold requiredNames at hk
  rw [List.mem_append] at hk
  rcases hk with hk | hk
  · rw [List.mem_map] at hk
    obtain ⟨x, hx, rfl⟩ := hk
    rw [ascii_append]
    obtain ⟨sh, h⟩ := base_of c (hbase x hx)
    exact hmem _ _ (hst.base _ h)
  · rw [List.mem_flatMap] at hk
    obtain ⟨i, hi, hk⟩ := hk
    rw [List.mem_range] at hi
    rw [List.mem_flatMap] at hk
    obtain ⟨x, hx, hk⟩ := hk
    have hl : ∀ y : String, (∃ sh, (y, sh) ∈ layerParams c) →
        ascii "berts.bert.encoder.layer." ++ decimal i ++ ascii ("." ++ y) ∈
          (directory 0 (fileTensors ls ds m enc f16 s)).map (·.name) := by
      rintro y ⟨sh, h⟩
      have := hmem _ _ (hst.layers i hi _ h)
      rw [show ("berts.bert.encoder.layer." : String) = "berts.bert." ++ "encoder.layer." from rfl, ascii_append]
      simpa only [List.append_assoc] using this
    rw [String.append_assoc, String.append_assoc, List.mem_cons, List.mem_singleton] at hk
    rcases hk with rfl | rfl
    · exact hl _ (layer_of c (hlayer x hx).1)
    · exact hl _ (layer_of c (hlayer x hx).2)

end Berts.Convert
