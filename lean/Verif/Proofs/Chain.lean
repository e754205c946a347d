import Verif.Spec.Chain
import Verif.Proofs.QuantizeFile

/-! # Helper lemmas: quantizing a converted file -/

namespace Berts.Convert

open Berts.Vocab (ascii decimal)
open Berts.Load
open Berts.Graph (T)
open Berts.Quantize (Conv Eligible FloatType Converted elements newT nelements Quantizable AlignedAs)

variable {α : Type}

theorem suffix_iff {a k s : List Nat} (h : s.length ≤ k.length) : s <:+ a ++ k ↔ s <:+ k := by
  constructor
  · intro h1
    exact List.suffix_of_suffix_length_le h1 (List.suffix_append a k) h
  · rintro ⟨t, rfl⟩
    exact ⟨a ++ t, by simp⟩

theorem eligible_iff (t : LT) : Eligible t ↔ t.ndims = 2 ∧ ascii "weight" <:+ t.name := by
  unfold Eligible
  constructor
  · rintro ⟨h, p, e⟩; exact ⟨h, p, e.symm⟩
  · rintro ⟨h, p, e⟩; exact ⟨h, p, e.symm⟩

/-- What becomes of a tensor. -/
def requant (cv : Conv α) (qtype : Nat) (t : LT) : LT :=
  if t.ndims == 2 && (ascii "weight").isSuffixOf t.name then
    { t with type := qtype, data := (cv.chunk qtype (elements cv t)).getD [] }
  else t

theorem requant_eq {cv : Conv α} {qtype : Nat} {p : LT × Nat × List Nat} (h : Converted cv qtype p.1 p.2) :
    newT p = requant cv qtype p.1 := by
  unfold requant newT
  by_cases he : Eligible p.1
  · have h1 := h.1 he
    rw [eligible_iff] at he
    rw [if_pos (by simp [he.1, he.2]), h1.1, h1.2]
    rfl
  · have h1 := h.2 he
    rw [eligible_iff] at he
    rw [if_neg (by simpa using he), h1]

theorem find_source {ls ds : List Nat} {m : List Tensor} {enc : Bool → List α → List Nat}
    {f16 : Bool} {s : Source α} (hcls : s.cls = .bert ∨ s.cls = .roberta) (hlm : HeadOk s.cls s.lm)
    (hm : MergeOk m) {name : List Nat} (hn : ascii "berts.bert." <+: name) {D : Tensor → T α} {E : Param α → T α}
    (h1 : ∀ p ∈ s.state, D (convTensor enc f16 (ascii "berts.bert." ++ p.key) p) = E p)
    (h2 : ∀ p ∈ s.lm, D (convTensor enc f16 (ascii "berts.bert." ++ lmKey s.cls p.key) p) = E p) :
    ((fileTensors ls ds m enc f16 s).find? fun t => t.name == name).map D =
      ((s.state.find? fun p => ascii "berts.bert." ++ p.key == name).or
        (s.lm.find? fun p => (headNames s.cls).any fun k =>
          p.key == ascii k.1 && name == ascii ("berts.bert.predictions." ++ k.2))).map E := by
  unfold fileTensors
  rw [List.find?_append, List.find?_append, List.find?_append]
  have hno : ∀ x ∈ [ascii "berts.vocab.size", ascii "berts.vocab.data", ascii "berts.merge.data"], x ≠ name := by
    have h : ∀ x ∈ [ascii "berts.vocab.size", ascii "berts.vocab.data", ascii "berts.merge.data"],
      ¬ ascii "berts.bert." <+: x := by decide +kernel
    intro x hx e
    exact h x hx (e ▸ hn)
  have e1 : [(⟨ascii "berts.vocab.size", [ls.length], 16, ls⟩ : Tensor),
      ⟨ascii "berts.vocab.data", [ds.length], 16, ds⟩].find? (fun t => t.name == name) = none := by
    simp [hno]
  have e2 : m.find? (fun t => t.name == name) = none := by
    rw [List.find?_eq_none]
    intro t ht
    rw [merge_name hm ht]
    simp [hno]
  rw [e1, e2, Option.none_or, Option.none_or, Option.map_or, Option.map_or]
  congr 1
  · unfold stateTensors
    rw [List.find?_map, Option.map_map]
    simp only [Function.comp_def, convTensor]
    cases hf : s.state.find? (fun p => ascii "berts.bert." ++ p.key == name) with
    | none => rfl
    | some p =>
      have := h1 p (List.mem_of_find?_eq_some hf)
      simpa [convTensor] using this
  · unfold lmTensors
    rw [List.find?_map, Option.map_map, List.find?_filter]
    have hc := find_congr s.lm
      (fun a => decide (decide (lmKey s.cls a.key ≠ ascii "predictions.bias") = true ∧
        ((fun t : Tensor => t.name == name) ∘ fun p =>
          convTensor enc f16 (ascii "berts.bert." ++ lmKey s.cls p.key) p) a = true))
      (fun p => (headNames s.cls).any fun k => p.key == ascii k.1 && name == ascii ("berts.bert.predictions." ++ k.2))
      (by
        intro p hp
        obtain ⟨k, hk, ek⟩ := head_key hlm hp
        have := head_match hcls hk name
        simp only [Function.comp_def, convTensor, ek, Bool.decide_and, Bool.decide_eq_true]
        exact this)
    rw [hc]
    cases hf : s.lm.find? (fun p => (headNames s.cls).any fun k =>
        p.key == ascii k.1 && name == ascii ("berts.bert.predictions." ++ k.2)) with
    | none => rfl
    | some p => exact congrArg some (h2 p (List.mem_of_find?_eq_some hf))

/-- The number of elements of a tame shape. -/
theorem tame_prod {shape : List Nat} (h : Tame shape) :
    (squeeze shape).reverse.foldl (· * ·) 1 = shape.foldl (· * ·) 1 ∧
    (wide shape = true → (squeeze shape).reverse = shape.reverse) := by
  rcases h with ⟨n, hn, rfl⟩ | ⟨a, b, ha, hb, rfl⟩
  · have : (n ≠ 1) := by omega
    simp [squeeze, wide, this]
  · have h1 : b ≠ 1 := by omega
    by_cases h2 : a = 1
    · simp [squeeze, wide, h1, h2]
    · simp [squeeze, h1, h2, Nat.mul_comm]

theorem half_eq (f16 : Bool) {p : Param α} (hp : Tame p.shape) :
    (f16 && (squeeze p.shape).length == 2 && p.key.drop (p.key.length - 7) == ascii ".weight") = Half f16 p := by
  have h7 : (ascii ".weight").length = 7 := by decide +kernel
  unfold Half
  rw [(tame_ne hp).2.2.2.2, ← suffix_eq, h7]

section
variable {s : Source α} {enc : Bool → List α → List Nat} {dec : Nat → List Nat → List α} {rnd : Bool → α → α} {f16 : Bool}
  {chunk : Nat → List α → Option (List Nat)} {qz : List α → List α} {qtype : Nat} {nb : Nat → List Nat → Nat}
  (hd : Codec enc dec rnd) (hq : QuantOk s enc dec rnd f16 chunk qz qtype nb)
include hd

/-- The elements of a stored parameter. -/
theorem stored_elements {p : Param α} (hp : Tame p.shape) (name : List Nat) :
    elements ⟨dec 0, dec 1, chunk⟩ (asLT (convTensor enc f16 name p)) = stored rnd f16 p := by
  unfold elements asLT convTensor stored
  simp only [half_eq f16 hp]
  have := hd (Half f16 p) p.elems
  cases h : Half f16 p
  · simpa [h] using this
  · simpa [h] using this

include hq in
theorem requant_param (dflt : α) {p : Param α} (hm : p ∈ s.state ++ s.lm) (hp : Tame p.shape) {name : List Nat}
    (hn : ascii "weight" <:+ name ↔ ascii "weight" <:+ p.key) :
    decoded dec dflt (requant ⟨dec 0, dec 1, chunk⟩ qtype (asLT (convTensor enc f16 name p))) =
      quantFor rnd qz qtype dflt f16 p := by
  have hlen : (asLT (convTensor enc f16 name p)).ndims = (squeeze p.shape).length := by
    simp [asLT, convTensor]
  have hcond : ((asLT (convTensor enc f16 name p)).ndims == 2 &&
      (ascii "weight").isSuffixOf (asLT (convTensor enc f16 name p)).name) = Reduced p := by
    unfold Reduced
    rw [hlen, (tame_ne hp).2.2.2.2]
    congr 1
    rw [Bool.eq_iff_iff, List.isSuffixOf_iff_suffix, List.isSuffixOf_iff_suffix]
    exact hn
  unfold requant quantFor
  rw [hcond]
  by_cases hr : Reduced p = true
  · obtain ⟨b, h1, _, _, h4⟩ := hq.chunks p hm hr
    rw [if_pos hr, if_pos hr, stored_elements hd hp]
    simp only [h1, Option.getD_some]
    obtain ⟨e0, e1, e2, e3, _⟩ := tame_ne hp
    unfold decoded asLT convTensor
    simp only [e0, e1, e2, e3, h4, Nat.one_mul]
  · rw [if_neg hr, if_neg hr]
    exact decoded_param hd dflt f16 name hp

end

/-- In which cases the names of parameters of the head end in `weight`. -/
theorem head_weight {cls : Cls} (hcls : cls = .bert ∨ cls = .roberta) : ∀ k ∈ headKeys cls,
    (ascii "weight" <:+ ascii "berts.bert." ++ lmKey cls (ascii k) ↔ ascii "weight" <:+ ascii k) ∧
    (10 ∉ lmKey cls (ascii k) ∧ 13 ∉ lmKey cls (ascii k)) ∧
    (ascii "LayerNorm.weight" <:+ ascii "berts.bert." ++ lmKey cls (ascii k) →
      ascii "LayerNorm.weight" <:+ ascii k ∨ ascii "layer_norm.weight" <:+ ascii k) := by
  rcases hcls with rfl | rfl <;> decide +kernel

theorem place_long {r : String} (hr : r ∈ ["embeddings.", "encoder.", "pooler."]) {k : List Nat} (h : ascii r <+: k) :
    6 ≤ k.length := by
  have := h.length_le
  have h2 : ∀ r ∈ ["embeddings.", "encoder.", "pooler."], 6 ≤ (ascii r).length := by decide +kernel
  have := h2 r hr
  omega

/-- A suffix that does not reach into the front. -/
theorem front_suffix {k : List Nat} (h : ascii "LayerNorm.weight" <:+ ascii "berts.bert." ++ k) :
    ascii "LayerNorm.weight" <:+ k := by
  by_cases hl : 16 ≤ k.length
  · exact (suffix_iff (by have : (ascii "LayerNorm.weight").length = 16 := by decide +kernel
                          omega)).1 h
  · exfalso
    have h2 : k <:+ ascii "LayerNorm.weight" := List.suffix_of_suffix_length_le (List.suffix_append _ _) h (by
      have : (ascii "LayerNorm.weight").length = 16 := by decide +kernel
      omega)
    obtain ⟨t, ht⟩ := h2
    have h3 : t <:+ ascii "berts.bert." := by
      rw [← ht] at h
      obtain ⟨u, hu⟩ := h
      rw [← List.append_assoc] at hu
      exact ⟨u, List.append_cancel_right hu⟩
    have h4 : t <+: ascii "LayerNorm.weight" := ⟨k, ht⟩
    have h5 : t ≠ [] := by
      rintro rfl
      rw [List.nil_append] at ht
      have : (ascii "LayerNorm.weight").length = 16 := by decide +kernel
      rw [← ht] at this
      omega
    obtain ⟨x, t', rfl⟩ := List.exists_cons_of_ne_nil h5
    obtain ⟨v, hv⟩ := h4
    have hx : x = 76 := by
      have h76 : (ascii "LayerNorm.weight").head? = some 76 := by decide +kernel
      rw [← hv] at h76
      simpa using h76
    obtain ⟨u, hu⟩ := h3
    have : ∀ y ∈ ascii "berts.bert.", y ≠ 76 := by decide +kernel
    exact this x (by rw [← hu]; simp) hx

theorem le_length (k n : Nat) : (Quantize.le k n).length = k := by
  induction k generalizing n with
  | zero => rfl
  | succ k ih => simp [Quantize.le, ih]

theorem words_length (l : List Nat) : (l.flatMap (Quantize.le 4)).length = 4 * l.length := by
  induction l with
  | nil => rfl
  | cons a l ih => rw [List.flatMap_cons, List.length_append, ih, le_length, List.length_cons]; omega

theorem directory_entry (ts : List Tensor) (off : Nat) (t : TInfo) (ht : t ∈ directory off ts) :
    ∃ x ∈ ts, t.name = x.name ∧ t.ndims = x.ne.length ∧ t.ne = x.ne ∧ t.type = x.type ∧ t.nbytes = x.data.length := by
  induction ts generalizing off with
  | nil => cases ht
  | cons x ts ih =>
    simp only [directory, List.mem_cons] at ht
    rcases ht with rfl | ht
    · exact ⟨x, by simp, rfl, rfl, rfl, rfl, rfl⟩
    · obtain ⟨y, hy, h⟩ := ih _ ht
      exact ⟨y, by simp [hy], h⟩

/-- The merge tensor, if any. -/
def MergeFile (m : List Tensor) : Prop :=
  m = [] ∨ ∃ l : List Nat, m = [⟨ascii "berts.merge.data", [l.length], 18, l.flatMap (Quantize.le 4)⟩]

theorem MergeFile.ok {m : List Tensor} (h : MergeFile m) : MergeOk m := by
  rcases h with h | ⟨l, h⟩
  · exact .inl h
  · exact .inr ⟨_, _, _, h⟩

section
variable {c : Config} {ls ds : List Nat} {m : List Tensor} {s : Source α} {enc : Bool → List α → List Nat}
  {dec : Nat → List Nat → List α} {rnd : Bool → α → α} {f16 : Bool}
  {chunk : Nat → List α → Option (List Nat)} {qz : List α → List α} {qtype : Nat} {nb : Nat → List Nat → Nat}
  (hcls : s.cls = .bert ∨ s.cls = .roberta) (hst : StateOk c s.state) (hlm : HeadOk s.cls s.lm) (hm : MergeFile m)
  (hd : Codec enc dec rnd) (hq : QuantOk s enc dec rnd f16 chunk qz qtype nb)
include hcls hst hlm hm hd hq

omit hd in
/-- The tensors of a file: vocabulary and merges (vectors not of a float type), or parameters. -/
theorem file_cases {x : Tensor} (hx : x ∈ fileTensors ls ds m enc f16 s) :
    (x.ne.length = 1 ∧ x.data.length = nb x.type x.ne ∧ 10 ∉ x.name ∧ 13 ∉ x.name ∧
      ¬ ascii "LayerNorm.weight" <:+ x.name) ∨
    ∃ p name, p ∈ s.state ++ s.lm ∧ Tame p.shape ∧ x = convTensor enc f16 name p ∧
      (ascii "weight" <:+ name ↔ ascii "weight" <:+ p.key) ∧ (10 ∉ name ∧ 13 ∉ name) ∧
      (ascii "LayerNorm.weight" <:+ name → wide p.shape = false) := by
  unfold fileTensors at hx
  rw [List.mem_append, List.mem_append, List.mem_append] at hx
  rcases hx with ((hx | hx) | hx) | hx
  · left
    simp only [List.mem_cons, List.not_mem_nil, or_false] at hx
    rcases hx with rfl | rfl
    · exact ⟨rfl, (hq.sizes.i8 _).symm, by simp only; decide +kernel, by simp only; decide +kernel,
        by simp only; decide +kernel⟩
    · exact ⟨rfl, (hq.sizes.i8 _).symm, by simp only; decide +kernel, by simp only; decide +kernel,
        by simp only; decide +kernel⟩
  · left
    rcases hm with rfl | ⟨l, rfl⟩
    · cases hx
    · simp only [List.mem_cons, List.not_mem_nil, or_false] at hx
      subst hx
      exact ⟨rfl, by simp only; rw [words_length, hq.sizes.i32], by simp only; decide +kernel, by simp only; decide +kernel,
        by simp only; decide +kernel⟩
  · right
    simp only [stateTensors, List.mem_map] at hx
    obtain ⟨p, hp, rfl⟩ := hx
    have hp' : p ∈ s.state ++ s.lm := List.mem_append_left _ hp
    have hfr : 10 ∉ ascii "berts.bert." ∧ 13 ∉ ascii "berts.bert." := by decide +kernel
    obtain ⟨r, hr, hpl⟩ := hst.place p hp
    have h6 : (ascii "weight").length = 6 := by decide +kernel
    refine ⟨p, _, hp', hst.tame p hp, rfl, suffix_iff (by rw [h6]; exact place_long hr hpl), ?_, fun h => ?_⟩
    · simp only [List.mem_append, not_or]
      exact ⟨⟨hfr.1, (hq.lines p hp).1⟩, hfr.2, (hq.lines p hp).2⟩
    · exact hq.norms p hp' (.inl (front_suffix h))
  · right
    simp only [lmTensors, List.mem_map] at hx
    obtain ⟨p, hp, rfl⟩ := hx
    have hp1 := (List.mem_filter.1 hp).1
    have hp' : p ∈ s.state ++ s.lm := List.mem_append_right _ hp1
    have hfr : 10 ∉ ascii "berts.bert." ∧ 13 ∉ ascii "berts.bert." := by decide +kernel
    obtain ⟨k, hk, ek⟩ := head_key hlm hp1
    obtain ⟨h1, h2, h3⟩ := head_weight hcls k hk
    rw [← ek] at h1 h2 h3
    refine ⟨p, _, hp', hlm.tame p hp1, rfl, h1, ?_, fun h => ?_⟩
    · simp only [List.mem_append, not_or]
      exact ⟨⟨hfr.1, h2.1⟩, hfr.2, h2.2⟩
    · exact hq.norms p hp' (h3 h)

omit hcls hst hlm hm hd in
theorem param_size {p : Param α} (hp : p ∈ s.state ++ s.lm) (ht : Tame p.shape) (name : List Nat) :
    (convTensor enc f16 name p).data.length = nb (convTensor enc f16 name p).type (convTensor enc f16 name p).ne := by
  unfold convTensor
  simp only [half_eq f16 ht, hq.bytes, hq.elems p hp]
  rw [← (tame_prod ht).1]
  cases Half f16 p
  · simp [hq.sizes.f32]
  · simp [hq.sizes.f16]

/-- A converted file can be quantized. -/
theorem file_quantizable {kv : List (List Nat × Kv)} (hk : (kv.map (·.1)).Nodup) (ha : AlignedAs kv 32) (off : Nat) :
    Quantizable ⟨dec 0, dec 1, chunk⟩ nb qtype ⟨kv, directory 0 (fileTensors ls ds m enc f16 s), off⟩
      ((fileTensors ls ds m enc f16 s).map asLT) := by
  refine ⟨hk, ha, ?_, ?_, ?_, ?_⟩
  · intro t ht
    obtain ⟨x, hx, e, _⟩ := directory_entry _ _ _ ht
    rw [e]
    rcases file_cases hcls hst hlm hm hq hx with ⟨_, _, h1, h2, _⟩ | ⟨p, name, _, _, rfl, _, h, _⟩
    · exact ⟨h1, h2⟩
    · exact h
  · intro t ht
    obtain ⟨x, hx, _, _, e1, e2, e3⟩ := directory_entry _ _ _ ht
    rw [e1, e2, e3]
    rcases file_cases hcls hst hlm hm hq hx with ⟨_, h, _⟩ | ⟨p, name, hp, ht, rfl, _⟩
    · exact h
    · exact param_size hq hp ht name
  · intro t ht he
    rw [List.mem_map] at ht
    obtain ⟨x, hx, rfl⟩ := ht
    rcases file_cases hcls hst hlm hm hq hx with ⟨h, _⟩ | ⟨p, name, hp, ht, rfl, _⟩
    · exact absurd he.1 (by simp [asLT, h])
    · unfold FloatType asLT convTensor
      simp only [half_eq f16 ht]
      cases Half f16 p <;> simp
  · intro t ht he
    rw [List.mem_map] at ht
    obtain ⟨x, hx, rfl⟩ := ht
    rcases file_cases hcls hst hlm hm hq hx with ⟨h, _⟩ | ⟨p, name, hp, ht, rfl, hw, _⟩
    · exact absurd he.1 (by simp [asLT, h])
    · rw [stored_elements hd ht]
      have hwide : wide p.shape = true := by
        have := he.1
        rw [← (tame_ne ht).2.2.2.2]
        simpa [asLT, convTensor] using this
      have hr : Reduced p = true := by
        unfold Reduced
        rw [hwide, Bool.true_and, List.isSuffixOf_iff_suffix]
        obtain ⟨_, x, hx⟩ := he
        exact hw.1 ⟨x, hx.symm⟩
      obtain ⟨b, h1, h2, h3, _⟩ := hq.chunks p hp hr
      refine ⟨b, h1, ?_, ?_⟩
      · rw [h2, ← (tame_prod ht).2 hwide]
        rfl
      · rw [hq.elems p hp, ← (tame_prod ht).1] at h3
        exact h3

/-- The tensors after quantization, decoded. -/
theorem quantized_source (dflt : α) {ps : List (LT × Nat × List Nat)}
    (h2 : ps.map (·.1) = (fileTensors ls ds m enc f16 s).map asLT)
    (h3 : ∀ p ∈ ps, Converted ⟨dec 0, dec 1, chunk⟩ qtype p.1 p.2) {name : List Nat} (hn : ascii "berts.bert." <+: name) :
    (getTensor (ps.map newT) name).map (decoded dec dflt) = quantAt rnd qz qtype dflt f16 s name := by
  have e : ps.map newT = (fileTensors ls ds m enc f16 s).map fun t => requant ⟨dec 0, dec 1, chunk⟩ qtype (asLT t) := by
    rw [List.map_congr_left fun p hp => requant_eq (h3 p hp)]
    have := congrArg (List.map (requant ⟨dec 0, dec 1, chunk⟩ qtype)) h2
    rw [List.map_map, List.map_map] at this
    exact this
  have hname : ∀ t, (requant ⟨dec 0, dec 1, chunk⟩ qtype (asLT t)).name = t.name := by
    intro t; unfold requant; split <;> rfl
  rw [e]
  unfold getTensor
  rw [List.find?_map, Option.map_map]
  have hf : ((fun t : LT => t.name == name) ∘ fun t => requant ⟨dec 0, dec 1, chunk⟩ qtype (asLT t)) =
      fun t : Tensor => t.name == name := by
    funext t
    simp only [Function.comp_def, hname]
  rw [hf]
  refine find_source hcls hlm hm.ok hn ?_ ?_
  · intro p hp
    obtain ⟨r, hr, hpl⟩ := hst.place p hp
    have h6 : (ascii "weight").length = 6 := by decide +kernel
    exact requant_param hd hq dflt (List.mem_append_left _ hp) (hst.tame p hp)
      (suffix_iff (by rw [h6]; exact place_long hr hpl))
  · intro p hp
    obtain ⟨k, hk, ek⟩ := head_key hlm hp
    have h1 := (head_weight hcls k hk).1
    rw [← ek] at h1
    exact requant_param hd hq dflt (List.mem_append_right _ hp) (hlm.tame p hp) h1

omit hd in
/-- The normalisations are vectors. -/
theorem file_norms (kv : List (List Nat × Kv)) (off : Nat) :
    ∀ t ∈ (⟨kv, directory 0 (fileTensors ls ds m enc f16 s), off⟩ : Gguf).dir,
      (∃ x, t.name = x ++ ascii "LayerNorm.weight") → t.ndims ≠ 2 := by
  rintro t ht ⟨y, hy⟩
  obtain ⟨x, hx, e1, e2, _⟩ := directory_entry _ _ _ ht
  rw [e2]
  rcases file_cases hcls hst hlm hm hq hx with ⟨h, _⟩ | ⟨p, name, _, ht, rfl, _, _, h⟩
  · omega
  · have hw := h ⟨y, by rw [← hy, e1]; rfl⟩
    have := (tame_ne ht).2.2.2.2
    rw [hw] at this
    simpa [convTensor] using this

end

theorem optBool_sub (k : String) (o : Option Bool) : ((optBool k o).map (·.1)).Sublist [ascii k] := by
  cases o <;> simp [optBool]

theorem bert_keys (f16 : Bool) (s : Source α) (cls mask pad sep unk : Nat) :
    ((bertKv f16 s cls mask pad sep unk).map (·.1)).Nodup := by
  have h : (["general.architecture", "general.name", "general.alignment", "berts.bert_type", "berts.vocab_size",
      "berts.hidden_dim", "berts.n_layers", "berts.attn_heads", "berts.max_token", "berts.intermediate_dim",
      "berts.hidden_act", "berts.layer_norm_eps", "berts.segments", "berts.initializer_range", "berts.cls_id",
      "berts.mask_id", "berts.pad_id", "berts.sep_id", "berts.unk_id"].map ascii ++ [ascii "berts.do_lower_case"] ++
      [ascii "berts.do_basic_tokenize"] ++ [ascii "berts.tokenize_chinese_chars"] ++ [ascii "berts.strip_accent"] ++
      [ascii "general.file_type"]).Nodup := by decide +kernel
  refine h.sublist ?_
  have e : (bertKv f16 s cls mask pad sep unk).map (·.1) =
      (["general.architecture", "general.name", "general.alignment", "berts.bert_type", "berts.vocab_size",
      "berts.hidden_dim", "berts.n_layers", "berts.attn_heads", "berts.max_token", "berts.intermediate_dim",
      "berts.hidden_act", "berts.layer_norm_eps", "berts.segments", "berts.initializer_range", "berts.cls_id",
      "berts.mask_id", "berts.pad_id", "berts.sep_id", "berts.unk_id"].map ascii ++
      (optBool "berts.do_lower_case" s.tok.lowerCase).map (·.1) ++ (optBool "berts.do_basic_tokenize" s.tok.basic).map (·.1) ++
      (optBool "berts.tokenize_chinese_chars" s.tok.chinese).map (·.1) ++
      (optBool "berts.strip_accent" s.tok.strip).map (·.1) ++ [ascii "general.file_type"]) := by
    simp [bertKv, hparamList, specialList]
  rw [e]
  exact (((((List.Sublist.refl _).append (optBool_sub _ _)).append (optBool_sub _ _)).append (optBool_sub _ _)).append
    (optBool_sub _ _)).append (List.Sublist.refl _)

theorem roberta_keys (f16 : Bool) (s : Source α) (sp : Vocab.Special) : ((robertaKv f16 s sp).map (·.1)).Nodup := by
  have h : (["general.architecture", "general.name", "general.alignment", "berts.bert_type", "berts.vocab_size",
      "berts.hidden_dim", "berts.n_layers", "berts.attn_heads", "berts.max_token", "berts.intermediate_dim",
      "berts.hidden_act", "berts.layer_norm_eps", "berts.segments", "berts.initializer_range", "berts.cls_id",
      "berts.mask_id", "berts.pad_id", "berts.sep_id", "berts.unk_id", "berts.bos_id", "berts.eos_id",
      "general.file_type"].map ascii).Nodup := by decide +kernel
  have e : (robertaKv f16 s sp).map (·.1) = ["general.architecture", "general.name", "general.alignment", "berts.bert_type", "berts.vocab_size",
      "berts.hidden_dim", "berts.n_layers", "berts.attn_heads", "berts.max_token", "berts.intermediate_dim",
      "berts.hidden_act", "berts.layer_norm_eps", "berts.segments", "berts.initializer_range", "berts.cls_id",
      "berts.mask_id", "berts.pad_id", "berts.sep_id", "berts.unk_id", "berts.bos_id", "berts.eos_id",
      "general.file_type"].map ascii := by
    simp [robertaKv, hparamList, specialList]
  rw [e]
  exact h

theorem bert_aligned (f16 : Bool) (s : Source α) (cls mask pad sep unk : Nat) :
    AlignedAs (bertKv f16 s cls mask pad sep unk) 32 := by
  refine .inl ((u32_iff _ _ _).1 ?_)
  simp [u32, find_lookup, bertKv, hparamList, specialList, lookup_cons]

theorem roberta_aligned (f16 : Bool) (s : Source α) (sp : Vocab.Special) : AlignedAs (robertaKv f16 s sp) 32 := by
  refine .inl ((u32_iff _ _ _).1 ?_)
  simp [u32, find_lookup, robertaKv, hparamList, specialList, lookup_cons]

theorem quantize_described {w : World α} {c : Ctx α} {l : Ledger} {g : Gguf} {bytes : List Nat}
    (h : load w = .ok (some c, l)) (hg : w.gguf = some g) (hf : w.file = some bytes) (hn : NamesOk g)
    (ho : ∀ t ∈ g.dir, g.dataOffset + t.offset < 2 ^ 64) {cv : Quantize.Conv F} {qtype : Nat}
    {ps : List (LT × Nat × List Nat)} {infos : List Quantize.Info} (h2 : ps.map (·.1) = c.tensors)
    (h3 : ∀ p ∈ ps, Quantize.Converted cv qtype p.1 p.2) (h4 : infos.length = ps.length)
    (h5 : ∀ (i : Nat) p, ps[i]? = some p → infos[i]? = some ⟨p.1.name, p.1.ndims, p.1.ne, p.2.1, p.2.2.length,
        Quantize.offsetOf 32 (ps.map (·.2.2)) i⟩) : Described g qtype infos := by
  have hsz : (infos.map fun e => Quantize.up 32 e.size) = (ps.map (·.2.2)).map fun d => Quantize.up 32 d.length := by
    apply List.ext_getElem?
    intro i
    rw [List.getElem?_map, List.getElem?_map, List.getElem?_map]
    cases hpi : ps[i]? with
    | none =>
      have : ps.length ≤ i := by simpa using hpi
      rw [List.getElem?_eq_none (by omega)]
      rfl
    | some p => rw [h5 i p hpi]; rfl
  have hof : ∀ e ∈ infos, ∃ (i : Nat) (p : LT × Nat × List Nat), ps[i]? = some p ∧
      e = ⟨p.1.name, p.1.ndims, p.1.ne, p.2.1, p.2.2.length, Quantize.offsetOf 32 (ps.map (·.2.2)) i⟩ := by
    intro e he
    obtain ⟨i, hi, rfl⟩ := List.mem_iff_getElem.1 he
    have hp : ps[i]? = some (ps[i]'(by omega)) := List.getElem?_eq_getElem (by omega)
    have := h5 i _ hp
    rw [List.getElem?_eq_getElem hi] at this
    injection this with this
    exact ⟨i, _, hp, this⟩
  refine ⟨?_, fun e he => ?_, fun e he => ?_⟩
  · have := congrArg List.length (Quantize.tensor_names h hg hf hn ho)
    rw [← h2] at this
    simp at this
    omega
  · obtain ⟨i, p, hp, rfl⟩ := hof e he
    have hmem := List.mem_of_getElem? hp
    obtain ⟨t, ht, e1, e2, e3, e4, _⟩ := Quantize.tensor_entry h hg hf hn ho
      (h2 ▸ List.mem_map_of_mem hmem : p.1 ∈ c.tensors)
    refine ⟨t, ht, e1.symm, e2.symm, e3.symm, ?_⟩
    by_cases hel : Quantize.Eligible p.1
    · exact .inr ⟨e2.trans hel.1, by rw [e1]; exact hel.2, ((h3 p hmem).1 hel).1⟩
    · refine .inl ?_
      show p.2.1 = _
      rw [(h3 p hmem).2 hel, e4]
  · obtain ⟨i, p, hp, rfl⟩ := hof e he
    rw [hsz]
    show Quantize.offsetOf 32 (ps.map (·.2.2)) i ≤ _
    unfold Quantize.offsetOf
    conv => rhs; rw [← List.take_append_drop i (ps.map (·.2.2)), List.map_append, List.sum_append]
    exact Nat.le_add_right _ _

theorem setKey_mem {kv : List (List Nat × Kv)} {k : List Nat} {v : Kv} {p : List Nat × Kv}
    (h : p ∈ Quantize.setKey kv k v) : p ∈ kv ∨ p = (k, v) := by
  induction kv with
  | nil => exact .inr (by simpa [Quantize.setKey] using h)
  | cons q kv ih =>
    unfold Quantize.setKey at h
    split at h
    · rcases List.mem_cons.1 h with h | h
      · exact .inr h
      · exact .inl (by simp [h])
    · rcases List.mem_cons.1 h with h | h
      · exact .inl (by simp [h])
      · rcases ih h with h | h
        · exact .inl (by simp [h])
        · exact .inr h

end Berts.Convert
