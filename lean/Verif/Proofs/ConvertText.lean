import Verif.Proofs.ConvertLog

/-! # Lemmas about the texts of the converter -/

namespace Berts.ConvertLog

open Berts.Convert Berts.Spec
open Berts.Vocab (ascii decimal placeTokens fillLoop writeBlobs converterTokens)
open Berts.Load (Kv TInfo Gguf)

variable {α β γ : Type}

/-! ## Blanks -/

theorem blank_false {c : Nat} : isBlank c = false ↔ ¬ (9 ≤ c ∧ c ≤ 13) ∧ ¬ (28 ≤ c ∧ c ≤ 32) := by
  unfold isBlank
  simp

theorem _root_.Berts.Spec.NoTrail.append (a : List Nat) {b : List Nat} (h : NoTrail b) : NoTrail (a ++ b) := by
  obtain ⟨c, h1, h2⟩ := h
  refine ⟨c, ?_, h2⟩
  rw [List.getLast?_append, h1]
  rfl

theorem _root_.Berts.Spec.NoTrail.cons (a : Nat) {b : List Nat} (h : NoTrail b) : NoTrail (a :: b) := NoTrail.append [a] h

theorem noTrail_of {t : List Nat} {c : Nat} (h : t.getLast? = some c) (hc : isBlank c = false) : NoTrail t :=
  ⟨c, h, blank_false.1 hc⟩

theorem strip_eq {x : List Nat} {c : Nat} (hh : x.head? = some c) (hc : isBlank c = false) (ht : NoTrail x) :
    strip (10 :: (x ++ [10])) = x := by
  cases x with
  | nil => cases hh
  | cons a x =>
    cases hh
    obtain ⟨d, hd, hb⟩ := ht
    unfold strip
    rw [List.dropWhile_cons_of_pos (by decide), List.cons_append, List.dropWhile_cons_of_neg (by simp [hc]),
      ← List.cons_append, List.reverse_append, List.reverse_singleton, List.singleton_append,
      List.dropWhile_cons_of_pos (by decide)]
    obtain ⟨ys, hy⟩ := List.getLast?_eq_some_iff.1 hd
    rw [hy, List.reverse_append, List.reverse_singleton, List.singleton_append,
      List.dropWhile_cons_of_neg (by simp [blank_false.2 hb])]
    simp

/-! ## Numbers -/

theorem decimal_digit {n : Nat} (h : n < 10) : decimal n = [48 + n] := by
  unfold decimal
  rw [if_pos h]

theorem decimal_noTrail (n : Nat) : NoTrail (decimal n) := by
  unfold decimal
  split
  · exact noTrail_of (c := 48 + n) rfl (blank_false.2 ⟨by omega, by omega⟩)
  · exact NoTrail.append _ (noTrail_of (c := 48 + n % 10) rfl (blank_false.2 ⟨by omega, by omega⟩))

theorem oneDecimal (n d : Nat) (hd : 0 < d) : OneDecimal n d (fixed1 n d) := by
  refine ⟨tenths n d, ?_, ?_⟩
  · unfold fixed1
    rw [decimal_digit (Nat.mod_lt _ (by omega)), List.append_assoc]
    rfl
  · have h1 := Nat.div_add_mod (10 * n) d
    have h2 := Nat.mod_lt (10 * n) hd
    unfold tenths
    generalize 10 * n / d = Q at *
    generalize hR : 10 * n % d = R at *
    simp only []
    have e : ∀ q, (2 * q + 1) * d = 2 * (d * q) + d := fun q => by rw [Nat.add_mul, Nat.mul_assoc, Nat.mul_comm q d]; omega
    have e' : ∀ q, 2 * q * d = 2 * (d * q) := fun q => by rw [Nat.mul_assoc, Nat.mul_comm q d]
    rw [e, e']
    split
    · omega
    · split
      · rw [Nat.mul_succ]; omega
      · split
        · omega
        · rw [Nat.mul_succ]; omega

/-! ## Directory -/

theorem directory_append (off : Nat) (a b : List Tensor) :
    ∃ off', directory off (a ++ b) = directory off a ++ directory off' b := by
  induction a generalizing off with
  | nil => exact ⟨off, rfl⟩
  | cons t a ih =>
    obtain ⟨o, h⟩ := ih (off + Graph.pad t.data.length 32)
    exact ⟨o, by simp only [List.cons_append, directory, h]⟩

theorem directory_length (off : Nat) (a : List Tensor) : (directory off a).length = a.length := by
  induction a generalizing off with
  | nil => rfl
  | cons t a ih => simp [directory, ih]

theorem directory_get (off : Nat) (a : List Tensor) (i : Nat) {w : TInfo} (h : (directory off a)[i]? = some w) :
    ∃ t o, a[i]? = some t ∧ w = ⟨t.name, t.ne.length, t.ne, t.type, t.data.length, o⟩ := by
  induction a generalizing off i with
  | nil => cases h
  | cons t a ih =>
    cases i with
    | zero => cases h; exact ⟨t, off, rfl, rfl⟩
    | succ i => exact ih _ i h

theorem directory_nbytes (off : Nat) (a : List Tensor) :
    (directory off a).map (·.nbytes) = a.map (·.data.length) := by
  induction a generalizing off with
  | nil => rfl
  | cons t a ih => simp [directory, ih]

/-! ## Sizes -/

theorem bias_iff (cls : Cls) (p : Param α) : lmKey cls p.key = ascii "predictions.bias" ↔ isBias cls p = true := by
  unfold lmKey isBias
  cases cls with
  | bert => simp
  | other => simp
  | roberta =>
    simp only [if_pos, renameLm, beq_self_eq_true, Bool.true_and, Bool.or_eq_true, beq_iff_eq]
    have n1 : ascii "predictions.transform.dense.weight" ≠ ascii "predictions.bias" := by decide +kernel
    have n2 : ascii "predictions.transform.dense.bias" ≠ ascii "predictions.bias" := by decide +kernel
    have n3 : ascii "predictions.transform.LayerNorm.weight" ≠ ascii "predictions.bias" := by decide +kernel
    have n4 : ascii "predictions.transform.LayerNorm.bias" ≠ ascii "predictions.bias" := by decide +kernel
    have n5 : ascii "predictions.decoder.weight" ≠ ascii "predictions.bias" := by decide +kernel
    have n6 : ascii "predictions.decoder.bias" ≠ ascii "predictions.bias" := by decide +kernel
    have m1 : ascii "dense.weight" ≠ ascii "predictions.bias" := by decide +kernel
    have m2 : ascii "dense.bias" ≠ ascii "predictions.bias" := by decide +kernel
    have m3 : ascii "layer_norm.weight" ≠ ascii "predictions.bias" := by decide +kernel
    have m4 : ascii "layer_norm.bias" ≠ ascii "predictions.bias" := by decide +kernel
    have m5 : ascii "decoder.weight" ≠ ascii "predictions.bias" := by decide +kernel
    have m6 : ascii "decoder.bias" ≠ ascii "predictions.bias" := by decide +kernel
    grind

theorem bias_size (f16 : Bool) {cls : Cls} {p : Param α} (h : isBias cls p = true) : sizeNew f16 p = 4 * p.elems.length := by
  have hq : quantized f16 p = false := by
    have hk : p.key = ascii "predictions.bias" ∨ p.key = ascii "bias" := by
      unfold isBias at h
      simp only [Bool.or_eq_true, beq_iff_eq, Bool.and_eq_true] at h
      rcases h with h | h
      · exact .inl h
      · exact .inr h.2
    unfold quantized
    have : (p.key.drop (p.key.length - 7) == ascii ".weight") = false := by
      rcases hk with hk | hk <;> rw [hk] <;> decide +kernel
    rw [this, Bool.and_false]
  unfold sizeNew
  rw [hq, if_neg (by simp), Nat.mul_comm]

theorem sum_filter (l : List β) (f : β → Nat) (q : β → Bool) :
    (l.map f).sum = ((l.filter fun x => !q x).map f).sum + ((l.filter q).map f).sum := by
  induction l with
  | nil => rfl
  | cons a l ih =>
    cases h : q a
    · rw [List.filter_cons_of_pos (by simp [h]), List.filter_cons_of_neg (by simp [h])]
      simp only [List.map_cons, List.sum_cons, ih]
      omega
    · rw [List.filter_cons_of_neg (by simp [h]), List.filter_cons_of_pos (by simp [h])]
      simp only [List.map_cons, List.sum_cons, ih]
      omega

theorem conv_size {enc : Bool → List α → List Nat} (he : ∀ q xs, (enc q xs).length = xs.length * if q then 2 else 4)
    (f16 : Bool) (name : List Nat) (p : Param α) : (convTensor enc f16 name p).data.length = sizeNew f16 p := by
  unfold sizeNew
  show (enc (quantized f16 p) p.elems).length = _
  rw [he]

/-! ## Tokens -/

theorem place_count (tokens tokens' : List (Option (List Nat))) (dict : List (List Nat × Nat))
    (h : placeTokens tokens dict = some tokens') :
    tokens'.length = tokens.length ∧
    (tokens'.filter (·.isNone)).length + dict.length = (tokens.filter (·.isNone)).length ∧
    ∀ i, tokens'[i]? = some none ↔ tokens[i]? = some none ∧ i ∉ dict.map (·.2) := by
  induction dict generalizing tokens with
  | nil => cases h; exact ⟨rfl, rfl, fun i => by simp⟩
  | cons d dict ih =>
    obtain ⟨t, j⟩ := d
    simp only [placeTokens] at h
    split at h
    · rename_i hj
      obtain ⟨h1, h2, h3⟩ := ih _ h
      refine ⟨by rw [h1, List.length_set], ?_, fun i => ?_⟩
      · have : ((tokens.set j (some t)).filter (·.isNone)).length + 1 = (tokens.filter (·.isNone)).length := by
          clear h h1 h2 h3 ih
          induction tokens generalizing j with
          | nil => cases hj
          | cons a l ih =>
            cases j with
            | zero => cases hj; simp
            | succ j =>
              have := ih j hj
              cases a <;> simp <;> omega
        simp only [List.length_cons]
        omega
      · rw [h3, List.getElem?_set]
        simp only [List.map_cons, List.mem_cons, not_or]
        by_cases hji : j = i
        · subst hji
          simp only [if_true]
          constructor
          · intro ⟨h4, _⟩
            split at h4 <;> cases h4
          · intro ⟨_, h4, _⟩
            exact absurd trivial h4
        · rw [if_neg hji]
          constructor
          · intro ⟨a, b⟩; exact ⟨a, fun e => hji e.symm, b⟩
          · intro ⟨a, _, b⟩; exact ⟨a, b⟩
    · cases h

theorem filter_range' (l : List β) (q : β → Bool) (f : Nat → Bool) (off : Nat)
    (h : ∀ (i : Nat) x, l[i]? = some x → q x = f (off + i)) :
    (l.filter q).length = ((List.range' off l.length).filter f).length := by
  induction l generalizing off with
  | nil => rfl
  | cons a l ih =>
    have h0 := h 0 a rfl
    have := ih (off + 1) fun i x hx => by rw [h (i + 1) x hx]; congr 1; omega
    rw [List.length_cons, List.range'_succ, List.filter_cons, List.filter_cons, h0, Nat.add_zero]
    split <;> simp [this]

theorem unused_count {n : Nat} {dict : List (List Nat × Nat)} {tokens : List (Option (List Nat))}
    (h : placeTokens (List.replicate n none) dict = some tokens) :
    tokens.length = n ∧ n - (tokens.filter (·.isNone)).length = dict.length ∧
    (tokens.filter (·.isNone)).length = ((List.range n).filter fun i => i ∉ dict.map (·.2)).length := by
  obtain ⟨h1, h2, h3⟩ := place_count _ _ _ h
  rw [List.length_replicate] at h1
  have h4 : ((List.replicate n (none : Option (List Nat))).filter (·.isNone)).length = n := by
    rw [List.filter_eq_self.2 (by intro a ha; rw [(List.mem_replicate.1 ha).2]; rfl), List.length_replicate]
  refine ⟨h1, by omega, ?_⟩
  rw [List.range_eq_range', ← h1]
  refine filter_range' _ _ _ 0 fun i x hx => ?_
  have hi : i < n := by rw [← h1]; exact (List.getElem?_eq_some_iff.1 hx).1
  have := h3 i
  rw [hx, List.getElem?_replicate, if_pos hi] at this
  cases x with
  | none => simpa using this
  | some t =>
    have h5 : ¬ (i ∉ dict.map (·.2)) := fun hn => by have := this.2 ⟨rfl, hn⟩; cases this
    rw [Nat.zero_add, decide_eq_false h5]
    rfl

end Berts.ConvertLog
