import Verif.Props.Eval
import Verif.Proofs.Reals

/-! # Properties C117-C119: values in exact arithmetic -/

namespace Berts.Props

open Berts.Spec Berts.Graph Berts.Eval Finset

/-! ## An exact arithmetic -/

/-- The indices of a row, larger elements first. -/
noncomputable def realSort (l : List ℝ) : List Nat :=
  (List.range l.length).mergeSort fun a b => decide (l.getD b 0 ≤ l.getD a 0)

/-- Exact arithmetic; the activation functions (which the theorems are not about) are all the identity. -/
noncomputable def realA : Arith ℝ where
  add := (· + ·)
  mul := (· * ·)
  dot x y := (List.zipWith (· * ·) x y).sum
  norm e l i := (l.getD i 0 - mean l) / √(variance l + e)
  softmax s l i := Real.exp (s * l.getD i 0) / (l.map fun y => Real.exp (s * y)).sum
  scale d := 1 / √d
  one := 1
  gelu x := x
  relu x := x
  silu x := x
  tanh := Real.tanh
  avg := mean
  max l := l.foldl max 0
  argsort l i := (realSort l).getD i 0

theorem real_exact : Exact realA (fun e => (e : ℝ)) where
  add _ _ := rfl
  mul _ _ := rfl
  dot _ _ := rfl
  one := rfl
  tanh _ := rfl
  softmax s l := ⟨0, fun i x h => by
    simp only [realA, sub_zero]
    rw [List.getD_eq_getElem?_getD, h, Option.getD_some]⟩
  norm e l i x h := by
    simp only [realA]
    rw [List.getD_eq_getElem?_getD, h, Option.getD_some]

theorem real_argsort : ArgsortSpec realA (fun x y => y ≤ x) := by
  have hperm : ∀ l : List ℝ, (realSort l).Perm (List.range l.length) := fun l => List.mergeSort_perm _ _
  have hlen : ∀ l : List ℝ, (realSort l).length = l.length := by
    intro l
    rw [(hperm l).length_eq, List.length_range]
  have hsorted : ∀ l : List ℝ, (realSort l).Pairwise fun a b => l.getD b 0 ≤ l.getD a 0 := by
    intro l
    refine (List.pairwise_mergeSort (le := fun a b => decide (l.getD b 0 ≤ l.getD a 0)) ?_ ?_ _).imp ?_
    · intro a b c h1 h2
      simp only [decide_eq_true_eq] at *
      exact le_trans h2 h1
    · intro a b
      simp only [Bool.or_eq_true, decide_eq_true_eq]
      exact le_total _ _
    · intro a b h
      simpa using h
  have hget : ∀ (l : List ℝ) i (hi : i < l.length),
      realA.argsort l i = (realSort l)[i]'(by rw [hlen]; exact hi) := by
    intro l i hi
    show (realSort l).getD i 0 = _
    rw [List.getD_eq_getElem?_getD, List.getElem?_eq_getElem (by rw [hlen]; exact hi), Option.getD_some]
  refine ⟨?_, ?_, ?_, ?_⟩
  · intro l i hi
    rw [hget l i hi]
    exact List.mem_range.1 ((hperm l).mem_iff.1 (List.getElem_mem _))
  · intro l i j hi hj h
    rw [hget l i hi, hget l j hj] at h
    have hn : (realSort l).Nodup := (hperm l).nodup_iff.2 List.nodup_range
    exact (List.Nodup.getElem_inj_iff hn).1 h
  · intro l v hv
    obtain ⟨i, hi, h⟩ := List.mem_iff_getElem.1 ((hperm l).mem_iff.2 (List.mem_range.2 hv))
    rw [hlen] at hi
    exact ⟨i, hi, by rw [hget l i hi]; exact h⟩
  · intro l i j x y hij hj hx hy
    have hi : i < l.length := by omega
    have hxx : x = l.getD (realA.argsort l i) 0 := by rw [List.getD_eq_getElem?_getD, hx]; rfl
    have hyy : y = l.getD (realA.argsort l j) 0 := by rw [List.getD_eq_getElem?_getD, hy]; rfl
    rcases Nat.lt_or_ge i j with hl | hl
    · rw [hxx, hyy, hget l i hi, hget l j hj]
      exact List.pairwise_iff_getElem.1 (hsorted l) i j (by rw [hlen]; exact hi) (by rw [hlen]; exact hj) hl
    · have : i = j := by omega
      subst this
      rw [hxx, hyy]

/-! ## C117: probabilities -/

section

variable {A : Arith ℝ} {eps : Nat → ℝ}

theorem refProbs_pos (hA : Exact A eps) (m : EModel ℝ) (lm : LmWeights ℝ) (hidden : List ℝ) (dflt : ℝ) (v t : Nat)
    (hv : v < m.vocabCount) : 0 < refProbs A m lm hidden dflt v t := by
  unfold refProbs refLm
  exact softmax_pos hA _ _ _ (by simpa [col] using hv)

theorem refProbs_sum (hA : Exact A eps) (m : EModel ℝ) (lm : LmWeights ℝ) (hidden : List ℝ) (dflt : ℝ) (t : Nat)
    (hv : 0 < m.vocabCount) : ∑ v ∈ range m.vocabCount, refProbs A m lm hidden dflt v t = 1 := by
  unfold refProbs refLm
  have := softmax_sum hA A.one (col m.vocabCount (Spec.dense A m.hp.hidden (wmat lm.decw) (wvec lm.decb)
    (Spec.layerNorm A m.hp.eps m.hp.hidden (wvec lm.lnw) (wvec lm.lnb)
      (fun i t => headAct A m (Spec.dense A m.hp.hidden (wmat lm.dw) (wvec lm.db) (inputMat m hidden dflt) i t)))) t)
    (by simpa [col] using hv)
  simpa [col] using this

theorem refProbs_eq (hA : Exact A eps) (m : EModel ℝ) (lm : LmWeights ℝ) (hidden : List ℝ) (dflt : ℝ) (v t : Nat)
    (hv : v < m.vocabCount) : refProbs A m lm hidden dflt v t = Real.exp (logit A m lm hidden dflt v t) /
      ∑ w ∈ range m.vocabCount, Real.exp (logit A m lm hidden dflt w t) := by
  have hg : ∀ (f : Nat → ℝ) w, w < m.vocabCount → ((List.range m.vocabCount).map f).getD w 0 = f w := by
    intro f w hw
    rw [List.getD_eq_getElem?_getD, List.getElem?_map, List.getElem?_range hw]
    rfl
  unfold refProbs refLm
  rw [softmax_eq hA _ _ _ (by simpa [col] using hv)]
  unfold col
  rw [hg _ v hv, hA.one, one_mul, List.length_map, List.length_range,
    sum_congr rfl fun w hw => by rw [hg _ w (by simpa using hw), one_mul]]
  rfl

/-- The `k` best of `V` numbers that add up to one. -/
theorem best_sums {V k : Nat} (hk : k ≤ V) (hV : 0 < V) {P : Nat → ℝ} (hpos : ∀ v, v < V → 0 < P v)
    (hsum : ∑ v ∈ range V, P v = 1) {best : Nat → Nat} (b1 : ∀ i, i < k → best i < V)
    (b2 : ∀ i j, i < k → j < k → best i = best j → i = j)
    (b4 : ∀ v, v < V → (∀ i, i < k → best i ≠ v) → ∀ i, i < k → P v ≤ P (best i)) :
    (k : ℝ) / V ≤ ∑ i ∈ range k, P (best i) ∧ ∑ i ∈ range k, P (best i) ≤ 1 ∧
      (k = V → ∑ i ∈ range k, P (best i) = 1) := by
  have hS : ∑ i ∈ range k, P (best i) = ∑ v ∈ (range k).image best, P v := by
    rw [sum_image (fun i hi j hj h => b2 i j (by simpa using hi) (by simpa using hj) h)]
  have hsub : (range k).image best ⊆ range V := by
    intro v hv
    obtain ⟨i, hi, rfl⟩ := mem_image.1 hv
    exact mem_range.2 (b1 i (by simpa using hi))
  have hcard : ((range k).image best).card = k := by
    rw [card_image_of_injOn (fun i hi j hj h => b2 i j (by simpa using hi) (by simpa using hj) h), card_range]
  rw [hS]
  refine ⟨?_, ?_, fun h => ?_⟩
  · have hsplit := sum_sdiff (f := P) hsub
    rw [hsum] at hsplit
    -- every token that is not returned is at most as probable as every token that is
    have hpair : ∑ _u ∈ (range k).image best, ∑ v ∈ range V \ (range k).image best, P v ≤
        ∑ u ∈ (range k).image best, ∑ _v ∈ range V \ (range k).image best, P u := by
      refine sum_le_sum fun u hu => sum_le_sum fun v hv => ?_
      obtain ⟨i, hi, rfl⟩ := mem_image.1 hu
      obtain ⟨hv1, hv2⟩ := mem_sdiff.1 hv
      exact b4 v (mem_range.1 hv1) (fun j hj h => hv2 (mem_image.2 ⟨j, mem_range.2 hj, h⟩)) i (by simpa using hi)
    have hc : ((range V \ (range k).image best).card : ℝ) = V - k := by
      rw [card_sdiff_of_subset hsub, hcard, card_range, Nat.cast_sub hk]
    simp only [sum_const, hcard, nsmul_eq_mul, ← mul_sum] at hpair
    rw [hc] at hpair
    have hv : (0 : ℝ) < V := by exact_mod_cast hV
    rw [div_le_iff₀ hv]
    nlinarith
  · rw [← hsum]
    exact sum_le_sum_of_subset_of_nonneg hsub fun v hv _ => le_of_lt (hpos v (mem_range.1 hv))
  · rw [← hsum]
    congr 1
    exact eq_of_subset_of_card_le hsub (by rw [hcard, card_range, h])

/-- C117, for a chosen number of results: the numbers returned are those of the textbook for the ids returned; they are
positive, those of the `k` best tokens together are at least `k` times the average `1 / vocabulary` and at most one, and
exactly one if all tokens are asked for. -/
theorem C117_topk (hA : Exact A eps) (hs : ArgsortSpec A (fun x y => y ≤ x)) (g : Gg) (m : EModel ℝ)
    (lm : LmWeights ℝ) (hm : HeadOK m lm)
    (hidden : List ℝ) (dflt : ℝ) (n : Nat) (hn : 0 < n) (hlen : hidden.length = m.hp.hidden * n)
    (k : Nat) (hk0 : 0 < k) (hk : k ≤ m.vocabCount) (ids : List Nat) (probs : List ℝ) (given : Nat)
    (h1 : n * k ≤ ids.length) (h2 : n * k ≤ probs.length) :
    ∃ o ids' probs', evalLm A g m hidden dflt k (some ids) (some probs) given = .ok o ∧ o.ret = true ∧
      o.ids = some ids' ∧ o.probs = some probs' ∧
      ∀ t, t < n →
        (∀ i, i < k → ∃ v p, ids'[t * k + i]? = some v ∧ probs'[t * k + i]? = some p ∧ 0 < p ∧
          p = Real.exp (logit A m lm hidden dflt v t) /
            ∑ w ∈ range m.vocabCount, Real.exp (logit A m lm hidden dflt w t)) ∧
        (k : ℝ) / m.vocabCount ≤ ∑ i ∈ range k, probs'.getD (t * k + i) 0 ∧
        ∑ i ∈ range k, probs'.getD (t * k + i) 0 ≤ 1 ∧
        (k = m.vocabCount → ∑ i ∈ range k, probs'.getD (t * k + i) 0 = 1) := by
  obtain ⟨o, ids', probs', g1, g2, g3, g4, g5⟩ := C44_topk_partial A _ hs g m lm hm hidden dflt n hn hlen k hk0 hk ids
    probs given h1 h2
  refine ⟨o, ids', probs', g1, g2, g3, g4, fun t ht => ?_⟩
  obtain ⟨best, b1, b2, b3, b4⟩ := g5 t ht
  have hpos := fun v => refProbs_pos hA m lm hidden dflt v t
  have hsum := refProbs_sum hA m lm hidden dflt t (by omega)
  have heq := fun v => refProbs_eq hA m lm hidden dflt v t
  generalize refProbs A m lm hidden dflt = P at *
  have hS : ∑ i ∈ range k, probs'.getD (t * k + i) 0 = ∑ i ∈ range k, P (best i) t := by
    refine sum_congr rfl fun i hi => ?_
    rw [List.getD_eq_getElem?_getD, (b1 i (by simpa using hi)).2.2, Option.getD_some]
  rw [hS]
  exact ⟨fun i hi => ⟨_, _, (b1 i hi).1, (b1 i hi).2.2, hpos _ (b1 i hi).2.1, heq _ (b1 i hi).2.1⟩,
    best_sums (P := fun v => P v t) hk (by omega) hpos hsum (fun i hi => (b1 i hi).2.1) b2 b4⟩

/-- C117, without a chosen number: the numbers of each token are those of the textbook in the order of the vocabulary
(not of the ids returned, C44), positive, and their sum is one. -/
theorem C117_all (hA : Exact A eps) (g : Gg) (m : EModel ℝ) (lm : LmWeights ℝ) (hm : HeadOK m lm)
    (hidden : List ℝ) (dflt : ℝ) (n : Nat) (hn : 0 < n) (hlen : hidden.length = m.hp.hidden * n)
    (topK : Int) (hk : topK ≤ 0) (ids : List Nat) (probs : List ℝ)
    (h1 : ids.length = m.vocabCount * n) (h2 : probs.length = m.vocabCount * n) :
    ∃ ids' probs', evalLm A g m hidden dflt topK (some ids) (some probs) (m.vocabCount * n) =
        .ok ⟨true, some ids', some probs', m.vocabCount * n⟩ ∧
      ∀ t, t < n →
        (∀ i, i < m.vocabCount → ∃ p, probs'[t * m.vocabCount + i]? = some p ∧ 0 < p ∧
          p = Real.exp (logit A m lm hidden dflt i t) /
            ∑ w ∈ range m.vocabCount, Real.exp (logit A m lm hidden dflt w t)) ∧
        ∑ i ∈ range m.vocabCount, probs'.getD (t * m.vocabCount + i) 0 = 1 := by
  obtain ⟨ids', probs', g1, g2⟩ := C44_all_counterexample A g m lm hm hidden dflt n hn hlen topK hk ids probs h1 h2
  refine ⟨ids', probs', g1, fun t ht => ⟨fun i hi => ⟨_, (g2 t i ht hi).2, refProbs_pos hA m lm hidden dflt i t hi,
    refProbs_eq hA m lm hidden dflt i t hi⟩, ?_⟩⟩
  rw [← refProbs_sum hA m lm hidden dflt t hm.vocab]
  refine sum_congr rfl fun i hi => ?_
  rw [List.getD_eq_getElem?_getD, (g2 t i ht (by simpa using hi)).2, Option.getD_some]

/-! ## C118: hidden states -/

theorem encoded_last (A : Arith ℝ) (m : EModel ℝ) (L : Nat) (tok seg pos : Nat → Nat) (n : Nat) :
    ∃ X : Mat ℝ, encoded A m.hp m.w L tok seg pos n =
      Spec.layerNorm A m.hp.eps m.hp.hidden (lastGain m L) (lastBias m L) X := by
  unfold encoded lastGain lastBias refEncode
  rcases List.eq_nil_or_concat (m.w.layers.take L) with h | ⟨ls, l, h⟩
  · rw [h]
    exact ⟨_, rfl⟩
  · rw [h]
    simp only [List.concat_eq_append, List.map_append, List.map_cons, List.map_nil, List.foldl_append, List.foldl_cons,
      List.foldl_nil, List.getLast?_append, List.getLast?_singleton, Option.some_or]
    exact ⟨_, rfl⟩

/-- C118: whatever the text and the weights before, the hidden states of a token are the bias of the last normalisation
plus its gain times numbers `x i` that are smaller than the square root of the hidden size, add up to zero, and have
squares that add up to less than the hidden size. (No output with too many layers, C86.) -/
theorem C118_hidden_states (hA : Exact A eps) (g : Gg) (m : EModel ℝ) (he : 0 < eps m.hp.eps) (V P S : Nat)
    (tokens segs : List Nat) (hf : Shaped m V P S tokens) (ha : Accepted m tokens segs 0) (hn : 0 < tokens.length)
    (hr : RowsExist m V P tokens) (L : Nat) (hL : L ≤ m.hp.nLayers) (buf : List ℝ)
    (hbuf : buf.length = m.hp.hidden * tokens.length) :
    (44 < L ∧ eval A g m tokens segs L 0 (some buf) buf.length = .abort) ∨
    ∃ out, eval A g m tokens segs L 0 (some buf) buf.length = .ok ⟨true, some out, buf.length⟩ ∧
      ∀ t, t < tokens.length → ∃ x : Nat → ℝ,
        (∀ i, i < m.hp.hidden → out[t * m.hp.hidden + i]? = some (lastGain m L i * x i + lastBias m L i) ∧
          |x i| < √m.hp.hidden) ∧
        ∑ i ∈ range m.hp.hidden, x i = 0 ∧ ∑ i ∈ range m.hp.hidden, x i ^ 2 < m.hp.hidden := by
  rcases C61_hidden_states A g m V P S tokens segs hf ha hn hr L hL buf hbuf with h | ⟨out, h1, _, h2⟩
  · exact .inl h
  refine .inr ⟨out, h1, fun t ht => ?_⟩
  obtain ⟨X, hX⟩ := encoded_last A m L (tokens.getD · 0) (segs.getD · 0) (refPos m tokens) tokens.length
  have hlen : (col m.hp.hidden X t).length = m.hp.hidden := by simp [col]
  have hb := fun i (hi : i < m.hp.hidden) => norm_abs_lt hA m.hp.eps he (col m.hp.hidden X t) i (by rw [hlen]; exact hi)
  have hz := norm_sum hA m.hp.eps (col m.hp.hidden X t)
  have hq := norm_sq_sum hA m.hp.eps he (col m.hp.hidden X t)
  rw [hlen] at hb hz hq
  refine ⟨A.norm m.hp.eps (col m.hp.hidden X t), fun i hi => ⟨?_, hb i hi⟩, hz, ?_⟩
  · rw [h2 i t hi ht]
    have := congrFun (congrFun hX i) t
    unfold encoded at this
    rw [this]
    simp only [Spec.layerNorm, hA.add, hA.mul]
  · rw [hq]
    have hv := variance_nonneg (col m.hp.hidden X t)
    have h3 : variance (col m.hp.hidden X t) / (variance (col m.hp.hidden X t) + eps m.hp.eps) < 1 := by
      rw [div_lt_one (by linarith)]; linarith
    have h4 : (0 : ℝ) < m.hp.hidden := by
      have := hf.ok.hidden
      exact_mod_cast this
    nlinarith

/-- C118: a pooled output is between -1 and 1. (No output with too many layers, C86.) -/
theorem C118_pooled (hA : Exact A eps) (g : Gg) (m : EModel ℝ) (V P S : Nat) (tokens segs : List Nat)
    (poolType : Nat) (hp0 : poolType ≠ 0) (hf : Shaped m V P S tokens) (ha : Accepted m tokens segs poolType)
    (hn : 0 < tokens.length) (hr : RowsExist m V P tokens) (L : Nat) (hL : L ≤ m.hp.nLayers)
    (buf : List ℝ) (hbuf : buf.length = m.hp.hidden) :
    (44 < L ∧ eval A g m tokens segs L poolType (some buf) buf.length = .abort) ∨
    ∃ out, eval A g m tokens segs L poolType (some buf) buf.length = .ok ⟨true, some out, buf.length⟩ ∧
      out.length = m.hp.hidden ∧ ∀ x ∈ out, -1 < x ∧ x < 1 := by
  rcases C62_pooling A g m V P S tokens segs poolType hp0 hf ha hn hr L hL buf hbuf with h | h
  · exact .inl h
  refine .inr ⟨_, h, by simp, ?_⟩
  intro x hx
  obtain ⟨j, _, rfl⟩ := List.mem_map.1 hx
  simp only [refPool, hA.tanh]
  exact ⟨Real.neg_one_lt_tanh _, Real.tanh_lt_one _⟩

/-! ## C119: attention -/

theorem attend_between (hA : Exact A eps) (d n : Nat) (hn : 0 < n) (Q K V : Mat ℝ) (j t : Nat) (lo hi : ℝ)
    (h : ∀ s, s < n → lo ≤ V j s ∧ V j s ≤ hi) :
    lo ≤ Spec.attend A d n Q K V j t ∧ Spec.attend A d n Q K V j t ≤ hi := by
  have hw : ∀ s, s < n → 0 ≤ attnWeight A d n (j / d) Q K t s := by
    intro s hs
    unfold attnWeight
    exact le_of_lt (softmax_pos hA _ _ _ (by simpa using hs))
  have hsum : ∑ s ∈ range n, attnWeight A d n (j / d) Q K t s = 1 := by
    unfold attnWeight
    have := softmax_sum hA (A.scale d)
      ((List.range n).map fun s' => A.dot (headPart d (j / d) K s') (headPart d (j / d) Q t)) (by simpa using hn)
    simpa using this
  have he : Spec.attend A d n Q K V j t = ∑ s ∈ range n, V j s * attnWeight A d n (j / d) Q K t s := by
    unfold Spec.attend
    rw [hA.dot, List.zipWith_map_left, List.zipWith_map_right, ← map_range_sum, List.zipWith_self]
  generalize attnWeight A d n (j / d) Q K t = w at *
  rw [he]
  constructor
  · calc lo = ∑ s ∈ range n, lo * w s := by rw [← mul_sum, hsum, mul_one]
      _ ≤ _ := sum_le_sum fun s hs => mul_le_mul_of_nonneg_right (h s (by simpa using hs)).1 (hw s (by simpa using hs))
  · calc _ ≤ ∑ s ∈ range n, hi * w s := sum_le_sum fun s hs =>
          mul_le_mul_of_nonneg_right (h s (by simpa using hs)).2 (hw s (by simpa using hs))
      _ = hi := by rw [← mul_sum, hsum, mul_one]

/-- C119: the attention sub-graph averages: each feature of its result is between the smallest and the largest value of
that feature over the tokens (`X` is its input, the values are `W x + b`). -/
theorem C119_between (e : Env ℝ) (hA : Exact e.A eps) (d heads n : Nat) (hd : 0 < d) (hh : 0 < heads) (x : T ℝ)
    (X : Mat ℝ) (hx : IsMat x (heads * d) n X) (hn : 0 < n) (qw qb kw kb vw vb : T ℝ)
    (hqw : IsW qw (heads * d) (heads * d)) (hqb : IsVec qb (heads * d))
    (hkw : IsW kw (heads * d) (heads * d)) (hkb : IsVec kb (heads * d))
    (hvw : IsW vw (heads * d) (heads * d)) (hvb : IsVec vb (heads * d))
    (u : Nat) (hmem : u + (tensorSize e.g (heads * d) n * 15 + tensorSize e.g 0 * 8 +
      tensorSize e.g n n heads * 2) ≤ e.mem) :
    ∃ r u', (do
        let q ← project e x qw qb d heads n
        let k ← project e x kw kb d heads n
        let v ← project e x vw vb d heads n
        attend e (heads * d) d n q k v : M (T ℝ)) u = .ok (r, u') ∧
      ∀ j t lo hi, j < heads * d → t < n →
        (∀ s, s < n → lo ≤ (∑ i ∈ range (heads * d), wmat vw i j * X i s) + wvec vb j ∧
          (∑ i ∈ range (heads * d), wmat vw i j * X i s) + wvec vb j ≤ hi) →
        lo ≤ r.get j t 0 0 ∧ r.get j t 0 0 ≤ hi := by
  obtain ⟨r, u', h1, _, _, h2⟩ := C61_attention e d heads n hd hh x X hx hn qw qb kw kb vw vb hqw hqb hkw hkb hvw hvb u
    hmem
  refine ⟨r, u', h1, fun j t lo hi hj ht h => ?_⟩
  rw [h2 j t hj ht]
  refine attend_between hA d n hn _ _ _ j t lo hi fun s hs => ?_
  have : Spec.dense e.A (heads * d) (wmat vw) (wvec vb) X j s =
      (∑ i ∈ range (heads * d), wmat vw i j * X i s) + wvec vb j := by
    unfold Spec.dense col
    rw [hA.add, hA.dot, List.zipWith_map_left, List.zipWith_map_right, ← map_range_sum, List.zipWith_self]
  rw [this]
  exact h s hs

end

/-! ## Examples -/

/-- As `tinyT` with real numbers. -/
def realT (n0 n1 : Nat) : T ℝ := ⟨n0, n1, 1, 1, 4, true, fun i j _ _ => i + 2 * j + 1⟩

def realL : Layer ℝ :=
  ⟨realT 2 2, realT 2 1, realT 2 2, realT 2 1, realT 2 2, realT 2 1, realT 2 2, realT 2 1, realT 2 1, realT 2 1,
    realT 2 3, realT 3 1, realT 3 2, realT 2 1, realT 2 1, realT 2 1⟩

def realLm : LmWeights ℝ := ⟨realT 2 2, realT 2 1, realT 2 1, realT 2 1, realT 2 3, realT 3 1⟩

/-- As `tiny` with real numbers. -/
def realTiny (isBert : Bool) (maxTokens : Nat) : EModel ℝ where
  isBert := isBert
  hp := ⟨3, 2, 1, 2, maxTokens, 3, 2, 0, 1⟩
  w := ⟨realT 2 3, realT 2 2, realT 2 4, realT 2 1, realT 2 1, [realL], realT 2 2, realT 2 1, some realLm⟩
  vocabCount := 3
  padId := 1

theorem realT_w (n0 n1 : Nat) : IsW (realT n0 n1) n0 n1 := ⟨rfl, rfl, rfl, rfl, rfl⟩
theorem realT_v (n : Nat) : IsVec (realT n 1) n := ⟨rfl, rfl, rfl, rfl, rfl⟩

theorem realTiny_ok (b : Bool) (k : Nat) : ModelOK (realTiny b k) 3 4 2 := by
  refine ⟨⟨realT_w 2 3, realT_w 2 4, realT_w 2 2, realT_v 2, realT_v 2, ?_, rfl, realT_w 2 2, realT_v 2⟩,
    by simp [realTiny], ⟨1, rfl⟩, by simp [realTiny], rfl⟩
  intro l hl
  simp only [realTiny, List.mem_singleton] at hl
  subst hl
  exact ⟨realT_w 2 2, realT_v 2, realT_w 2 2, realT_v 2, realT_w 2 2, realT_v 2, realT_w 2 2, realT_v 2,
    realT_v 2, realT_v 2, realT_w 2 3, realT_v 3, realT_w 3 2, realT_v 2, realT_v 2, realT_v 2⟩

/-- The hypotheses of C117 and C118 are met by a small model and the input `[1, 2]`. -/
example : ∃ (m : EModel ℝ) (lm : LmWeights ℝ) (hidden : List ℝ), Exact realA (fun e => (e : ℝ)) ∧
    ArgsortSpec realA (fun x y => y ≤ x) ∧ HeadOK m lm ∧ hidden.length = m.hp.hidden * 2 ∧ 2 ≤ m.vocabCount ∧
    (0 : ℝ) < (m.hp.eps : ℝ) ∧ Shaped m 3 4 2 [1, 2] ∧ Accepted m [1, 2] [0, 1] 0 ∧ Accepted m [1, 2] [0, 1] 1 ∧
    RowsExist m 3 4 [1, 2] ∧ 1 ≤ m.hp.nLayers := by
  refine ⟨realTiny true 4, realLm, [1, 2, 3, 4], real_exact, real_argsort,
    ⟨rfl, ⟨realT_w 2 2, realT_v 2, realT_v 2, realT_v 2, realT_w 2 3, realT_v 3⟩, by simp [realTiny], by simp [realTiny],
    fun _ => by simp [realTiny]⟩, by simp [realTiny], by simp [realTiny], by simp [realTiny],
    ⟨realTiny_ok true 4, by decide, by decide, by decide, by simp [realTiny], by simp [realTiny],
      by simp [realTiny], by simp⟩,
    ⟨by simp [realTiny], rfl, by simp [realTiny], by decide⟩, ⟨by simp [realTiny], rfl, by simp [realTiny], by decide⟩,
    ⟨by simp, ?_⟩, by simp [realTiny]⟩
  intro t ht
  simp only [List.length_cons, List.length_nil] at ht
  simp only [refPos, realTiny]
  simp only [if_true]
  omega

/-- The hypotheses of C119 are met: two heads of size one, two tokens. -/
example : ∃ (e : Env ℝ) (x : T ℝ), Exact e.A (fun e => (e : ℝ)) ∧ IsMat x (2 * 1) 2 (fun i t => x.get i t 0 0) ∧
    IsW (realT 2 2) (2 * 1) (2 * 1) ∧ IsVec (realT 2 1) (2 * 1) ∧
    0 + (tensorSize e.g (2 * 1) 2 * 15 + tensorSize e.g 0 * 8 + tensorSize e.g 2 2 2 * 2) ≤ e.mem := by
  refine ⟨⟨realA, tinyG, 100000⟩, realT 2 2, real_exact, ?_, realT_w 2 2, realT_v 2, by decide +kernel⟩
  constructor <;> first | rfl | (intros; rfl)

end Berts.Props
