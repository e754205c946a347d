import Verif.Props.Perm

/-! # Property C122: padding -/

namespace Berts.Props

open Berts.Spec Berts.Graph Berts.Eval Finset

/-! ## Embeddings -/

theorem getD_append_left (l l' : List Nat) (t : Nat) (ht : t < l.length) : (l ++ l').getD t 0 = l.getD t 0 := by
  rw [List.getD_eq_getElem?_getD, List.getD_eq_getElem?_getD, List.getElem?_append_left ht]

theorem refPos_append {α : Type} (m : EModel α) (tokens more : List Nat) (t : Nat) (ht : t < tokens.length) :
    refPos m (tokens ++ more) t = refPos m tokens t := by
  unfold refPos robertaPos
  rw [getD_append_left _ _ _ ht, List.take_append_of_le_length (by omega)]

/-- C122 (partial: only the embeddings, layer 0): further tokens, as padding, do not change the vectors of the tokens
before them. -/
theorem C122_embeddings_partial {α : Type} (A : Arith α) (g : Gg) (m : EModel α) (V P S : Nat)
    (tokens segs more segs2 : List Nat) (hn : 0 < tokens.length)
    (hf : Shaped m V P S tokens) (ha : Accepted m tokens segs 0) (hr : RowsExist m V P tokens)
    (hf' : Shaped m V P S (tokens ++ more)) (ha' : Accepted m (tokens ++ more) (segs ++ segs2) 0)
    (hr' : RowsExist m V P (tokens ++ more)) (buf buf' : List α)
    (hbuf : buf.length = m.hp.hidden * tokens.length)
    (hbuf' : buf'.length = m.hp.hidden * (tokens ++ more).length) :
    ∃ out out', eval A g m tokens segs 0 0 (some buf) buf.length = .ok ⟨true, some out, buf.length⟩ ∧
      eval A g m (tokens ++ more) (segs ++ segs2) 0 0 (some buf') buf'.length = .ok ⟨true, some out', buf'.length⟩ ∧
      ∀ i t, i < m.hp.hidden → t < tokens.length →
        ∃ x, out[t * m.hp.hidden + i]? = some x ∧ out'[t * m.hp.hidden + i]? = some x := by
  have hn' : 0 < (tokens ++ more).length := by rw [List.length_append]; omega
  rcases C61_hidden_states A g m V P S tokens segs hf ha hn hr 0 (by omega) buf hbuf with h | ⟨out, h1, _, h2⟩
  · omega
  rcases C61_hidden_states A g m V P S _ _ hf' ha' hn' hr' 0 (by omega) buf' hbuf' with h | ⟨out', h1', _, h2'⟩
  · omega
  refine ⟨out, out', h1, h1', fun i t hi ht => ⟨_, h2 i t hi ht, ?_⟩⟩
  rw [h2' i t hi (by rw [List.length_append]; omega)]
  congr 1
  have hs : t < segs.length := by rw [ha.len]; exact ht
  show refEmbed A _ _ _ _ _ _ _ _ _ _ i t = refEmbed A _ _ _ _ _ _ _ _ _ _ i t
  unfold refEmbed Spec.layerNorm col
  simp only [refPos_append m tokens more t ht, getD_append_left _ _ _ ht, getD_append_left _ _ _ hs]

/-! ## A model in which padding changes the sign of the result -/

/-- A tensor with two dimensions. -/
def mat (n0 n1 : Nat) (f : Nat → Nat → ℝ) : T ℝ := ⟨n0, n1, 1, 1, 4, true, fun i j _ _ => f i j⟩

/-- A diagonal matrix. -/
def diag (v : ℝ) : T ℝ := mat 2 2 fun i j => if i = j then v else 0

/-- No queries and keys, values nine times the input, nothing in the feed-forward part. -/
def padL : Layer ℝ where
  qw := diag 0
  qb := mat 2 1 fun _ _ => 0
  kw := diag 0
  kb := mat 2 1 fun _ _ => 0
  vw := diag 9
  vb := mat 2 1 fun _ _ => 0
  ffw := diag 1
  ffb := mat 2 1 fun _ _ => 0
  lnffw := mat 2 1 fun _ _ => 1
  lnffb := mat 2 1 fun _ _ => 0
  iw := mat 2 1 fun _ _ => 0
  ib := mat 1 1 fun _ _ => 0
  ow := mat 1 2 fun _ _ => 0
  ob := mat 2 1 fun _ _ => 0
  lnoutw := mat 2 1 fun _ _ => 1
  lnoutb := mat 2 1 fun _ _ => 0

/-- The embedding of the padding token (1) is `(-1, 1)`, that of all others `(1, -1)`; those of segments and positions are
zero. -/
def padM (isBert : Bool) : EModel ℝ where
  isBert := isBert
  hp := ⟨3, 2, 1, 1, 4, 1, 1, 0, 1⟩
  w := ⟨mat 2 3 fun i t => if (t = 1) = (i = 1) then 1 else -1, mat 2 1 fun _ _ => 0, mat 2 4 fun _ _ => 0,
    mat 2 1 fun _ _ => 1, mat 2 1 fun _ _ => 0, [padL], mat 2 2 fun _ _ => 0, mat 2 1 fun _ _ => 0, none⟩
  vocabCount := 3
  padId := 1

/-- At place `t` the matrix has the vector `(x, -x)`. -/
def Anti (x : ℝ) (X : Mat ℝ) (t : Nat) : Prop := X 0 t = x ∧ X 1 t = -x

/-- Normalisation of `(x, -x)`. -/
noncomputable def shrink (x : ℝ) : ℝ := x / √(x ^ 2 + 1)

theorem shrink_neg (x : ℝ) : shrink (-x) = -shrink x := by
  unfold shrink
  rw [neg_sq, neg_div]

theorem shrink_pos {x : ℝ} (h : 0 < x) : 0 < shrink x :=
  div_pos h (Real.sqrt_pos.2 (by positivity))

theorem range2 : List.range 2 = [0, 1] := rfl

theorem anti_norm {x : ℝ} {X : Mat ℝ} {t : Nat} (h : Anti x X t) (g b : Nat → ℝ) (hg : ∀ i, g i = 1)
    (hb : ∀ i, b i = 0) : Anti (shrink x) (Spec.layerNorm realA 1 2 g b X) t := by
  obtain ⟨h0, h1⟩ := h
  have hc : col 2 X t = [x, -x] := by simp only [col, range2, List.map_cons, List.map_nil, h0, h1]
  have hm : mean [x, -x] = 0 := by simp [mean]
  have hv : variance [x, -x] = x ^ 2 := by
    simp only [variance, hm, List.map_cons, List.map_nil, sub_zero, neg_sq]
    simp only [mean, List.sum_cons, List.sum_nil, List.length_cons, List.length_nil]
    push_cast
    ring
  unfold Anti Spec.layerNorm
  rw [hc]
  simp only [realA, hm, hv, hg, hb]
  constructor
  · simp [shrink]
  · simp [shrink, neg_div]

theorem anti_diag {x : ℝ} {X : Mat ℝ} {t : Nat} (h : Anti x X t) (v : ℝ) (b : Nat → ℝ) (hb : ∀ i, b i = 0) :
    Anti (v * x) (Spec.dense realA 2 (wmat (diag v)) b X) t := by
  obtain ⟨h0, h1⟩ := h
  unfold Anti Spec.dense col
  simp only [range2, List.map_cons, List.map_nil, h0, h1, realA, hb]
  constructor <;> simp [wmat, diag, mat]

theorem anti_add {x y : ℝ} {X Y : Mat ℝ} {t : Nat} (h : Anti x X t) (h' : Anti y Y t) :
    Anti (x + y) (madd realA X Y) t := by
  obtain ⟨h0, h1⟩ := h
  obtain ⟨h2, h3⟩ := h'
  unfold Anti madd
  simp only [h0, h1, h2, h3, realA]
  exact ⟨trivial, by ring⟩

/-- Without queries and keys all tokens have the same weight. -/
theorem weight_uniform (n h : Nat) (Q K : Mat ℝ) (hK : ∀ i s, K i s = 0) (t s : Nat) (hs : s < n) :
    attnWeight realA 2 n h Q K t s = 1 / n := by
  unfold attnWeight
  have hz : ∀ s', realA.dot (headPart 2 h K s') (headPart 2 h Q t) = 0 := by
    intro s'
    simp [realA, headPart, range2, hK]
  simp only [hz]
  rw [softmax_eq real_exact _ _ _ (by simpa using hs)]
  have hg : ∀ w, ((List.range n).map fun _ => (0 : ℝ)).getD w 0 = 0 := by
    intro w
    rw [List.getD_eq_getElem?_getD, List.getElem?_map]
    cases (List.range n)[w]? <;> rfl
  simp only [hg, mul_zero, Real.exp_zero, List.length_map, List.length_range, sum_const, card_range, nsmul_eq_mul, mul_one]

theorem anti_attend {n : Nat} (Q K V : Mat ℝ) (hK : ∀ i s, K i s = 0) (x : Nat → ℝ)
    (hV : ∀ s, s < n → Anti (x s) V s) (t : Nat) :
    Anti ((∑ s ∈ range n, x s) / n) (Spec.attend realA 2 n Q K V) t := by
  have he : ∀ j, Spec.attend realA 2 n Q K V j t = (∑ s ∈ range n, V j s) / n := by
    intro j
    unfold Spec.attend
    rw [real_exact.dot, List.zipWith_map_left, List.zipWith_map_right, List.zipWith_self, map_range_sum, sum_div]
    refine sum_congr rfl fun s hs => ?_
    rw [weight_uniform n _ Q K hK t s (by simpa using hs)]
    ring
  refine ⟨?_, ?_⟩
  · rw [he, sum_congr rfl fun s hs => (hV s (by simpa using hs)).1]
  · rw [he, sum_congr rfl fun s hs => (hV s (by simpa using hs)).2, sum_neg_distrib, neg_div]

/-- The layer on vectors `(x, -x)`. -/
theorem anti_layer {n : Nat} (X : Mat ℝ) (x : Nat → ℝ) (hX : ∀ s, s < n → Anti (x s) X s) (t : Nat) (ht : t < n) :
    Anti (shrink (shrink (x t + (∑ s ∈ range n, 9 * x s) / n))) (refLayer realA 1 2 2 n 1 padL.ref X) t := by
  have hz : ∀ i s, Spec.dense realA 2 padL.ref.kw padL.ref.kb X i s = 0 := by
    intro i s
    simp [Spec.dense, col, realA, padL, Layer.ref, wmat, wvec, diag, mat, range2]
  have h1 : Anti (shrink (x t + (∑ s ∈ range n, 9 * x s) / n)) (refAttention realA 1 2 2 n padL.ref X) t := by
    refine anti_norm (anti_add (hX t ht) ?_) _ _ (fun _ => rfl) (fun _ => rfl)
    rw [← one_mul ((∑ s ∈ range n, 9 * x s) / n)]
    refine anti_diag (anti_attend _ _ _ hz (fun s => 9 * x s) (fun s hs => anti_diag (hX s hs) 9 _ fun _ => rfl) t) 1 _
      fun _ => rfl
  unfold refLayer refFeedForward
  refine anti_norm ?_ _ _ (fun _ => rfl) (fun _ => rfl)
  rw [← add_zero (shrink (x t + _))]
  refine anti_add h1 ⟨?_, ?_⟩ <;>
  simp [Spec.dense, col, realA, padL, Layer.ref, wmat, wvec, mat]

/-- The hidden states of `padM` after its layer: `n` tokens, the embedding of token `s` being `(sign s, - sign s)`. -/
theorem padM_states (b : Bool) (tokens segs : List Nat) (t : Nat) (ht : t < tokens.length) :
    Anti (shrink (shrink (shrink (if tokens.getD t 0 = 1 then -1 else 1) +
      (∑ s ∈ range tokens.length, 9 * shrink (if tokens.getD s 0 = 1 then -1 else 1)) / tokens.length)))
      (hiddenStates realA (padM b) 1 tokens segs) t := by
  have he : ∀ s, s < tokens.length → Anti (shrink (if tokens.getD s 0 = 1 then -1 else 1))
      (refEmbed realA 1 2 (wmat (padM b).w.tok) (wmat (padM b).w.seg) (wmat (padM b).w.pos) (wvec (padM b).w.lnw)
        (wvec (padM b).w.lnb) (tokens.getD · 0) (segs.getD · 0) (refPos (padM b) tokens)) s := by
    intro s _
    refine anti_norm ?_ _ _ (fun _ => rfl) (fun _ => rfl)
    constructor <;>
    · simp only [realA, padM, wmat, mat]
      generalize tokens.getD s 0 = v
      by_cases h : v = 1 <;> simp [h]
  unfold hiddenStates encoded
  have hd : (padM b).hp.hidden / (padM b).hp.heads = 2 := by simp [padM]
  rw [hd]
  exact anti_layer _ (fun s => shrink (if tokens.getD s 0 = 1 then -1 else 1)) he t ht

theorem padM_shaped (b : Bool) (tokens : List Nat) (hl : tokens.length ≤ 3) (hv : ∀ t ∈ tokens, t < 3) :
    Shaped (padM b) 3 4 1 tokens := by
  refine ⟨⟨⟨?_, ?_, ?_, ?_, ?_, ?_, rfl, ?_, ?_⟩, by simp [padM], ⟨2, rfl⟩, by simp [padM], rfl⟩, by decide, by decide,
    by decide, by simp [padM], by simp [padM], ?_, fun t ht => by have := hv t ht; omega⟩
  case refine_6 =>
    intro l hl
    simp only [padM, List.mem_singleton] at hl
    subst hl
    constructor <;> exact ⟨rfl, rfl, rfl, rfl, rfl⟩
  case refine_9 =>
    simp only [padM]
    cases b
    · show 1 + _ < _
      omega
    · show _ < _
      omega
  all_goals exact ⟨rfl, rfl, rfl, rfl, rfl⟩

theorem padM_accepted (b : Bool) (tokens segs : List Nat) (hl : tokens.length ≤ 3) (hs : segs.length = tokens.length)
    (h0 : ∀ s ∈ segs, s = 0) : Accepted (padM b) tokens segs 0 := by
  refine ⟨by simp only [padM]; omega, hs, fun s h => ?_, by decide⟩
  rw [h0 s h]
  simp [padM]

theorem padM_rows (b : Bool) (tokens : List Nat) (hl : tokens.countP (· ≠ 1) ≤ 2 ∧ tokens.length ≤ 3)
    (hv : ∀ t ∈ tokens, t < 3) : RowsExist (padM b) 3 4 tokens := by
  refine ⟨hv, fun t ht => ?_⟩
  cases b
  · show robertaPos 1 tokens t < 4
    unfold robertaPos
    have := (List.take_sublist (t + 1) tokens).countP_le (p := (· ≠ 1))
    split <;> omega
  · show t < 4
    omega

/-- C122 fails: in both architectures, two padding tokens behind the text turn a positive hidden state of its only token
into a negative one; there is no attention mask. -/
theorem C122_counterexample (g : Gg) (b : Bool) (buf buf' : List ℝ) (hbuf : buf.length = 2) (hbuf' : buf'.length = 6) :
    ∃ out out' x x', (padM b).padId = 1 ∧
      eval realA g (padM b) [2] [0] 1 0 (some buf) 2 = .ok ⟨true, some out, 2⟩ ∧
      eval realA g (padM b) [2, 1, 1] [0, 0, 0] 1 0 (some buf') 6 = .ok ⟨true, some out', 6⟩ ∧
      out[0]? = some x ∧ out'[0]? = some x' ∧ 0 < x ∧ x' < 0 := by
  have hr : RowsExist (padM b) 3 4 [2] := padM_rows b _ (by simp) (by simp)
  have hr' : RowsExist (padM b) 3 4 [2, 1, 1] := padM_rows b _ (by simp) (by simp)
  rcases C61_hidden_states realA g (padM b) 3 4 1 [2] [0] (padM_shaped b _ (by simp) (by simp))
    (padM_accepted b _ _ (by simp) rfl (by simp)) (by simp) hr 1 (by simp [padM]) buf hbuf with h | ⟨out, h1, _, h2⟩
  · omega
  rcases C61_hidden_states realA g (padM b) 3 4 1 [2, 1, 1] [0, 0, 0] (padM_shaped b _ (by simp) (by simp))
    (padM_accepted b _ _ (by simp) rfl (by simp)) (by simp) hr' 1 (by simp [padM]) buf' hbuf' with h | ⟨out', h1', _, h2'⟩
  · omega
  rw [hbuf] at h1
  rw [hbuf'] at h1'
  have e := h2 0 0 (by simp [padM]) (by simp)
  have e' := h2' 0 0 (by simp [padM]) (by simp)
  rw [Nat.zero_mul, Nat.zero_add] at e e'
  have hc : 0 < shrink 1 := shrink_pos one_pos
  refine ⟨out, out', _, _, rfl, h1, h1', e, e', ?_, ?_⟩
  · refine lt_of_lt_of_eq ?_ (padM_states b [2] [0] 0 (by simp)).1.symm
    simp only [List.length_cons, List.length_nil, sum_range_succ, sum_range_zero, List.getD_cons_zero]
    norm_num
    exact shrink_pos (shrink_pos (by linarith))
  · refine lt_of_eq_of_lt (padM_states b [2, 1, 1] [0, 0, 0] 0 (by simp)).1 ?_
    simp only [List.length_cons, List.length_nil, sum_range_succ, sum_range_zero, List.getD_cons_zero,
      List.getD_cons_succ]
    norm_num [shrink_neg]
    have : shrink 1 + -(9 * shrink 1) / 3 = -(2 * shrink 1) := by ring
    rw [this, shrink_neg, shrink_neg, neg_lt_zero]
    exact shrink_pos (shrink_pos (by linarith))

/-- The hypotheses of C122 are met: one token and two padding tokens behind it. -/
example (b : Bool) : Shaped (padM b) 3 4 1 [2] ∧ Accepted (padM b) [2] [0] 0 ∧ RowsExist (padM b) 3 4 [2] ∧
    Shaped (padM b) 3 4 1 ([2] ++ [1, 1]) ∧ Accepted (padM b) ([2] ++ [1, 1]) ([0] ++ [0, 0]) 0 ∧
    RowsExist (padM b) 3 4 ([2] ++ [1, 1]) :=
  ⟨padM_shaped b _ (by simp) (by simp), padM_accepted b _ _ (by simp) rfl (by simp), padM_rows b _ (by simp) (by simp),
    padM_shaped b _ (by simp) (by simp), padM_accepted b _ _ (by simp) rfl (by simp), padM_rows b _ (by simp) (by simp)⟩

end Berts.Props
