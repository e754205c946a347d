import Verif.Props.Reals
import Verif.Props.Examples

/-! # C124: the scores of the fill-mask program in exact arithmetic -/

namespace Berts.Props

open Berts.Spec Berts.Graph Berts.Eval Berts.Api Berts.Examples Finset

/-- The probability of token `v` at place `pos` of the tokens, as in a textbook: the hidden states of the last layer, the
head, and the exponential of the result divided by the sum over the vocabulary. -/
noncomputable def maskProb (A : Arith ℝ) (m : EModel ℝ) (lm : LmWeights ℝ) (tokens : List Nat) (dflt : ℝ) (pos v : Nat) : ℝ :=
  let hidden := expected A m m.hp.nLayers 0 tokens (tokens.map fun _ => 0)
  Real.exp (logit A m lm hidden dflt v pos) / ∑ w ∈ range m.vocabCount, Real.exp (logit A m lm hidden dflt w pos)

/-- C124: the program prints `k` different tokens of the vocabulary with their names and their probabilities at the place
of the mask, in descending order; no other token is more probable than any of them; together they have at least the
share `k / vocabulary` and at most one, and exactly one if the whole vocabulary is asked for. -/
theorem C124_scores_partial {A : Arith ℝ} {eps : Nat → ℝ} (hA : Exact A eps) (hA' : ArgsortSpec A (fun x y => y ≤ x)) (g : Gg)
    (c : Ctx) (am : ModelI) (hm : c.model = some am) (m : EModel ℝ) (lm : LmWeights ℝ) (hhead : HeadOK m lm)
    (hvoc : am.vocabCount = m.vocabCount) (text toks : List Nat)
    (ht : am.tokenize text = .ok (true, toks)) (hc : am.clsId ≠ INVALID) (hs : am.sepId ≠ INVALID)
    (hlen : toks.length + 2 ≤ text.length) (pos : Nat)
    (hpos : (am.clsId :: toks ++ [am.sepId])[pos]? = some am.maskId)
    (huniq : ∀ q : Nat, (am.clsId :: toks ++ [am.sepId])[q]? = some am.maskId → q = pos)
    (V P S : Nat) (hf : Fits m V P S (am.clsId :: toks ++ [am.sepId]))
    (hmax : toks.length + 2 ≤ m.hp.maxTokens) (hseg : 0 < m.hp.segments)
    (hr : RowsExist m V P (am.clsId :: toks ++ [am.sepId])) (hl : 1 ≤ m.hp.nLayers)
    (name : Nat → List Nat)
    (hname : ∀ v, v < m.vocabCount → am.idToToken v = .ok (name v) ∧ (name v).length ≤ 256)
    (k : Nat) (hk0 : 0 < k) (hk : k ≤ m.vocabCount) (dflt : ℝ) (junkI : Nat → Nat) (junk : Nat → ℝ) :
    ∃ rs : List (Nat × List Nat × ℝ),
      let prob := maskProb A m lm (am.clsId :: toks ++ [am.sepId]) dflt pos
      fillMask A g (some c) (some ⟨some m⟩) dflt k text junkI junk = .ok (0, rs) ∧
      rs.length = k ∧ (rs.map (·.1)).Nodup ∧
      (∀ r ∈ rs, r.1 < m.vocabCount ∧ r.2.1 = name r.1 ∧ r.2.2 = prob r.1 ∧ 0 < r.2.2) ∧
      (rs.map (·.2.2)).Pairwise (fun x y => y ≤ x) ∧
      (∀ v, v < m.vocabCount → v ∉ rs.map (·.1) → ∀ r ∈ rs, prob v ≤ r.2.2) ∧
      (k : ℝ) / m.vocabCount ≤ (rs.map (·.2.2)).sum ∧ (rs.map (·.2.2)).sum ≤ 1 ∧
      (k = m.vocabCount → (rs.map (·.2.2)).sum = 1) := by
  obtain ⟨best, b0, b1, b2, b3, b4⟩ := C66_best_tokens_partial A _ hA' g c am hm m lm hhead hvoc text toks ht hc hs hlen pos
    hpos huniq V P S hf hmax hseg hr hl name hname k hk0 hk dflt junkI junk
  simp only at b0 b3 b4
  have hV : 0 < m.vocabCount := by omega
  have heq : ∀ v, v < m.vocabCount → refProbs A m lm (expected A m m.hp.nLayers 0 (am.clsId :: toks ++ [am.sepId])
      ((am.clsId :: toks ++ [am.sepId]).map fun _ => 0)) dflt v pos =
      maskProb A m lm (am.clsId :: toks ++ [am.sepId]) dflt pos v := fun v hv => refProbs_eq hA m lm _ dflt v pos hv
  have h0 : ∀ v, v < m.vocabCount → 0 < maskProb A m lm (am.clsId :: toks ++ [am.sepId]) dflt pos v := fun v hv => by
    rw [← heq v hv]; exact refProbs_pos hA m lm _ dflt v pos hv
  have h1 : ∑ v ∈ range m.vocabCount, maskProb A m lm (am.clsId :: toks ++ [am.sepId]) dflt pos v = 1 := by
    rw [← refProbs_sum hA m lm _ dflt pos hV]
    exact sum_congr rfl fun v hv => (heq v (mem_range.1 hv)).symm
  have b0' : fillMask A g (some c) (some ⟨some m⟩) dflt k text junkI junk = .ok (0, (List.range k).map fun i =>
      (best i, name (best i), maskProb A m lm (am.clsId :: toks ++ [am.sepId]) dflt pos (best i))) := by
    rw [b0]
    refine congrArg (fun l => Res.ok (0, l)) (List.map_congr_left fun i hi => ?_)
    rw [heq _ (b1 i (List.mem_range.1 hi))]
  have b3' : ∀ i j, i ≤ j → j < k → maskProb A m lm (am.clsId :: toks ++ [am.sepId]) dflt pos (best j) ≤
      maskProb A m lm (am.clsId :: toks ++ [am.sepId]) dflt pos (best i) := fun i j hij hj => by
    rw [← heq _ (b1 j hj), ← heq _ (b1 i (by omega))]; exact b3 i j hij hj
  have b4' : ∀ v, v < m.vocabCount → (∀ i, i < k → best i ≠ v) → ∀ i, i < k →
      maskProb A m lm (am.clsId :: toks ++ [am.sepId]) dflt pos v ≤
        maskProb A m lm (am.clsId :: toks ++ [am.sepId]) dflt pos (best i) := fun v hv hn i hi => by
    rw [← heq _ hv, ← heq _ (b1 i hi)]; exact b4 v hv hn i hi
  generalize maskProb A m lm (am.clsId :: toks ++ [am.sepId]) dflt pos = prob at *
  refine ⟨_, b0', by simp, ?_, ?_, ?_, ?_, ?_⟩
  · rw [List.map_map]
    refine List.Nodup.map_on (fun i hi j hj h => ?_) List.nodup_range
    exact b2 i j (List.mem_range.1 hi) (List.mem_range.1 hj) h
  · intro r hr
    obtain ⟨i, hi, rfl⟩ := List.mem_map.1 hr
    have := b1 i (List.mem_range.1 hi)
    exact ⟨this, rfl, rfl, h0 _ this⟩
  · rw [List.map_map, List.pairwise_map]
    refine List.Pairwise.imp_of_mem (R := fun i j => i < j) (fun {i j} hi hj hij => ?_) List.pairwise_lt_range
    exact b3' i j (by omega) (List.mem_range.1 hj)
  · intro v hv hn r hr
    obtain ⟨i, hi, rfl⟩ := List.mem_map.1 hr
    refine b4' v hv (fun j hj h => hn ?_) i (List.mem_range.1 hi)
    rw [List.map_map]
    exact List.mem_map.2 ⟨j, List.mem_range.2 hj, h⟩
  · have hsum : (((List.range k).map fun i => (best i, name (best i), prob (best i))).map (·.2.2)).sum =
        ∑ i ∈ range k, prob (best i) := by
      rw [List.map_map]
      rfl
    simp only [hsum]
    exact best_sums hk hV h0 h1 b1 b2 b4'

/-- The hypotheses of C124 can be met: a model over the reals and a tokenizer for which every text is one mask. -/
example : ∃ rs, fillMask realA tinyG (some ⟨.bert, some tinyTok⟩) (some ⟨some (realTiny true 4)⟩) 0 2 [60, 60, 60]
    (fun _ => 7) (fun _ => 7) = .ok (0, rs) ∧ rs.length = 2 := by
  obtain ⟨rs, h1, h2, _⟩ := C124_scores_partial real_exact real_argsort tinyG ⟨.bert, some tinyTok⟩ tinyTok rfl
    (realTiny true 4) realLm
    ⟨rfl, ⟨realT_w 2 2, realT_v 2, realT_v 2, realT_v 2, realT_w 2 3, realT_v 3⟩, by simp [realTiny], by simp [realTiny],
      fun _ => by simp [realTiny]⟩ (by simp [realTiny, tinyTok]) [60, 60, 60] [1] rfl (by decide) (by decide) (by decide) 1 rfl
    (by intro q hq
        match q, hq with
        | 0, h => exact absurd h (by decide)
        | 1, _ => rfl
        | 2, h => exact absurd h (by decide)
        | q + 3, h => simp at h) 3 4 2
    ⟨⟨realTiny_ok true 4, by decide, by decide, by decide, by simp [realTiny], by simp [realTiny],
      by simp [realTiny], by simp [tinyTok]⟩, by simp [realTiny]⟩ (by simp [realTiny]) (by simp [realTiny])
    (by refine ⟨by decide, ?_⟩
        intro t ht
        simp only [tinyTok, List.length_cons, List.length_nil, List.length_append] at ht
        simp only [refPos, realTiny, if_true]
        omega) (by simp [realTiny]) (fun v => [97 + v]) (fun v _ => ⟨rfl, by simp⟩) 2 (by decide) (by simp [realTiny]) 0
    (fun _ => 7) (fun _ => 7)
  exact ⟨rs, h1, h2⟩

end Berts.Props
