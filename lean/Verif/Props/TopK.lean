import Verif.Props.Eval

/-! # C125: the results of `eval_lm` for a token depend only on that token -/

namespace Berts.Props

open Berts.Spec Berts.Graph Berts.Eval

variable {α : Type}

/-- The results of token `t` in an array with `k` results per token. -/
def block {β : Type} (l : List β) (k t : Nat) : List β := (l.drop (t * k)).take k

theorem block_eq {β : Type} {l : List β} {k t : Nat} {f : Nat → β} (h : ∀ i, i < k → l[t * k + i]? = some (f i)) :
    block l k t = (List.range k).map f := by
  apply List.ext_getElem?
  intro i
  unfold block
  rw [List.getElem?_take, List.getElem?_drop, List.getElem?_map]
  by_cases hi : i < k
  · rw [if_pos hi, h i hi, List.getElem?_range hi]; rfl
  · rw [if_neg hi, List.getElem?_eq_none (by simpa using hi)]; rfl

/-- The results for `0 < top_k <= vocabulary`, explicitly. -/
theorem topk_blocks (A : Arith α) (ge : α → α → Prop) (hA : ArgsortSpec A ge) (g : Gg) (m : EModel α)
    (lm : LmWeights α) (hm : HeadOK m lm)
    (hidden : List α) (dflt : α) (n : Nat) (hn : 0 < n) (hlen : hidden.length = m.hp.hidden * n)
    (k : Nat) (hk0 : 0 < k) (hk : k ≤ m.vocabCount) (ids : List Nat) (probs : List α) (given : Nat)
    (h1 : n * k ≤ ids.length) (h2 : n * k ≤ probs.length) :
    ∃ a b, evalLm A g m hidden dflt k (some ids) (some probs) given = .ok ⟨true, some a, some b, k * n⟩ ∧
      ∀ t, t < n → block a k t = rowIds A m.vocabCount k (refProbs A m lm hidden dflt) t ∧
        block b k t = (rowIds A m.vocabCount k (refProbs A m lm hidden dflt) t).map (refProbs A m lm hidden dflt · t) := by
  obtain ⟨x, p, ht, he⟩ := evalLm_run (A := A) (g := g) hm hidden dflt n hn hlen k ids probs given
  have hkk : (k : Int).toNat = k := by omega
  have hneed : outputTokens m.vocabCount k = k := by
    unfold outputTokens; rw [if_neg (by omega), hkk, Nat.min_eq_left hk]
  have hids : ∀ i t, i < m.vocabCount → t < n →
      A.argsort (col m.vocabCount (refProbs A m lm hidden dflt) t) i < m.vocabCount :=
    fun i t hi _ => argsort_lt hA _ _ i t hi
  have hloop := topkLoop_ok ht hk hids n 0 (by omega) [] ids [] probs (by simp) (by simp) (by omega) (by omega)
  simp only [List.nil_append] at hloop
  have hrun := he
  rw [hneed] at hrun
  unfold lmOutput at hrun
  rw [if_neg (by omega), List.range_eq_range', hkk, hloop, res_ok] at hrun
  refine ⟨_, _, hrun, fun t htn => ?_⟩
  · have hpos : ∀ i, i < k → t * k + i < n * k := by
      intro i hi
      calc t * k + i < t * k + k := by omega
        _ = (t + 1) * k := by rw [Nat.add_mul, Nat.one_mul]
        _ ≤ n * k := Nat.mul_le_mul_right _ htn
    unfold rowIds
    constructor
    · refine block_eq fun i hi => ?_
      rw [List.getElem?_append_left (by rw [flatMap_len _ k (by simp)]; exact hpos i hi),
        flatMap_get _ k (by simp) n 0 t i htn hi]
      simp [hi]
    · rw [List.map_map]
      refine block_eq fun i hi => ?_
      rw [List.getElem?_append_left (by rw [flatMap_len _ k (by simp)]; exact hpos i hi),
        flatMap_get _ k (by simp) n 0 t i htn hi]
      simp [hi]

theorem rowIds_take (A : Arith α) (V k k' : Nat) (h : k ≤ k') (P : Mat α) (t : Nat) :
    (rowIds A V k' P t).take k = rowIds A V k P t := by
  unfold rowIds
  rw [← List.map_take, List.take_range, Nat.min_eq_left h]

/-- C125: a call for fewer results returns, for each token, the first of those of a call for more results. -/
theorem C125_prefix (A : Arith α) (ge : α → α → Prop) (hA : ArgsortSpec A ge) (g : Gg) (m : EModel α)
    (lm : LmWeights α) (hm : HeadOK m lm)
    (hidden : List α) (dflt : α) (n : Nat) (hn : 0 < n) (hlen : hidden.length = m.hp.hidden * n)
    (k k' : Nat) (hk0 : 0 < k) (hkk : k ≤ k') (hk : k' ≤ m.vocabCount)
    (ids ids' : List Nat) (probs probs' : List α) (given given' : Nat)
    (h1 : n * k ≤ ids.length) (h2 : n * k ≤ probs.length) (h1' : n * k' ≤ ids'.length) (h2' : n * k' ≤ probs'.length) :
    ∃ a b a' b', evalLm A g m hidden dflt k (some ids) (some probs) given = .ok ⟨true, some a, some b, k * n⟩ ∧
      evalLm A g m hidden dflt k' (some ids') (some probs') given' = .ok ⟨true, some a', some b', k' * n⟩ ∧
      ∀ t, t < n → block a k t = (block a' k' t).take k ∧ block b k t = (block b' k' t).take k := by
  obtain ⟨a, b, e1, e2⟩ := topk_blocks A ge hA g m lm hm hidden dflt n hn hlen k hk0 (by omega) ids probs given h1 h2
  obtain ⟨a', b', e3, e4⟩ := topk_blocks A ge hA g m lm hm hidden dflt n hn hlen k' (by omega) hk ids' probs' given' h1' h2'
  refine ⟨a, b, a', b', e1, e3, fun t ht => ?_⟩
  rw [(e2 t ht).1, (e2 t ht).2, (e4 t ht).1, (e4 t ht).2, ← List.map_take, rowIds_take A _ k k' hkk]
  exact ⟨rfl, rfl⟩

/-- C125: its ids are also the first of those returned when no number is chosen. -/
theorem C125_all (A : Arith α) (ge : α → α → Prop) (hA : ArgsortSpec A ge) (g : Gg) (m : EModel α)
    (lm : LmWeights α) (hm : HeadOK m lm)
    (hidden : List α) (dflt : α) (n : Nat) (hn : 0 < n) (hlen : hidden.length = m.hp.hidden * n)
    (k : Nat) (hk0 : 0 < k) (hk : k ≤ m.vocabCount) (topK : Int) (htop : topK ≤ 0)
    (ids ids' : List Nat) (probs probs' : List α) (given : Nat)
    (h1 : n * k ≤ ids.length) (h2 : n * k ≤ probs.length) (h1' : ids'.length = m.vocabCount * n)
    (h2' : probs'.length = m.vocabCount * n) :
    ∃ a b a' b', evalLm A g m hidden dflt k (some ids) (some probs) given = .ok ⟨true, some a, some b, k * n⟩ ∧
      evalLm A g m hidden dflt topK (some ids') (some probs') (m.vocabCount * n) =
        .ok ⟨true, some a', some b', m.vocabCount * n⟩ ∧
      ∀ t, t < n → block a k t = (block a' m.vocabCount t).take k ∧
        block b k t = (block a k t).filterMap (fun v => (block b' m.vocabCount t)[v]?) := by
  obtain ⟨a, b, e1, e2⟩ := topk_blocks A ge hA g m lm hm hidden dflt n hn hlen k hk0 hk ids probs given h1 h2
  obtain ⟨a', b', e3, e4⟩ := C44_all_counterexample A g m lm hm hidden dflt n hn hlen topK htop ids' probs' h1' h2'
  refine ⟨a, b, a', b', e1, e3, fun t ht => ?_⟩
  have h5 : block a' m.vocabCount t = rowIds A m.vocabCount m.vocabCount (refProbs A m lm hidden dflt) t :=
    block_eq fun i hi => (e4 t i ht hi).1
  have h6 : block b' m.vocabCount t = (List.range m.vocabCount).map (refProbs A m lm hidden dflt · t) :=
    block_eq fun i hi => (e4 t i ht hi).2
  rw [(e2 t ht).1, (e2 t ht).2, h5, h6, rowIds_take A _ k _ hk]
  refine ⟨rfl, ?_⟩
  have hfm : ∀ (l : List Nat) (f : Nat → α) (q : Nat → Option α), (∀ v ∈ l, q v = some (f v)) → l.map f = l.filterMap q := by
    intro l f q hq
    induction l with
    | nil => rfl
    | cons v l ih =>
      rw [List.map_cons, List.filterMap_cons, hq v (by simp), ih fun w hw => hq w (by simp [hw])]
  refine hfm _ _ _ fun v hv => ?_
  unfold rowIds at hv
  obtain ⟨i, hi, rfl⟩ := List.mem_map.1 hv
  have := argsort_lt hA m.vocabCount (refProbs A m lm hidden dflt) i t (by have := List.mem_range.1 hi; omega)
  simp [this]

theorem refProbs_slice (A : Arith α) (m : EModel α) (lm : LmWeights α) (hidden : List α) (dflt : α) (t v : Nat) :
    refProbs A m lm (block hidden m.hp.hidden t) dflt v 0 = refProbs A m lm hidden dflt v t := by
  have h : ∀ i, i < m.hp.hidden → inputMat m (block hidden m.hp.hidden t) dflt i 0 = inputMat m hidden dflt i t := by
    intro i hi
    unfold inputMat block
    rw [List.getD_eq_getElem?_getD, List.getD_eq_getElem?_getD, List.getElem?_take, if_pos (by omega),
      List.getElem?_drop, Nat.mul_zero, Nat.add_zero, Nat.mul_comm, Nat.add_comm]
  have hc : col m.hp.hidden (inputMat m (block hidden m.hp.hidden t) dflt) 0 = col m.hp.hidden (inputMat m hidden dflt) t :=
    List.map_congr_left fun i hi => h i (List.mem_range.1 hi)
  unfold refProbs refLm Spec.dense Spec.layerNorm col
  unfold col at hc
  simp only [hc]

/-- C125: the results for a token are those of a call with the hidden states of this token only. -/
theorem C125_alone (A : Arith α) (ge : α → α → Prop) (hA : ArgsortSpec A ge) (g : Gg) (m : EModel α)
    (lm : LmWeights α) (hm : HeadOK m lm)
    (hidden : List α) (dflt : α) (n : Nat) (hn : 0 < n) (hlen : hidden.length = m.hp.hidden * n)
    (k : Nat) (hk0 : 0 < k) (hk : k ≤ m.vocabCount) (ids ids' : List Nat) (probs probs' : List α) (given given' : Nat)
    (h1 : n * k ≤ ids.length) (h2 : n * k ≤ probs.length) (h1' : k ≤ ids'.length) (h2' : k ≤ probs'.length) (t : Nat) (ht : t < n) :
    ∃ a b a' b', evalLm A g m hidden dflt k (some ids) (some probs) given = .ok ⟨true, some a, some b, k * n⟩ ∧
      evalLm A g m (block hidden m.hp.hidden t) dflt k (some ids') (some probs') given' =
        .ok ⟨true, some a', some b', k⟩ ∧
      block a k t = a'.take k ∧ block b k t = b'.take k := by
  have hbl : (block hidden m.hp.hidden t).length = m.hp.hidden * 1 := by
    have : (t + 1) * m.hp.hidden ≤ hidden.length := by
      rw [hlen, Nat.mul_comm]; exact Nat.mul_le_mul_left _ ht
    rw [Nat.add_mul, Nat.one_mul] at this
    unfold block
    rw [List.length_take, List.length_drop]
    omega
  obtain ⟨a, b, e1, e2⟩ := topk_blocks A ge hA g m lm hm hidden dflt n hn hlen k hk0 hk ids probs given h1 h2
  obtain ⟨a', b', e3, e4⟩ := topk_blocks A ge hA g m lm hm (block hidden m.hp.hidden t) dflt 1 (by omega) hbl k hk0 hk ids'
    probs' given' (by omega) (by omega)
  refine ⟨a, b, a', b', e1, by rw [e3, Nat.mul_one], ?_⟩
  have h3 := e4 0 (by omega)
  have hcol : col m.vocabCount (refProbs A m lm (block hidden m.hp.hidden t) dflt) 0 =
      col m.vocabCount (refProbs A m lm hidden dflt) t :=
    List.map_congr_left fun i _ => refProbs_slice A m lm hidden dflt t i
  have hb0 : ∀ {β : Type} (l : List β), block l k 0 = l.take k := by
    intro β l; unfold block; rw [Nat.zero_mul]; rfl
  rw [hb0, hb0] at h3
  rw [h3.1, h3.2, (e2 t ht).1, (e2 t ht).2]
  unfold rowIds
  rw [hcol]
  refine ⟨rfl, List.map_congr_left fun v _ => ?_⟩
  rw [refProbs_slice]

/-- The hypotheses can be met: one and two of three results for two tokens. -/
example : ∃ a b a' b', evalLm tinyA tinyG (tiny true 4) [1, 2, 3, 5] 0 (1 : Nat) (some [0, 0]) (some [0, 0]) 2 =
      .ok ⟨true, some a, some b, 1 * 2⟩ ∧
    evalLm tinyA tinyG (tiny true 4) [1, 2, 3, 5] 0 (2 : Nat) (some [0, 0, 0, 0]) (some [0, 0, 0, 0]) 4 =
      .ok ⟨true, some a', some b', 2 * 2⟩ ∧
    ∀ t, t < 2 → block a 1 t = (block a' 2 t).take 1 ∧ block b 1 t = (block b' 2 t).take 1 :=
  C125_prefix tinyA _ tiny_argsort tinyG (tiny true 4) tinyLm (tiny_head true 4) [1, 2, 3, 5] 0 2 (by decide) rfl 1 2
    (by decide) (by decide) (by decide) _ _ _ _ 2 4 (by decide) (by decide) (by decide) (by decide)

end Berts.Props
