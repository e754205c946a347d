import Verif.Props.Eval
import Verif.Proofs.SizeT

/-!
# C93: sizes in `size_t`

C45, C46 and C47 say that the estimates, computed with natural numbers, are exactly the memory that is
used.  The code computes them with 64-bit words.
-/

namespace Berts.Props

open Berts.Spec (Arith)
open Berts.Graph Berts.Eval Berts.SizeT

variable {α : Type}

/-- The constants of ggml on a 64-bit machine: `sizeof(ggml_tensor)`, `sizeof(ggml_object)`, alignment 16, and
a graph. -/
def realG : Gg := ⟨368, 32, 16, 262144⟩

/-- Their words. -/
def realW : GgW := ⟨368, 32, 16, 262144⟩

theorem real_consts : Consts realG 4 realW := ⟨rfl, rfl, rfl, by decide, rfl, rfl⟩

/-- C93, exactly: the estimate for a graph in `size_t` is the memory that is used, modulo 2^64. -/
theorem C93_graph_modulo {g : Gg} {k : Nat} {gw : GgW} (hc : Consts g k gw) (hp : HParams)
    (hl : hp.nLayers < 2 ^ 64) (poolType n L : Nat) :
    ((bufferSizeW gw hp poolType (.ofNat 64 n)).calc (.ofNat 64 L)).toNat =
      (bufferSize g hp poolType n).calc L % 2 ^ 64 :=
  mod_calc hc hp hl poolType n L

example : ((bufferSizeW realW (tiny true 4).hp 1 (.ofNat 64 3)).calc (.ofNat 64 1)).toNat =
    (bufferSize realG (tiny true 4).hp 1 3).calc 1 % 2 ^ 64 :=
  C93_graph_modulo real_consts _ (by decide) 1 3 1

/-- C93, exactly: the same for the language model head; the assertion fails in both or in none. -/
theorem C93_head_modulo {g : Gg} {k : Nat} {gw : GgW} (hc : Consts g k gw) (isBert : Bool) (hp : HParams)
    (vocab n : Nat) :
    (lmBufferSizeW gw isBert hp (.ofNat 64 vocab) (.ofNat 64 n) = .abort ∧
      lmBufferSize g isBert hp vocab n = .abort) ∨
    ∃ w s, lmBufferSizeW gw isBert hp (.ofNat 64 vocab) (.ofNat 64 n) = .ok w ∧
      lmBufferSize g isBert hp vocab n = .ok s ∧ (w.calc 0).toNat = s.calc 0 % 2 ^ 64 :=
  mod_lm hc isBert hp vocab n

example : ∃ w s, lmBufferSizeW realW true (tiny true 4).hp (.ofNat 64 3) (.ofNat 64 2) = .ok w ∧
    lmBufferSize realG true (tiny true 4).hp 3 2 = .ok s ∧ (w.calc 0).toNat = s.calc 0 % 2 ^ 64 :=
  (C93_head_modulo real_consts true (tiny true 4).hp 3 2).resolve_left (fun h => by
    have := h.2
    simp [lmBufferSize, tiny] at this)

/-- C93 (partial: at most 65536 tokens and a model within the bounds of `SmallModel`): the estimate does not
wrap around, so it is exactly the memory that is used. -/
theorem C93_graph_partial {g : Gg} {k : Nat} {gw : GgW} (hc : Consts g k gw) (hg : SmallConsts g) (hp : HParams)
    (hs : SmallModel hp) (poolType n L : Nat) (hn : n ≤ 2 ^ 16) (hL : L ≤ hp.nLayers) :
    ((bufferSizeW gw hp poolType (.ofNat 64 n)).calc (.ofNat 64 L)).toNat = (bufferSize g hp poolType n).calc L := by
  have hl := hs.layers
  rw [C93_graph_modulo hc hp (by omega)]
  apply Nat.mod_eq_of_lt
  have hK : g.tensorSize + g.align + g.objectSize ≤ 2 ^ 22 := by
    have := hg.tensor; have := hg.align; have := hg.object; omega
  have ts : ∀ a b c, tensorSize g a b c ≤ 4 * (a * b * c) + 2 ^ 22 := by
    intro a b c
    have := tensorSize_le g a b c 1
    rw [Nat.mul_one, Nat.mul_assoc 4, Nat.mul_assoc 4] at this
    omega
  have m : ∀ {a b x y : Nat}, a ≤ x → b ≤ y → a * b ≤ x * y := fun h k => Nat.mul_le_mul h k
  have h1 : tensorSize g n ≤ 2 ^ 23 := by
    have := ts n 1 1
    omega
  have h0 : tensorSize g 0 ≤ 2 ^ 23 := by
    have := ts 0 1 1
    omega
  have hh : tensorSize g hp.hidden ≤ 2 ^ 23 := by
    have := ts hp.hidden 1 1
    have := hs.hidden
    omega
  have h2 : tensorSize g hp.hidden n ≤ 2 ^ 39 := by
    have := ts hp.hidden n 1
    have := m hs.hidden hn
    omega
  have h3 : tensorSize g hp.interm n ≤ 2 ^ 41 := by
    have := ts hp.interm n 1
    have := m hs.interm hn
    omega
  have h4 : tensorSize g n n hp.heads ≤ 2 ^ 49 := by
    have := ts n n hp.heads
    have := m (m hn hn) hs.heads
    omega
  have he : embSize g hp.hidden n ≤ 2 ^ 43 := by unfold embSize; omega
  have hy : (bufferSize g hp poolType n).layer ≤ 2 ^ 51 := by
    simp only [bufferSize]
    split
    · unfold layerSize
      omega
    · omega
  have hpo : poolerSize g hp.hidden poolType ≤ 2 ^ 26 := by
    unfold poolerSize
    split
    · omega
    · split <;> omega
  have hly := m hy (Nat.le_trans hL hl)
  have := hg.graph
  simp only [SizeInfo.calc]
  show embSize g hp.hidden n + _ + poolerSize g hp.hidden poolType + g.graph < _
  omega

/-- BERT-large with 512 tokens is within the bounds. -/
example : ((bufferSizeW realW ⟨30522, 1024, 24, 16, 512, 4096, 2, 0, 0⟩ 1 (.ofNat 64 512)).calc
      (.ofNat 64 24)).toNat =
    (bufferSize realG ⟨30522, 1024, 24, 16, 512, 4096, 2, 0, 0⟩ 1 512).calc 24 :=
  C93_graph_partial real_consts ⟨by decide, by decide, by decide, by decide⟩ _
    ⟨by decide, by decide, by decide, by decide⟩ 1 512 24 (by decide) (by decide)

/-- C93 for the head (partial: at most 65536 tokens, a hidden size and a vocabulary of at most 2^20 and
2^32). -/
theorem C93_head_partial {g : Gg} {k : Nat} {gw : GgW} (hc : Consts g k gw) (hg : SmallConsts g) (isBert : Bool)
    (hp : HParams) (hs : hp.hidden ≤ 2 ^ 20) (vocab n : Nat) (hv : vocab ≤ 2 ^ 32) (hn : n ≤ 2 ^ 16)
    (s : SizeInfo) (h : lmBufferSize g isBert hp vocab n = .ok s) :
    ∃ w, lmBufferSizeW gw isBert hp (.ofNat 64 vocab) (.ofNat 64 n) = .ok w ∧ (w.calc 0).toNat = s.calc 0 := by
  rcases C93_head_modulo hc isBert hp vocab n with ⟨_, h'⟩ | ⟨w, s', h1, h2, h3⟩
  · rw [h] at h'
    cases h'
  · have : s = s' := Res.ok.inj (h.symm.trans h2)
    subst this
    refine ⟨w, h1, ?_⟩
    rw [h3]
    apply Nat.mod_eq_of_lt
    have hK : g.tensorSize + g.align + g.objectSize ≤ 2 ^ 22 := by
      have := hg.tensor; have := hg.align; have := hg.object; omega
    have ts : ∀ a b, tensorSize g a b ≤ 4 * (a * b) + 2 ^ 22 := by
      intro a b
      have := tensorSize_le g a b 1 1
      rw [Nat.mul_one, Nat.mul_one, Nat.mul_assoc 4] at this
      omega
    have m : ∀ {a b x y : Nat}, a ≤ x → b ≤ y → a * b ≤ x * y := fun h k => Nat.mul_le_mul h k
    have hnh := m hn hs
    have h0 := ts 0 1
    have hi : tensorSize g (n * hp.hidden) ≤ 2 ^ 39 := by
      have := ts (n * hp.hidden) 1
      omega
    have h4 : tensorSize g hp.hidden n ≤ 2 ^ 39 := by
      have := ts hp.hidden n
      have := m hs hn
      omega
    have h5 : tensorSize g vocab n ≤ 2 ^ 51 := by
      have := ts vocab n
      have := m hv hn
      omega
    have := hg.graph
    unfold lmBufferSize at h
    split at h
    · cases h
    · have := (Res.ok.inj h).symm
      subst this
      simp only [SizeInfo.calc]
      omega

example : ∃ w s, lmBufferSizeW realW true (tiny true 4).hp (.ofNat 64 3) (.ofNat 64 2) = .ok w ∧
    lmBufferSize realG true (tiny true 4).hp 3 2 = .ok s ∧ (w.calc 0).toNat = s.calc 0 := by
  obtain ⟨s, hs⟩ : ∃ s, lmBufferSize realG true (tiny true 4).hp 3 2 = .ok s := by
    simp [lmBufferSize, tiny]
  obtain ⟨w, h1, h2⟩ := C93_head_partial real_consts ⟨by decide, by decide, by decide, by decide⟩ true
    (tiny true 4).hp (by decide) 3 2 (by decide) (by decide) s hs
  exact ⟨w, s, h1, hs, h2⟩

/-- C93, what happens otherwise: if the memory needed is 2^64 bytes or more, the buffer is too small and
building the graph is stopped by an assertion of ggml, for every well-formed model and accepted input. -/
theorem C93_wrap_aborts (g : Gg) (gw : GgW) (A : Arith α) (m : EModel α)
    (V P S : Nat) (tokens segs : List Nat) (poolType L : Nat) (hf : Shaped m V P S tokens)
    (ha : Accepted m tokens segs poolType) (hn : 0 < tokens.length) (hr : RowsExist m V P tokens)
    (hL : L ≤ m.hp.nLayers) (hw : 2 ^ 64 ≤ (bufferSize g m.hp poolType tokens.length).calc L) :
    graphProg ⟨A, g, ((bufferSizeW gw m.hp poolType (.ofNat 64 tokens.length)).calc (.ofNat 64 L)).toNat⟩
      m.hp m.w L poolType tokens segs (positionsOf m tokens) 0 = .abort := by
  have hlt : ((bufferSizeW gw m.hp poolType (.ofNat 64 tokens.length)).calc (.ofNat 64 L)).toNat <
      (bufferSize g m.hp poolType tokens.length).calc L := by
    have := ((bufferSizeW gw m.hp poolType (.ofNat 64 tokens.length)).calc (.ofNat 64 L)).isLt
    omega
  by_cases hb : m.isBert = true
  · exact (C45_bert_memory ⟨A, g, _⟩ m V P S tokens segs poolType L hf hb ha hn hr hL).2 hlt
  · exact (C46_roberta_memory ⟨A, g, _⟩ m V P S tokens segs poolType L hf (by simpa using hb) ha hn hr hL).2 hlt

/-- The model `tiny` with 2^31 positions. -/
def longModel : EModel Int :=
  { tiny true (2 ^ 31) with w := { (tiny true (2 ^ 31)).w with pos := tinyT 2 (2 ^ 31) } }

theorem longModel_shaped (n : Nat) (h : n < 2 ^ 31) : Shaped longModel 3 (2 ^ 31) 2 (List.replicate n 0) := by
  have hk := tiny_ok true (2 ^ 31)
  refine ⟨⟨⟨hk.weights.tok, tinyT_w 2 (2 ^ 31), hk.weights.seg, hk.weights.lnw, hk.weights.lnb,
    hk.weights.layers, hk.weights.count, hk.weights.poolw, hk.weights.poolb⟩, hk.hidden, hk.heads, hk.interm, hk.act⟩,
    by decide, by decide, by decide, by simp [longModel, tiny], by simp [longModel, tiny], ?_, ?_⟩
  · simp only [longModel, tiny, List.length_replicate, if_true]
    exact h
  · intro t ht
    rw [List.eq_of_mem_replicate ht]
    decide

theorem longModel_accepted (n : Nat) (h : n ≤ 2 ^ 31) :
    Accepted longModel (List.replicate n 0) (List.replicate n 0) 0 := by
  refine ⟨?_, by simp, ?_, by decide⟩
  · simpa [longModel, tiny] using h
  · intro s hs
    rw [List.eq_of_mem_replicate hs]
    simp [longModel, tiny]

theorem longModel_rows (n : Nat) (h : n < 2 ^ 31) : RowsExist longModel 3 (2 ^ 31) (List.replicate n 0) := by
  refine ⟨?_, ?_⟩
  · intro t ht
    rw [List.eq_of_mem_replicate ht]
    decide
  · intro t ht
    rw [List.length_replicate] at ht
    have : refPos longModel (List.replicate n 0) t = t := by simp [refPos, longModel, tiny]
    omega

theorem longModel_size (g : Gg) (ha : 0 < g.align) (n : Nat) (h : 2 ^ 30 ≤ n) :
    2 ^ 64 ≤ (bufferSize g longModel.hp 0 n).calc 1 := by
  have h1 := le_tensorSize g ha n n 2 1
  have h2 : 2 ^ 30 * 2 ^ 30 ≤ n * n := Nat.mul_le_mul h h
  rw [Nat.mul_one, Nat.mul_assoc 4 n n] at h1
  have e : (bufferSize g longModel.hp 0 n).layer = layerSize g 2 2 3 n := rfl
  simp only [SizeInfo.calc, e]
  unfold layerSize
  omega

/-- C93 fails for very long inputs: a well-formed model with 2^31 positions (two heads, one layer), and an
accepted input of 2^31 - 1 tokens that addresses only existing rows; the estimate wraps around and the
evaluation is stopped by an assertion. -/
theorem C93_wrap_counterexample :
    ∃ tokens : List Nat, Shaped longModel 3 (2 ^ 31) 2 tokens ∧ Accepted longModel tokens tokens 0 ∧
      RowsExist longModel 3 (2 ^ 31) tokens ∧ 0 < tokens.length ∧
      graphProg ⟨tinyA, realG,
        ((bufferSizeW realW longModel.hp 0 (.ofNat 64 tokens.length)).calc (.ofNat 64 1)).toNat⟩
        longModel.hp longModel.w 1 0 tokens tokens (positionsOf longModel tokens) 0 = .abort := by
  suffices h : ∀ n, 2 ^ 30 ≤ n → n < 2 ^ 31 → Shaped longModel 3 (2 ^ 31) 2 (List.replicate n 0) ∧
      Accepted longModel (List.replicate n 0) (List.replicate n 0) 0 ∧
      RowsExist longModel 3 (2 ^ 31) (List.replicate n 0) ∧ 0 < (List.replicate n 0).length ∧
      graphProg ⟨tinyA, realG,
        ((bufferSizeW realW longModel.hp 0 (.ofNat 64 (List.replicate n 0).length)).calc (.ofNat 64 1)).toNat⟩
        longModel.hp longModel.w 1 0 (List.replicate n 0) (List.replicate n 0)
        (positionsOf longModel (List.replicate n 0)) 0 = .abort from
    ⟨List.replicate (2 ^ 31 - 1) 0, h (2 ^ 31 - 1) (by decide) (by decide)⟩
  intro n h1 h2
  have hs := longModel_shaped n h2
  have ha := longModel_accepted n (by omega)
  have hr := longModel_rows n h2
  have hn : 0 < (List.replicate n 0).length := by rw [List.length_replicate]; omega
  refine ⟨hs, ha, hr, hn, ?_⟩
  refine C93_wrap_aborts realG realW tinyA longModel 3 (2 ^ 31) 2 _ _ 0 1 hs ha hn hr (by decide) ?_
  rw [List.length_replicate]
  exact longModel_size realG (by decide) n h1

end Berts.Props
