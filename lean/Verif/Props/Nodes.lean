import Verif.Proofs.EvalRef
import Verif.Props.Eval

/-!
# C86: the graph of operations fits the graph of ggml
-/

namespace Berts.Props

open Berts.Nodes

/-- The graph that `eval` builds, for a model with `n` layers, up to layer `last`. -/
def evalGraph (n : Nat) (last : Int) (poolType : Nat) : List Node := (build n last poolType []).2

/-- The tensor `out`. -/
def evalOut (n : Nat) (last : Int) (poolType : Nat) : Nat := (build n last poolType []).1

/-- Every tensor that `build_graph` makes, and every weight it mentions, is needed for the output, and the sources of a
tensor were made before it. -/
theorem C86_needed (n : Nat) (last : Int) (poolType : Nat) :
    Ordered (evalGraph n last poolType) ∧
    ∀ j, j < (evalGraph n last poolType).length ↔ Needs (evalGraph n last poolType) (evalOut n last poolType) j := by
  have h := good_build n last poolType
  refine ⟨h.ordered, fun j => ⟨fun hj => ?_, fun hj => ?_⟩⟩
  · obtain ⟨r, hr, hn⟩ := h.cover j hj
    rw [List.mem_singleton.1 hr] at hn
    exact hn
  · have h1 := needs_le h.ordered hj
    have h2 := h.lt (evalOut n last poolType) (List.mem_cons_self ..)
    exact Nat.lt_of_le_of_lt h1 h2

/-- The number of operations and leafs, for the layers that are computed. -/
theorem C86_counts (n : Nat) (last : Int) (poolType : Nat) :
    opCount (evalGraph n last poolType) = 10 + 46 * min n last.toNat + (if poolType = 0 then 0 else 5) ∧
    leafCount (evalGraph n last poolType) = 8 + 17 * min n last.toNat + (if poolType = 0 then 0 else 2) :=
  ⟨(good_build n last poolType).ops, (good_build n last poolType).leafs⟩

/-- `ggml_build_forward_expand` succeeds exactly if the operations fit the graph.  Then the graph has every operation
once, every leaf once, and each operation stands after its sources. -/
theorem C86_expand (n : Nat) (last : Int) (poolType size : Nat) :
    ((∃ c, expand size (evalGraph n last poolType) (evalOut n last poolType) = .ok c) ↔
      10 + 46 * min n last.toNat + (if poolType = 0 then 0 else 5) ≤ size) ∧
    (size < 10 + 46 * min n last.toNat + (if poolType = 0 then 0 else 5) →
      expand size (evalGraph n last poolType) (evalOut n last poolType) = .abort) ∧
    ∀ c, expand size (evalGraph n last poolType) (evalOut n last poolType) = .ok c →
      c.nodes.Nodup ∧ c.leafs.Nodup ∧ Runnable (evalGraph n last poolType) c.nodes ∧
      (∀ i, i ∈ c.nodes ↔ IsOp (evalGraph n last poolType) i) ∧
      (∀ i, i ∈ c.leafs ↔ IsLeaf (evalGraph n last poolType) i) := by
  have hm : (8 + 17 * min n last.toNat + if poolType = 0 then 0 else 2)
      ≤ (10 + 46 * min n last.toNat + if poolType = 0 then 0 else 5) := by
    split <;> omega
  have h := Good.expand (good_build n last poolType) size
  rw [show (build n last poolType []).2 = evalGraph n last poolType from rfl,
    show (build n last poolType []).1 = evalOut n last poolType from rfl] at h
  generalize (10 + 46 * min n last.toNat + if poolType = 0 then 0 else 5) = N at hm h
  generalize (8 + 17 * min n last.toNat + if poolType = 0 then 0 else 2) = L at hm h
  rcases h with ⟨h1, -, c, h2, -, -, h3⟩ | ⟨h1, h2⟩
  · refine ⟨⟨fun _ => h1, fun _ => ⟨c, h2⟩⟩, fun h => by omega, fun c' hc => ?_⟩
    rw [h2] at hc
    cases hc
    exact h3
  · refine ⟨⟨?_, fun h => by omega⟩, fun _ => h2, fun c' hc => ?_⟩
    · rintro ⟨c, hc⟩
      rw [h2] at hc
      cases hc
    · rw [h2] at hc
      cases hc

/-- Up to 44 layers fit, with every pooling type. -/
theorem C86_partial (n : Nat) (last : Int) (poolType : Nat) (h : min n last.toNat ≤ 44) :
    ∃ c, expand graphSize (evalGraph n last poolType) (evalOut n last poolType) = .ok c := by
  rw [(C86_expand n last poolType graphSize).1]
  have : (if poolType = 0 then 0 else 5) ≤ 5 := by split <;> omega
  simp only [graphSize]
  omega

/-- From 45 layers on the process ends, whatever the input. -/
theorem C86_counterexample (n : Nat) (last : Int) (poolType : Nat) (h : 45 ≤ min n last.toNat) :
    expand graphSize (evalGraph n last poolType) (evalOut n last poolType) = .abort := by
  apply (C86_expand n last poolType graphSize).2.1
  simp only [graphSize]
  omega

/-- The graph of the language model head fits; the probabilities are computed on the way to the sorted tokens. -/
theorem C86_lm : ∃ c, expand graphSize (buildLm []).2 (buildLm []).1.2 = .ok c ∧ c.nodes.length = 15 ∧
    c.nodes.Nodup ∧ Runnable (buildLm []).2 c.nodes ∧ (buildLm []).1.1 ∈ c.nodes ∧ (buildLm []).1.2 ∈ c.nodes := by
  rcases Good.expand good_buildLm.1 graphSize with ⟨-, -, c, h1, h2, -, h3, -, h4, h5, -⟩ | ⟨h, -⟩
  · refine ⟨c, h1, h2, h3, h4, (h5 _).2 ⟨⟨false, [19]⟩, by decide +kernel, rfl⟩,
      (h5 _).2 ⟨⟨false, [20]⟩, by decide +kernel, rfl⟩⟩
  · simp [graphSize] at h

-- `bert-large` has 24 layers.
example : min 24 (24 : Int).toNat ≤ 44 := by decide

-- A model with 48 layers, evaluated to the end.
example : 45 ≤ min 48 (48 : Int).toNat := by decide

-- The same model can be evaluated up to its 44th layer.
example : min 48 (44 : Int).toNat ≤ 44 := by decide

open Berts.Eval Berts.Graph
open Berts.Spec (Arith)

/-- C86 for calls: an evaluation whose rows exist succeeds iff it needs at most 44 layers; otherwise it ends the
process. -/
theorem C86_eval {α : Type} (A : Arith α) (g : Gg) (m : EModel α) (V P S : Nat) (tokens segs : List Nat) (poolType : Nat)
    (hf : Shaped m V P S tokens) (ha : Accepted m tokens segs poolType) (hn : 0 < tokens.length)
    (hr : RowsExist m V P tokens) (L : Int) (h1 : -(m.hp.nLayers : Int) ≤ L) (h2 : L ≤ m.hp.nLayers) (buf : List α)
    (given : Nat) (hb : given ≤ buf.length) :
    (layersOf m.hp.nLayers L ≤ 44 → ∃ o, eval A g m tokens segs L poolType (some buf) given = .ok o ∧ o.ret = true) ∧
    (44 < layersOf m.hp.nLayers L → eval A g m tokens segs L poolType (some buf) given = .abort) :=
  ⟨fun hd => ⟨_, eval_value hf ha hn hr L h1 h2 hd buf given hb, rfl⟩,
    fun hd => eval_deep hf ha hn hr L h1 h2 hd buf given⟩

/-- A model with 45 layers. -/
def deep : EModel Int where
  isBert := true
  hp := ⟨3, 2, 45, 2, 4, 3, 2, 0, 0⟩
  w := ⟨tinyT 2 3, tinyT 2 2, tinyT 2 4, tinyT 2 1, tinyT 2 1, List.replicate 45 tinyL, tinyT 2 2, tinyT 2 1, none⟩
  vocabCount := 3
  padId := 1

theorem deep_ok : ModelOK deep 3 4 2 := by
  refine ⟨⟨tinyT_w 2 3, tinyT_w 2 4, tinyT_w 2 2, tinyT_v 2, tinyT_v 2, ?_, rfl, tinyT_w 2 2, tinyT_v 2⟩,
    by simp [deep], ⟨1, rfl⟩, by simp [deep], rfl⟩
  intro l hl
  rw [show l = tinyL from List.eq_of_mem_replicate hl]
  exact ⟨tinyT_w 2 2, tinyT_v 2, tinyT_w 2 2, tinyT_v 2, tinyT_w 2 2, tinyT_v 2, tinyT_w 2 2, tinyT_v 2,
    tinyT_v 2, tinyT_v 2, tinyT_w 2 3, tinyT_v 3, tinyT_w 3 2, tinyT_v 2, tinyT_v 2, tinyT_v 2⟩

/-- C86 fails: the model is evaluated up to layer 44; with the default settings (the last layer) the process ends. -/
theorem C86_eval_counterexample (A : Arith Int) (g : Gg) :
    (∃ o, eval A g deep [1] [0] 44 1 (some [0, 0]) 2 = .ok o ∧ o.ret = true) ∧
    eval A g deep [1] [0] (-1) 1 (some [0, 0]) 2 = .abort := by
  have hs : Shaped deep 3 4 2 [1] :=
    ⟨deep_ok, by decide, by decide, by decide, by decide, by decide, by decide, by decide⟩
  have ha : Accepted deep [1] [0] 1 := ⟨by decide, rfl, by decide, by decide⟩
  have hr : RowsExist deep 3 4 [1] := by
    refine ⟨by decide, ?_⟩
    intro t ht
    simp only [List.length_cons, List.length_nil] at ht
    show t < 4
    omega
  have h := fun L h1 h2 => C86_eval A g deep 3 4 2 [1] [0] 1 hs ha (by decide) hr L h1 h2 [0, 0] 2 (by decide)
  exact ⟨(h 44 (by decide) (by decide)).1 (by decide), (h (-1) (by decide) (by decide)).2 (by decide)⟩

end Berts.Props
