import Verif.Proofs.EvalRef
import Verif.Props.Eval

/-!
# Property C107: evaluation of nothing

No tokens, or no hidden states, pass every check of the calls.  ggml then divides by the number of rows when it adds the
embeddings.
-/

namespace Berts.Props

open Berts.Spec (Arith)
open Berts.Graph
open Berts.Eval

variable {α : Type}

/-- C107 (partial: dry runs only): asking for the size of the result is defined for the empty input as well: nothing
without pooling, one row with pooling. -/
theorem C107_dry_partial (A : Arith α) (g : Gg) (m : EModel α) (L : Int) (poolType : Nat) (hp : poolType < 4) (given : Nat) :
    Eval.eval A g m [] [] L poolType none given =
      .ok ⟨true, none, if poolType = 0 then 0 else m.hp.hidden⟩ := by
  rw [eval_accepted ⟨Nat.zero_le _, rfl, by simp, hp⟩]
  simp only [outRows, List.length_nil]
  split <;> simp

/-- C107 fails: the empty input passes every check, and evaluating it is undefined behaviour, in every model whose weights
have the shapes of its hyperparameters, for every valid layer, every pooling and every buffer. -/
theorem C107_counterexample (A : Arith α) (g : Gg) (m : EModel α) (V P S : Nat) (hm : ModelOK m V P S)
    (hl : m.hp.nLayers < 2 ^ 32) (L : Int) (h1 : -(m.hp.nLayers : Int) ≤ L) (h2 : L ≤ m.hp.nLayers) (poolType : Nat)
    (hp : poolType < 4) (buf : List α) (given : Nat) :
    Accepted m [] [] poolType ∧ Eval.eval A g m [] [] L poolType (some buf) given = .ub := by
  have ha : Accepted m [] [] poolType := ⟨Nat.zero_le _, rfl, by simp, hp⟩
  refine ⟨ha, ?_⟩
  rw [eval_accepted ha]
  simp only
  obtain ⟨e1, e2⟩ := lastLayer_in m.hp.nLayers L (by omega) h1 h2
  unfold evalRun
  rw [e1, res_ok]
  simp only
  unfold evalWith
  have h : Stuck ⟨A, g, (bufferSize g m.hp poolType 0).calc (layersOf m.hp.nLayers L)⟩
      (graphProg ⟨A, g, (bufferSize g m.hp poolType 0).calc (layersOf m.hp.nLayers L)⟩ m.hp m.w (layersOf m.hp.nLayers L)
        poolType [] [] (positionsOf m [])) (embSize g m.hp.hidden 0) := by
    unfold graphProg buildGraph
    exact (embeddings_empty (e := ⟨A, g, (bufferSize g m.hp poolType 0).calc (layersOf m.hp.nLayers L)⟩)
      hm.weights [] _).bind.bind
  rw [Int.toNat_natCast, List.length_nil, h 0 (by rw [calc_eq _ _ _ _ _ e2]; simp; omega)]
  rfl

/-- C107: the same through `berts_eval`, with or without segments. -/
theorem C107_api_counterexample (A : Arith α) (g : Gg) (m : EModel α) (V P S : Nat) (hm : ModelOK m V P S)
    (hl : m.hp.nLayers < 2 ^ 32) (L : Int) (h1 : -(m.hp.nLayers : Int) ≤ L) (h2 : L ≤ m.hp.nLayers) (poolType : Nat)
    (hp : poolType < 4) (buf : List α) (given : Nat) (segs : Option (List Nat)) (hs : segs = none ∨ segs = some []) :
    bertsEval A g (some ⟨some m⟩) [] segs (some (L, poolType)) (some buf) (some given) = .ub := by
  have h := (C107_counterexample A g m V P S hm hl L h1 h2 poolType hp buf given).2
  unfold bertsEval
  have : segs.getD (List.replicate ([] : List Nat).length 0) = [] := by rcases hs with rfl | rfl <;> rfl
  simp only [Option.bind_some, this]
  rw [h]
  rfl

/-- C107: hidden states of no token pass the checks of `berts_eval_lm`, and the head is undefined behaviour for them. -/
theorem C107_lm_counterexample (A : Arith α) (g : Gg) (m : EModel α) (lm : LmWeights α) (hm : HeadOK m lm) (dflt : α)
    (topK : Int) (ids : List Nat) (probs : List α) (given : Nat) :
    Eval.evalLm A g m [] dflt topK none none given = .ok ⟨true, none, none, 0⟩ ∧
    Eval.evalLm A g m [] dflt topK (some ids) (some probs) given = .ub := by
  have h0 : ¬ m.hp.hidden = 0 := by have := hm.hidden; omega
  constructor
  · unfold Eval.evalLm
    rw [if_neg h0, if_neg (by simp)]
    simp
  · unfold Eval.evalLm
    rw [if_neg h0, if_neg (by simp)]
    simp only
    unfold lmRun
    obtain ⟨size, hs, hc⟩ := lm_calc g m.isBert m.hp m.vocabCount 0 hm.act
    have h2 := buildLm_empty (e := ⟨A, g, size.calc 0⟩) m.isBert hm.head hm.shapes hm.hidden dflt 0
      (by simp only [hc, Nat.zero_mul]; omega)
    have hz : ([] : List α).length / m.hp.hidden = 0 := by simp
    have h3 : lmProg ⟨A, g, size.calc 0⟩ m [] dflt 0 = .ub := by
      unfold lmProg
      show (Graph.buildLm _ _ _ _ _ _ _ 0).bind _ = _
      rw [h2]
      rfl
    simp only [hz]
    rw [hs, res_ok, h3]
    rfl

example : ModelOK (tiny false 4) 3 4 2 ∧ HeadOK (tiny false 4) tinyLm := ⟨tiny_ok _ _, tiny_head _ _⟩

end Berts.Props
