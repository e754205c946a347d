import Mathlib.Analysis.SpecialFunctions.Exp
import Mathlib.Analysis.Complex.Trigonometric
import Verif.Spec.EvalCalls

/-!
# Exact arithmetic

The kernels as functions of real numbers.  Floating point numbers are approximations of these; rounding, overflow and
the tables of 16-bit numbers that ggml uses for some functions are not considered.
-/

namespace Berts.Spec

/-- The arithmetic mean. -/
noncomputable def mean (l : List ℝ) : ℝ := l.sum / l.length

/-- The mean square of the deviations from the mean. -/
noncomputable def variance (l : List ℝ) : ℝ := mean (l.map fun x => (x - mean l) ^ 2)

/-- The kernels without rounding; `eps` is the value of the number that is given to `ggml_norm`.  Softmax subtracts some
number (ggml: the largest) before it takes exponentials. -/
structure Exact (A : Arith ℝ) (eps : Nat → ℝ) : Prop where
  add : ∀ x y, A.add x y = x + y
  mul : ∀ x y, A.mul x y = x * y
  dot : ∀ x y, A.dot x y = (List.zipWith (· * ·) x y).sum
  one : A.one = 1
  tanh : ∀ x, A.tanh x = Real.tanh x
  softmax : ∀ s l, ∃ c, ∀ i x, l[i]? = some x →
    A.softmax s l i = Real.exp (s * x - c) / (l.map fun y => Real.exp (s * y - c)).sum
  norm : ∀ e l i x, l[i]? = some x → A.norm e l i = (x - mean l) / √(variance l + eps e)

/-- Gain and bias of the last normalisation before the hidden states after `L` layers. -/
def lastGain (m : Eval.EModel ℝ) (L : Nat) : Nat → ℝ :=
  match (m.w.layers.take L).getLast? with
  | none => Graph.wvec m.w.lnw
  | some l => Graph.wvec l.lnoutw

/-- See `lastGain`. -/
def lastBias (m : Eval.EModel ℝ) (L : Nat) : Nat → ℝ :=
  match (m.w.layers.take L).getLast? with
  | none => Graph.wvec m.w.lnb
  | some l => Graph.wvec l.lnoutb

/-- What the decoder of the head gives for token `v` of the vocabulary at place `t`. -/
def logit (A : Arith ℝ) (m : Eval.EModel ℝ) (lm : Graph.LmWeights ℝ) (hidden : List ℝ) (dflt : ℝ) (v t : Nat) : ℝ :=
  dense A m.hp.hidden (Graph.wmat lm.decw) (Graph.wvec lm.decb)
    (layerNorm A m.hp.eps m.hp.hidden (Graph.wvec lm.lnw) (Graph.wvec lm.lnb) fun i t =>
      Eval.headAct A m (dense A m.hp.hidden (Graph.wmat lm.dw) (Graph.wvec lm.db) (Eval.inputMat m hidden dflt) i t)) v t

end Berts.Spec
