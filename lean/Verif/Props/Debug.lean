import Verif.Proofs.Debug
import Verif.Props.Eval

/-!
# Property C106: the checks of the debug build

`Debug.eval` and `Debug.evalLm` (Model/Debug) are the two calls in the build with `BERTS_DEBUG`, `Eval.eval` and
`Eval.evalLm` the ones of the ordinary build.
-/

namespace Berts.Props

open Berts.Spec (Arith)
open Berts.Graph
open Berts.Eval

variable {α : Type}

/-- C106: whatever the model and the arguments, the debug build stops the process or does what the ordinary build does. -/
theorem C106_refines (A : Arith α) (g : Gg) (m : EModel α) (tokens segs : List Nat) (L : Int) (poolType : Nat)
    (out : Option (List α)) (given : Nat) :
    Debug.eval A g m tokens segs L poolType out given = .abort ∨
      Debug.eval A g m tokens segs L poolType out given = Eval.eval A g m tokens segs L poolType out given :=
  Debug.eval_sub A g m tokens segs L poolType out given

/-- C106: the same for the head. -/
theorem C106_refines_lm (A : Arith α) (g : Gg) (m : EModel α) (hidden : List α) (dflt : α) (topK : Int)
    (ids : Option (List Nat)) (probs : Option (List α)) (given : Nat) :
    Debug.evalLm A g m hidden dflt topK ids probs given = .abort ∨
      Debug.evalLm A g m hidden dflt topK ids probs given = Eval.evalLm A g m hidden dflt topK ids probs given :=
  Debug.evalLm_sub A g m hidden dflt topK ids probs given

/-- C106: if the weights have the shapes of the hyperparameters, no check fails, whatever the arguments: the estimate is
exact after the embeddings, after the layers, after the pooler and after the graph has been made. -/
theorem C106_eval (A : Arith α) (g : Gg) (m : EModel α) (V P S : Nat) (hm : ModelOK m V P S) (tokens segs : List Nat)
    (L : Int) (poolType : Nat) (out : Option (List α)) (given : Nat) :
    Debug.eval A g m tokens segs L poolType out given = Eval.eval A g m tokens segs L poolType out given :=
  Debug.eval_same hm tokens segs L poolType out given

/-- C106: the same for a model without a head, or with one of the right shapes. -/
theorem C106_lm (A : Arith α) (g : Gg) (m : EModel α) (hm : m.w.lm = none ∨ ∃ lm, HeadOK m lm) (hidden : List α)
    (dflt : α) (topK : Int) (ids : Option (List Nat)) (probs : Option (List α)) (given : Nat) :
    Debug.evalLm A g m hidden dflt topK ids probs given = Eval.evalLm A g m hidden dflt topK ids probs given :=
  Debug.evalLm_same hm hidden dflt topK ids probs given

example : ModelOK (tiny true 4) 3 4 2 ∧ HeadOK (tiny true 4) tinyLm := ⟨tiny_ok _ _, tiny_head _ _⟩

/-- The checks run and succeed. -/
example : (Debug.eval tinyA tinyG (tiny true 4) [1, 2] [0, 1] (-1) 2 (some [7, 7, 7]) 2).bind (fun o => .ok (o.ret, o.count)) =
    .ok (true, 2) := by
  decide +kernel

/-- As `tiny`, but with another size of the intermediate layer in the file. -/
def tinyInterm (interm : Nat) : EModel Int := { tiny true 4 with hp := ⟨3, 2, 1, 2, 4, interm, 2, 0, 0⟩ }

/-- As `tiny`, but with a pooler that has a single output. -/
def tinyPool : EModel Int :=
  { tiny true 4 with w := { (tiny true 4).w with poolw := tinyT 2 1, poolb := tinyT 1 1 } }

/-- C106: shapes are not checked when a model is loaded; a model whose intermediate weights are smaller than its
hyperparameters say is evaluated by the ordinary build, while the debug build stops after the layers. -/
theorem C106_shapes_needed :
    ((Eval.eval tinyA tinyG (tinyInterm 4) [1] [0] (-1) 0 (some [0, 0]) 2).bind fun o => .ok o.ret) = .ok true ∧
    Debug.eval tinyA tinyG (tinyInterm 4) [1] [0] (-1) 0 (some [0, 0]) 2 = .abort := by
  decide +kernel

/-- The same model passes the checks if no layer is run. -/
example : Debug.eval tinyA tinyG (tinyInterm 4) [1] [0] 0 0 (some [0, 0]) 2 =
      Eval.eval tinyA tinyG (tinyInterm 4) [1] [0] 0 0 (some [0, 0]) 2 ∧
    ((Eval.eval tinyA tinyG (tinyInterm 4) [1] [0] 0 0 (some [0, 0]) 2).bind fun o => .ok o.ret) = .ok true := by
  decide +kernel

/-- C106: the same for a pooler with fewer outputs than the hidden size, if not all of the result is asked for; the layers
alone pass. -/
theorem C106_pooler_needed :
    ((Eval.eval tinyA tinyG tinyPool [1] [0] (-1) 1 (some [0]) 1).bind fun o => .ok o.ret) = .ok true ∧
    Debug.eval tinyA tinyG tinyPool [1] [0] (-1) 1 (some [0]) 1 = .abort ∧
    ((Debug.eval tinyA tinyG tinyPool [1] [0] (-1) 0 (some [0]) 1).bind fun o => .ok o.ret) = .ok true := by
  decide +kernel

end Berts.Props
