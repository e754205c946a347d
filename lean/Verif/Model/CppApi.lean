import Verif.Model.Eval

/-!
# Model of the default settings and of the C++ interface (`berts/berts.cpp`, `berts/berts.hpp`)

The number of threads in the settings is not modelled (-1, which ggml replaces by its own default).
-/

namespace Berts.Eval

open Berts.Spec (Arith)
open Berts.Graph

variable {α : Type}

/-- `berts_init_eval_info`, berts.cpp:203-210: the settings afterwards (`output_layer`, `pool_type`); `none` is a null
pointer. -/
def initEvalInfo (cond : Option (Int × Nat)) : Option (Int × Nat) :=
  match cond with
  | none => none
  | some _ => some (-1, 1)

/-- `berts_init_eval_lm_info`, berts.cpp:245-251: `top_k` afterwards. -/
def initEvalLmInfo (cond : Option Int) : Option Int :=
  match cond with
  | none => none
  | some _ => some 0

/-- `berts::eval`, berts.cpp:279-286, without segments (internal.cpp:56-64 makes them). -/
def cppEval (A : Arith α) (g : Gg) (ctx : Option (ECtx α)) (tokens : List Nat) (cond : Int × Nat)
    (out : Option (List α)) (outCount : Nat) : Res (EvalOut α) :=
  match ctx.bind (·.model) with
  | none => .ok ⟨false, out, outCount⟩
  | some m => eval A g m tokens (List.replicate tokens.length 0) cond.1 cond.2 out outCount

/-- `berts::eval`, berts.cpp:288-296, with segments. -/
def cppEvalSegs (A : Arith α) (g : Gg) (ctx : Option (ECtx α)) (tokens segs : List Nat) (cond : Int × Nat)
    (out : Option (List α)) (outCount : Nat) : Res (EvalOut α) :=
  match ctx.bind (·.model) with
  | none => .ok ⟨false, out, outCount⟩
  | some m => eval A g m tokens segs cond.1 cond.2 out outCount

end Berts.Eval
