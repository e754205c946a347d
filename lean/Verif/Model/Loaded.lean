import Verif.Model.Load
import Verif.Model.Eval

/-!
# The model object inside a loaded context

`load` (Verif.Model.Load) gives a context; the calls of the C interface see its model through virtual
functions.
-/

namespace Berts.Load

open Berts.Spec (Arith)
open Berts.Eval (EModel ECtx)
open Berts.Graph (Gg)

variable {α : Type}

/-- `vocab_count` of the model, model_base.hpp:327-329. -/
def VocabR.count : VocabR → Nat
  | .bert v _ _ => v.tokenCount
  | .roberta r => r.v.tokenCount

/-- `pad_id`, bert.cpp:91-93 and roberta.cpp:89-91 (through model_base.hpp:307-309). -/
def VocabR.padId : VocabR → Nat
  | .bert _ sp _ => sp.pad
  | .roberta r => r.special.pad

/-- A loaded context as `eval` and `eval_lm` see it: hyperparameters of the context (internal.cpp:12-16),
weights and vocabulary of the model; the class was chosen by `bert_type`, gguf.cpp:262-277. -/
def emodel (c : Ctx α) : EModel α :=
  ⟨c.hp.arch == 0, c.hp.hp, c.weights, c.vocab.count, c.vocab.padId⟩

/-- `(bert_type)` of the number in the file, gguf.cpp:215. -/
def archOf (n : Nat) : Api.Arch := if n = 0 then .bert else if n = 1 then .roberta else .unknown

/-- A loaded context as the vocabulary and tokenizer calls see it: hyperparameters of the file, and the model
object with its vocabulary. -/
def apiCtx (u : Bert.Icu) (e : Roberta.Env) (setOrder : List (List Nat) → List (List Nat)) (c : Ctx α) :
    Api.Ctx :=
  ⟨archOf c.hp.arch,
    match c.vocab with
    | .bert v sp cond => some (Bert.bertModel u cond v sp)
    | .roberta r => some (Roberta.robertaModel e r setOrder)⟩

/-- `berts_load_from_file`, then `berts_eval` on the result (the null context if loading failed). -/
def loadEval (A : Arith α) (gg : Gg) (w : World α) (tokens : List Nat) (segs : Option (List Nat))
    (cond : Option (Int × Nat)) (out : Option (List α)) (outCount : Option Nat) :
    Res (Bool × Option (List α) × Option Nat) :=
  (load w).bind fun r =>
    Eval.bertsEval A gg (r.1.map fun c => ⟨some (emodel c)⟩) tokens segs cond out outCount

end Berts.Load
