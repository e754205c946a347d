import Verif.Model.Format

/-! # What a formatted message should be -/

namespace Berts.Spec

open Berts.Format

/-- Fixed texts and arguments in turn. -/
def weave : List (List Nat) → List (List Nat) → List Nat
  | l :: ls, t :: ts => l ++ t ++ weave ls ts
  | ls, [] => ls.flatten
  | [], _ :: _ => []

/-- `f` shows each of its `n` arguments once and in order, between fixed texts `lits` and according to the
specifications `specs`. -/
structure ShowsArgs (f : List Arg → Option (List Nat)) (n : Nat) (lits specs : List (List Nat)) : Prop where
  texts : lits.length = n + 1
  fields : specs.length = n
  message : ∀ args texts, args.length = n → List.zipWith (fun (a : Arg) s => a s) args specs = texts.map some →
    f args = some (weave lits texts)

end Berts.Spec
