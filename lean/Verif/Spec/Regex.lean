import Verif.Model.Regex
import Verif.Spec.Unicode

/-! # What a regular expression engine is assumed to deliver -/

namespace Berts.Spec

open Berts.Unicode

/-- `R text s e`: the expression matches the text from position `s` to `e`.  The engine reports matches
in order; it says that there is none only if there is none. -/
structure EngineOk (R : List Nat → Nat → Nat → Prop) (text : List Nat) (r : Run) : Prop where
  ordered : Matches text.length 0 r.found
  sound : ∀ m ∈ r.found, R text m.1 m.2
  complete : r.found = [] → r.failed = false → ∀ s e, s ≤ e → e ≤ text.length → ¬ R text s e

/-- Where the last match ends. -/
def lastEnd : List (Nat × Nat) → Nat → Nat
  | [], d => d
  | m :: ms, _ => lastEnd ms m.2

end Berts.Spec
