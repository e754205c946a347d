import Verif.Spec.Roberta
import Verif.Spec.Regex

/-! # What remains of a text if the regular expression engine gives up -/

namespace Berts.Spec

open Berts.Unicode

/-- How many units of a string of `n` units an engine accounts for: none if the expression could not be
compiled, those up to the end of the last match if it gives up, otherwise all. -/
def reach (isOpen : Bool) (r : Run) (n : Nat) : Nat :=
  if isOpen then (if r.failed then lastEnd r.found 0 else n) else 0

/-- `seen` are the pieces with each plain piece cut off where the engine stops. -/
def SeenPieces (isOpen : Bool) (run : List Nat → Run) :
    List (Bool × List Nat) → List (Bool × List Nat) → Prop :=
  Each fun p q => q.1 = p.1 ∧ if p.1 then q.2 = p.2
    else ∃ a b, (∀ c ∈ a ++ b, IsScalar c) ∧ p.2 = utf8Encode (a ++ b) ∧ q.2 = utf8Encode a ∧
      (utf16Encode a).length = reach isOpen (run (utf16Encode (a ++ b))) (utf16Encode (a ++ b)).length

end Berts.Spec
