import Verif.Model.Bert
import Verif.Spec.Unicode

/-! # Specification of token counts -/

namespace Berts.Spec

/-- A string without its accents: decomposed, the nonspacing marks left out, composed again. -/
def withoutAccents (u : Bert.Icu) (cs : List Nat) : List Nat :=
  u.nfc (Unicode.utf16Encode (((decodeUnits (u.nfd (Unicode.utf16Encode cs))).filterMap id).filter
    fun c => !u.catMn c))

/-- What the normaliser must satisfy for the composed text `ds` when accents are stripped: it gives 16-bit
units, and removing the accents of a string made of characters of `ds` does not give more characters.
(Unicode's composed characters each recompose to one character.) -/
def AccentsShrink (u : Bert.Icu) (ds : List Nat) : Prop :=
  ∀ ws, (∀ c ∈ ws, c ∈ ds) → (∀ x ∈ u.nfd (Unicode.utf16Encode ws), x < 0x10000) ∧
    (decodeUnits (withoutAccents u ws)).length ≤ ws.length

end Berts.Spec
