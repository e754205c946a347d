import Verif.Spec.Examples

/-! # What the name of a file type says -/

namespace Berts.Spec

open Berts.Vocab (ascii)

/-- `name` says that the matrices have the type `ty`: all or most tensors have it; for the K types a mixture (small,
medium, large) may be added. -/
def Says (name ty : List Nat) : Prop :=
  ∃ pre ∈ [ascii "ALL_", ascii "MOSTLY_"], ∃ suf ∈ [[], ascii "_S", ascii "_M", ascii "_L"], name = pre ++ ty ++ suf

instance (name ty : List Nat) : Decidable (Says name ty) := by unfold Says; infer_instance

end Berts.Spec
