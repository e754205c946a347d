import Verif.Model.FileFormat

/-! # Specification for C131: files that are no models -/

namespace Berts.FileFormat

/-- A file that is never read as a model file. -/
def Unreadable (file : List Nat) : Prop := ∀ nb ok, readGguf nb ok file = .ok none

end Berts.FileFormat
