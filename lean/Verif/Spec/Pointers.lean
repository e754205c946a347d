/-!
# What a C caller passes
-/

namespace Berts.Spec

/-- `mem` begins with the C string `s`: its bytes, none of them null, and a null byte. -/
def CString (mem s : List Nat) : Prop := (∃ rest, mem = s ++ 0 :: rest) ∧ 0 ∉ s

/-- The pointer `p` leads to the `n` elements `h`; for no elements every pointer will do. -/
def Points {β : Type} (p : Option (List β)) (n : Nat) (h : List β) : Prop :=
  h.length = n ∧ (n = 0 ∨ ∃ rest, p = some (h ++ rest))

end Berts.Spec
