import Verif.Model.Keys

/-!
# Lines of a header
-/

namespace Berts.Keys

open Berts.Vocab (ascii)

/-- What is known of the character classes: blanks are no word characters, a quote is neither, the ends of
`#define` are no blanks, the line feed is one. -/
structure Classes (e : Env) : Prop where
  disjoint : ∀ c, e.ws c = true → e.word c = false
  quote : e.ws 34 = false ∧ e.word 34 = false
  hash : e.ws 35 = false
  letter : e.ws 101 = false
  feed : e.ws 10 = true

/-- Nothing but blanks. -/
def Blank (e : Env) (l : List Nat) : Prop := ∀ c ∈ l, e.ws c = true

/-- `#define NAME "VALUE"` with blanks before, between and after. -/
def Defines (e : Env) (line k v : List Nat) : Prop :=
  ∃ a s t b, line = a ++ ascii "#define" ++ s ++ k ++ t ++ [34] ++ v ++ [34] ++ b ∧
    Blank e a ∧ Blank e s ∧ Blank e t ∧ Blank e b ∧ s ≠ [] ∧ t ≠ [] ∧
    k ≠ [] ∧ (∀ c ∈ k, e.word c = true) ∧ v ≠ [] ∧ (∀ c ∈ v, c ≠ 34)

/-- A line that starts with `#define` after its blanks. -/
def Directive (e : Env) (line : List Nat) : Prop := ∃ a r, line = a ++ ascii "#define" ++ r ∧ Blank e a

/-- The value of a name in a header: that of the last line that defines it. -/
def Value (e : Env) (lines : List (List Nat)) (k v : List Nat) : Prop :=
  ∃ pre line post, lines = pre ++ line :: post ∧ Defines e line k v ∧ ∀ l ∈ post, ∀ w, ¬ Defines e l k w

/-- The value of a string literal of C (some of the escape sequences). -/
inductive CLit : List Nat → List Nat → Prop
  | nil : CLit [] []
  | plain {c : Nat} {l v : List Nat} : c ≠ 34 → c ≠ 92 → CLit l v → CLit (c :: l) (c :: v)
  | feed {l v : List Nat} : CLit l v → CLit (92 :: 110 :: l) (10 :: v)
  | quote {l v : List Nat} : CLit l v → CLit (92 :: 34 :: l) (34 :: v)
  | backslash {l v : List Nat} : CLit l v → CLit (92 :: 92 :: l) (92 :: v)

/-- What a line means to a C compiler: a macro whose replacement is a string literal.  Blanks may follow the
`#`, and a comment the literal. -/
def CDefines (e : Env) (line k v : List Nat) : Prop :=
  ∃ a b s t lit c, line = a ++ [35] ++ b ++ ascii "define" ++ s ++ k ++ t ++ [34] ++ lit ++ [34] ++ c ∧
    Blank e a ∧ Blank e b ∧ Blank e s ∧ Blank e t ∧ s ≠ [] ∧ t ≠ [] ∧ k ≠ [] ∧ (∀ x ∈ k, e.word x = true) ∧
    CLit lit v ∧ (Blank e c ∨ ∃ c' r, c = c' ++ ascii "//" ++ r ∧ Blank e c')

/-- Blanks and word characters of ASCII. -/
def asciiEnv : Env where
  ws c := c == 32 || (decide (9 ≤ c) && decide (c ≤ 13)) || (decide (28 ≤ c) && decide (c ≤ 31))
  word c := (decide (48 ≤ c) && decide (c ≤ 57)) || (decide (65 ≤ c) && decide (c ≤ 90)) || c == 95 ||
    (decide (97 ≤ c) && decide (c ≤ 122))

end Berts.Keys
