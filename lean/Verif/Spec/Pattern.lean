import Verif.Model.Pattern
import Verif.Spec.Roberta

/-!
# The words of GPT-2

Described without regular expressions: the next word of a text is a contraction, a run of letters, digits or other
characters with at most one space before it, or blanks.  Of several blanks before a word the last one is left to the
word.
-/

namespace Berts.Spec

open Berts.Pattern (Classes)

/-- What Unicode says of the classes: letters and digits are different, blanks are neither, the space is a blank,
`a` to `z` are letters, and the apostrophe is nothing of these. -/
structure ClassesOk (cl : Classes) : Prop where
  letter_number : ∀ c, cl.letter c = true → cl.number c = false
  letter_space : ∀ c, cl.letter c = true → cl.space c = false
  number_space : ∀ c, cl.number c = true → cl.space c = false
  space : cl.space 32 = true
  az : ∀ c, 97 ≤ c → c ≤ 122 → cl.letter c = true
  apostrophe : cl.letter 39 = false ∧ cl.number 39 = false ∧ cl.space 39 = false

/-- `'s 't 're 've 'm 'll 'd`. -/
def contractions : List (List Nat) :=
  ["'s", "'t", "'re", "'ve", "'m", "'ll", "'d"].map fun s => s.toList.map Char.toNat

/-- Neither letter, digit nor blank. -/
def other (cl : Classes) (c : Nat) : Bool := !cl.letter c && !cl.number c && !cl.space c

/-- The text does not start with a character of the class. -/
def NotStart (p : Nat → Bool) (s : List Nat) : Prop := ∀ c t, s = c :: t → p c = false

/-- `Word cl text w rest`: the first word of the text is `w`, and `rest` follows. -/
inductive Word (cl : Classes) : List Nat → List Nat → List Nat → Prop
  | contraction (w rest) : w ∈ contractions → Word cl (w ++ rest) w rest
  | run (p : Nat → Bool) (lead body rest) : p = cl.letter ∨ p = cl.number ∨ p = other cl →
      lead = [] ∨ lead = [32] → body ≠ [] → (∀ c ∈ body, p c = true) → NotStart p rest →
      (∀ w ∈ contractions, ¬ w <+: lead ++ body ++ rest) → Word cl (lead ++ body ++ rest) (lead ++ body) rest
  | last (w) : w ≠ [] → (∀ c ∈ w, cl.space c = true) → Word cl w w []
  | blanks (w c rest) : w ≠ [] → (∀ c ∈ w, cl.space c = true) → cl.space c = true → rest ≠ [] →
      NotStart cl.space rest → Word cl (w ++ c :: rest) w (c :: rest)
  | blank (c rest) : cl.space c = true → c ≠ 32 → rest ≠ [] → NotStart cl.space rest →
      Word cl (c :: rest) [c] rest

/-- The words of a text. -/
inductive Words (cl : Classes) : List Nat → List (List Nat) → Prop
  | nil : Words cl [] []
  | cons (text w rest ws) : Word cl text w rest → Words cl rest ws → Words cl text (w :: ws)

/-- Reference ids of a plain piece with the code points `cs`: each of its words is tokenized by reference BPE, and
the tokens are looked up. -/
def RefWords (l : List (List Nat)) (tbl : MergeTable (List Nat)) (cl : Classes) (cs ids : List Nat) : Prop :=
  ∃ words tokss, Words cl cs words ∧ Each (fun w toks => ByteBpe tbl (Unicode.utf8Encode w) toks) words tokss ∧
    Each (IdOf l) ids tokss.flatten

/-- Reference ids of the pieces of a text, one group for each piece: special tokens have their ids. -/
def RefWordPieces (l : List (List Nat)) (tbl : MergeTable (List Nat)) (cl : Classes) :
    List (Bool × List Nat) → List (List Nat) → Prop :=
  Each fun p ids => if p.1 then ∃ i, ids = [i] ∧ l[i]? = some p.2
    else ∃ cs, (∀ c ∈ cs, IsScalar c) ∧ p.2 = Unicode.utf8Encode cs ∧ RefWords l tbl cl cs ids

end Berts.Spec
