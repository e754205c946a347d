import Verif.Model.CharClass
import Verif.Spec.Bert

/-!
# The reference tokenizer of BERT

`BasicTokenizer` and `BertTokenizer` of the Python package `transformers` (tokenization_bert.py), written down
as functions on sequences of code points.  Lower-casing is left out: the code under test loses all words
then (C17).
-/

namespace Berts.Spec.Py

open Berts.Vocab (ascii)
open Berts.CharClass (CharType)

/-- What Python knows about Unicode: `unicodedata.category` and the normal forms. -/
structure Ucd where
  cat : Nat → List Nat
  nfc : List Nat → List Nat
  nfd : List Nat → List Nat

/-- First letter of the category. -/
def Major (d : Ucd) (c : Nat) (letter : Nat) : Prop := (d.cat c).head? = some letter

instance (d : Ucd) (c l : Nat) : Decidable (Major d c l) := by unfold Major; infer_instance

/-- `_is_whitespace` -/
def White (d : Ucd) (c : Nat) : Prop := c ∈ [32, 9, 10, 13] ∨ d.cat c = ascii "Zs"

/-- `_is_control` -/
def Control (d : Ucd) (c : Nat) : Prop := c ∉ [9, 10, 13] ∧ Major d c 67

/-- `_is_punctuation` -/
def Punctuation (d : Ucd) (c : Nat) : Prop :=
  33 ≤ c ∧ c ≤ 47 ∨ 58 ≤ c ∧ c ≤ 64 ∨ 91 ≤ c ∧ c ≤ 96 ∨ 123 ≤ c ∧ c ≤ 126 ∨ Major d c 80

instance (d : Ucd) : DecidablePred (White d) := fun c => by unfold White; infer_instance
instance (d : Ucd) : DecidablePred (Control d) := fun c => by unfold Control; infer_instance
instance (d : Ucd) : DecidablePred (Punctuation d) := fun c => by unfold Punctuation; infer_instance

/-- `_clean_text` -/
def clean (d : Ucd) (cs : List Nat) : List Nat :=
  (cs.filter fun c => decide ¬ (c = 0 ∨ c = 0xFFFD ∨ Control d c)).map fun c => if White d c then 32 else c

/-- `_tokenize_chinese_chars` -/
def chinese (cs : List Nat) : List Nat := cs.flatMap fun c => if Ideograph c then [32, c, 32] else [c]

/-- The text before it is normalised. -/
def prep (d : Ucd) (tokenizeChinese : Bool) (cs : List Nat) : List Nat :=
  if tokenizeChinese then chinese (clean d cs) else clean d cs

/-- The characters that `str.split()` splits at. -/
def spaces : List Nat :=
  [9, 10, 11, 12, 13, 28, 29, 30, 31, 32, 0x85, 0xA0, 0x1680, 0x2000, 0x2001, 0x2002, 0x2003, 0x2004, 0x2005, 0x2006,
   0x2007, 0x2008, 0x2009, 0x200A, 0x2028, 0x2029, 0x202F, 0x205F, 0x3000]

/-- `whitespace_tokenize` -/
def split (cs : List Nat) : List (List Nat) := wordsFrom (fun c => decide (c ∈ spaces)) [] cs

/-- The loop of `_run_split_on_punc`. -/
def puncLoop (d : Ucd) (start : Bool) (out : List (List Nat)) : List Nat → List (List Nat)
  | [] => out
  | c :: cs =>
    if Punctuation d c then puncLoop d true (out ++ [[c]]) cs
    else if start then puncLoop d false (out ++ [[c]]) cs
    else puncLoop d false (out.dropLast ++ [out.getLastD [] ++ [c]]) cs

/-- `_run_strip_accents` -/
def stripAccents (d : Ucd) (w : List Nat) : List Nat := (d.nfd w).filter fun c => d.cat c ≠ ascii "Mn"

/-- One token of `tokenize`: special tokens are left as they are. -/
def word (d : Ucd) (strip : Bool) (never : List (List Nat)) (w : List Nat) : List (List Nat) :=
  if w ∈ never then [w]
  else
    let w := if strip then stripAccents d w else w
    if w ∈ never then [w] else puncLoop d true [] w

/-- `" ".join` -/
def join : List (List Nat) → List Nat
  | [] => []
  | [w] => w
  | w :: ws => w ++ 32 :: join ws

/-- `BasicTokenizer.tokenize` with `do_lower_case=False`. -/
def basic (d : Ucd) (tokenizeChinese strip : Bool) (never : List (List Nat)) (cs : List Nat) : List (List Nat) :=
  split (join ((split (d.nfc (prep d tokenizeChinese cs))).flatMap (word d strip never)))

/-- `WordpieceTokenizer.tokenize` for one word; `max_input_chars_per_word` is 100. -/
def Wordpiece (V : List (List Nat)) (unk : Nat) (w out : List Nat) : Prop :=
  if 100 < w.length then out = [unk] else RefWord V unk w out

/-- The ids of a list of words. -/
inductive Ids (V : List (List Nat)) (unk : Nat) : List (List Nat) → List Nat → Prop
  | nil : Ids V unk [] []
  | cons (w ws out outs) : Wordpiece V unk w out → Ids V unk ws outs → Ids V unk (w :: ws) (out ++ outs)

/-- A word that the code cuts up as the reference does, or leaves unknown as the reference does: the look-up never
goes beyond the match (C14), or there is no match at all.  The first condition is about 16-bit units. -/
def Simple (V : List (List Nat)) (w : List Nat) : Prop :=
  (∃ ids, TightPieces (V.map Unicode.utf16Encode) [] (Unicode.utf16Encode w) ids) ∨
  ∀ q, q <+: w → q ≠ [] → q ∉ V

/-! ## Agreement between ICU and Python -/

/-- The two-letter name of each ICU category (documentation in uchar.h). -/
def letters : CharType → List Nat
  | .generalOtherTypes => [67, 110] | .uppercaseLetter => [76, 117] | .lowercaseLetter => [76, 108]
  | .titlecaseLetter => [76, 116] | .modifierLetter => [76, 109] | .otherLetter => [76, 111]
  | .nonSpacingMark => [77, 110] | .enclosingMark => [77, 101] | .combiningSpacingMark => [77, 99]
  | .decimalDigitNumber => [78, 100] | .letterNumber => [78, 108] | .otherNumber => [78, 111]
  | .spaceSeparator => [90, 115] | .lineSeparator => [90, 108] | .paragraphSeparator => [90, 112]
  | .controlChar => [67, 99] | .formatChar => [67, 102] | .privateUseChar => [67, 111] | .surrogate => [67, 115]
  | .dashPunctuation => [80, 100] | .startPunctuation => [80, 115] | .endPunctuation => [80, 101]
  | .connectorPunctuation => [80, 99] | .otherPunctuation => [80, 111] | .initialPunctuation => [80, 105]
  | .finalPunctuation => [80, 102]
  | .mathSymbol => [83, 109] | .currencySymbol => [83, 99] | .modifierSymbol => [83, 107] | .otherSymbol => [83, 111]

/-- ICU and Python have the same Unicode data, and both give text when normalising text. -/
structure Agree (ct : Nat → CharType) (nfc nfd : List Nat → List Nat) (d : Ucd) : Prop where
  cat : ∀ c, d.cat c = letters (ct c)
  nfc : ∀ cs, (∀ c ∈ cs, IsScalar c) → nfc (Unicode.utf16Encode cs) = Unicode.utf16Encode (d.nfc cs) ∧
    ∀ c ∈ d.nfc cs, IsScalar c
  nfd : ∀ cs, (∀ c ∈ cs, IsScalar c) → nfd (Unicode.utf16Encode cs) = Unicode.utf16Encode (d.nfd cs) ∧
    ∀ c ∈ d.nfd cs, IsScalar c

/-- Facts of Unicode: the characters `str.split()` splits at are the space separators, some control characters, and
the line and the paragraph separator. -/
structure SpacesOk (d : Ucd) : Prop where
  blank : d.cat 32 = ascii "Zs"
  zs : ∀ c, d.cat c = ascii "Zs" → c ∈ spaces
  rest : ∀ c ∈ spaces, d.cat c = ascii "Zs" ∨ Major d c 67 ∨ c = 0x2028 ∨ c = 0x2029

end Berts.Spec.Py
