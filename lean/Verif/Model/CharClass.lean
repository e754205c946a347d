import Verif.Model.Bert

/-!
# Character classes (`berts/models/unicode.cpp`, 540-608)

`Verif.Model.Bert` takes the classes as parameters; here they are derived from ICU's `u_charType`.
-/

namespace Berts.CharClass

open Berts.Vocab (ascii)

/-- `UCharCategory` of ICU (uchar.h), without the prefix `U_`. -/
inductive CharType
  | generalOtherTypes | uppercaseLetter | lowercaseLetter | titlecaseLetter | modifierLetter | otherLetter
  | nonSpacingMark | enclosingMark | combiningSpacingMark | decimalDigitNumber | letterNumber | otherNumber
  | spaceSeparator | lineSeparator | paragraphSeparator | controlChar | formatChar | privateUseChar | surrogate
  | dashPunctuation | startPunctuation | endPunctuation | connectorPunctuation | otherPunctuation
  | mathSymbol | currencySymbol | modifierSymbol | otherSymbol | initialPunctuation | finalPunctuation
deriving DecidableEq

/-- `category`, unicode.cpp:568-603, of a character with the given `u_charType`. -/
def category : CharType → List Nat
  | .generalOtherTypes => ascii "Cn"
  | .uppercaseLetter => ascii "Lu"
  | .lowercaseLetter => ascii "Ll"
  | .titlecaseLetter => ascii "Lt"
  | .modifierLetter => ascii "Lm"
  | .otherLetter => ascii "Lo"
  | .nonSpacingMark => ascii "Mn"
  | .enclosingMark => ascii "Me"
  | .combiningSpacingMark => ascii "Mc"
  | .decimalDigitNumber => ascii "Nd"
  | .letterNumber => ascii "Nl"
  | .otherNumber => ascii "No"
  | .spaceSeparator => ascii "Zs"
  | .lineSeparator => ascii "Zl"
  | .paragraphSeparator => ascii "Zp"
  | .controlChar => ascii "Cc"
  | .formatChar => ascii "Cf"
  | .privateUseChar => ascii "Co"
  | .surrogate => ascii "Cs"
  | .dashPunctuation => ascii "Pd"
  | .startPunctuation => ascii "Ps"
  | .endPunctuation => ascii "Pe"
  | .connectorPunctuation => ascii "Pc"
  | .otherPunctuation => ascii "Po"
  | .mathSymbol => ascii "Sm"
  | .currencySymbol => ascii "Sc"
  | .modifierSymbol => ascii "Sk"
  | .otherSymbol => ascii "So"
  | .initialPunctuation => ascii "Pi"
  | .finalPunctuation => ascii "Pf"

/-- `is_category`, unicode.cpp:605-608. -/
def isCategory (t : CharType) (cat : List Nat) : Bool := category t == cat

/-- The last lines of `is_punct`, unicode.cpp:564-565. -/
def catP (t : CharType) : Bool := (category t).length != 0 && (category t)[0]? == some 80

/-- `u_isblank` as documented in uchar.h: U+0009 and the category `Zs`; `is_whitespace`, unicode.cpp:540-545. -/
def isWhitespace (ct : Nat → CharType) (c : Nat) : Bool := c == 9 || ct c == .spaceSeparator

/-- `u_isprint` as documented in uchar.h: all categories other than `C…`. -/
def isPrint (ct : Nat → CharType) (c : Nat) : Bool :=
  !(ct c == .generalOtherTypes || ct c == .controlChar || ct c == .formatChar || ct c == .privateUseChar ||
    ct c == .surrogate)

/-- The functions the tokenizer uses, for given `u_charType` and normalisation. -/
def icuOf (ct : Nat → CharType) (nfc nfd lower : List Nat → List Nat) : Bert.Icu where
  nfc := nfc
  nfd := nfd
  lower := lower
  isBlank := isWhitespace ct
  isPrint := isPrint ct
  catP := fun c => catP (ct c)
  catMn := fun c => isCategory (ct c) (ascii "Mn")

end Berts.CharClass
