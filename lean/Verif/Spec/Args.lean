import Verif.Model.Args

/-!
# How the converter is called

The command lines `-i MODEL -o FILE [--use-f32] [--cache-dir DIR]` in all their spellings, without
reference to how they are recognised.
-/

namespace Berts.Spec

open Berts.Vocab (ascii)
open Berts.Args (Text Opt)

def shortName : Opt → Option Text
  | .input => some (ascii "-i")
  | .output => some (ascii "-o")
  | .cache => none

def longName : Opt → Text
  | .input => ascii "--input-model"
  | .output => ascii "--output-path"
  | .cache => ascii "--cache-dir"

/-- A long name may be cut after its first letter. -/
def Abbreviates (p name : Text) : Prop := p <+: name ∧ 3 ≤ p.length

def Names (o : Opt) (p : Text) : Prop := shortName o = some p ∨ Abbreviates p (longName o)

/-- A word that could be an option of the program. -/
def LooksLike (v : Text) : Prop :=
  (∃ s ∈ [ascii "-h", ascii "-i", ascii "-o"], s <+: v) ∨
  (ascii "--" <+: v ∧ ∃ l ∈ [ascii "--help", ascii "--input-model", ascii "--output-path", ascii "--use-f32", ascii "--cache-dir"],
    ∃ p, p <+: l ∧ (v = p ∨ ∃ x, v = p ++ ascii "=" ++ x))

/-- A numeral: digits, or digits around a point, the last of them present. -/
def NumeralAs (dig : Nat → Bool) (t : Text) : Prop :=
  ∃ d e, (∀ x ∈ d ++ e, dig x = true) ∧ e ≠ [] ∧ (t = d ++ e ∨ t = d ++ ascii "." ++ e)

/-- A word that is taken as a value although it stands alone. -/
def Bare (dig : Nat → Bool) (v : Text) : Prop :=
  ¬ ascii "-" <+: v ∨ v = ascii "-" ∨
    (¬ LooksLike v ∧ (32 ∈ v ∨ ∃ t, NumeralAs dig t ∧ (v = ascii "-" ++ t ∨ v = ascii "-" ++ t ++ [10])))

/-- What a caller may ask for. -/
inductive Item where
  | value (o : Opt) (v : Text) | f32

/-- The words that ask for it. -/
inductive Spelled (dig : Nat → Bool) : Item → List Text → Prop
  | apart {o p v} : Names o p → Bare dig v → Spelled dig (.value o v) [p, v]
  | joined {o p v} : Names o p → Spelled dig (.value o v) [p ++ ascii "=" ++ v]
  | glued {o p v} : shortName o = some p → v ≠ [] → ¬ ascii "=" <+: v → Spelled dig (.value o v) [p ++ v]
  | f32 {p} : Abbreviates p (ascii "--use-f32") → Spelled dig .f32 [p]

/-- A command line. -/
inductive Line (dig : Nat → Bool) : List Item → List Text → Prop
  | nil : Line dig [] []
  | cons {i is ws args} : Spelled dig i ws → Line dig is args → Line dig (i :: is) (ws ++ args)

/-- The value asked for last. -/
def LastOf (o : Opt) (is : List Item) : Option Text → Prop
  | none => ∀ v, .value o v ∉ is
  | some v => ∃ l r, is = l ++ .value o v :: r ∧ ∀ u, .value o u ∉ r

/-- A word that asks for help: `--help`, an abbreviation of it, or `-h`, which may be repeated and may have
other letters attached (not `-` or `=`; if `-i` or `-o` is attached, with its value). -/
def AsksHelp (dig : Nat → Bool) (h : Text) (post : List Text) : Prop :=
  Abbreviates h (ascii "--help") ∨
  ∃ k x, h = ascii "-h" ++ List.replicate k 104 ++ x ∧
    (x = [] ∨ ∃ c y, x = c :: y ∧ c ≠ 104 ∧ c ≠ 45 ∧ c ≠ 61 ∧
      ((c = 105 ∨ c = 111) → y = [] → ∃ a r, post = a :: r ∧ Bare dig a))

/-- Items with stray words among them. -/
inductive Loose (dig : Nat → Bool) : List Text → Prop
  | nil : Loose dig []
  | item {i ws args} : Spelled dig i ws → Loose dig args → Loose dig (ws ++ args)
  | stray {a args} : ¬ LooksLike a → Loose dig args → Loose dig (a :: args)

/-- Before `--`, no word begins with `--=`. -/
def Unambiguous (args : List Text) : Prop :=
  ∀ l a r, args = l ++ a :: r → ascii "--" ∉ l → ¬ ascii "--=" <+: a

end Berts.Spec
