import Verif.Model.Unicode

/-!
# The regular expression of the RoBERTa tokenizer

The pattern is the text in roberta.cpp:295; `parse` reads the part of ICU's syntax that it uses, and `Rx.run` is
the usual backtracking semantics: the ways in which an expression matches at the beginning of a text, in the order
in which they are tried.  (ICU itself is not in the repository; the character classes are parameters.)
-/

namespace Berts.Pattern

open Berts.Unicode

/-- `\p{L}`, `\p{N}`, `\s`. -/
structure Classes where
  letter : Nat → Bool
  number : Nat → Bool
  space : Nat → Bool

/-- An element of a set: a character, `\p{L}`, `\p{N}`, `\s`, `\S`. -/
inductive Item where
  | lit (c : Nat) | letter | number | space | nonSpace
deriving DecidableEq

/-- Regular expressions: a set (with its complement), sequence, `|`, `?`, `+`, `(?!...)`. -/
inductive Rx where
  | nil
  | one (neg : Bool) (items : List Item)
  | seq (a b : Rx)
  | alt (a b : Rx)
  | opt (a : Rx)
  | plus (a : Rx)
  | notAhead (a : Rx)
deriving DecidableEq

/-! ## Syntax -/

/-- A character or an escape. -/
def parseItem : List Nat → Option (Item × List Nat)
  | 92 :: 112 :: 123 :: 76 :: 125 :: r => some (.letter, r)
  | 92 :: 112 :: 123 :: 78 :: 125 :: r => some (.number, r)
  | 92 :: 115 :: r => some (.space, r)
  | 92 :: 83 :: r => some (.nonSpace, r)
  | 92 :: _ => none
  | c :: r => some (.lit c, r)
  | [] => none

/-- The elements of a set up to the bracket `]`. -/
def parseSet : Nat → List Nat → Option (List Item × List Nat)
  | 0, _ => none
  | _ + 1, 93 :: r => some ([], r)
  | n + 1, s => (parseItem s).bind fun p => (parseSet n p.2).bind fun q => some (p.1 :: q.1, q.2)

/-- `?` and `+` after an atom. -/
def parsePost (a : Rx) : List Nat → Rx × List Nat
  | 63 :: r => (.opt a, r)
  | 43 :: r => (.plus a, r)
  | r => (a, r)

/-- Characters with a meaning of their own: `( ) * + ? [ ] { } ^ $ . |`. -/
def meta_ : List Nat := [40, 41, 42, 43, 63, 91, 93, 123, 125, 94, 36, 46, 124]

mutual

/-- Alternatives, separated by `|`. -/
def parseAlt : Nat → List Nat → Option (Rx × List Nat)
  | 0, _ => none
  | n + 1, s => (parseSeq n s).bind fun p =>
    match p.2 with
    | 124 :: r => (parseAlt n r).bind fun q => some (.alt p.1 q.1, q.2)
    | r => some (p.1, r)

/-- Atoms with their postfix operators, one after the other. -/
def parseSeq : Nat → List Nat → Option (Rx × List Nat)
  | 0, _ => none
  | n + 1, s =>
    match s with
    | [] => some (.nil, s)
    | 124 :: _ => some (.nil, s)
    | 41 :: _ => some (.nil, s)
    | _ => (parseAtom n s).bind fun p =>
      (parseSeq n (parsePost p.1 p.2).2).bind fun q => some (.seq (parsePost p.1 p.2).1 q.1, q.2)

/-- One atom. -/
def parseAtom : Nat → List Nat → Option (Rx × List Nat)
  | 0, _ => none
  | n + 1, 40 :: 63 :: 33 :: r => (parseAlt n r).bind fun p =>
    match p.2 with
    | 41 :: r => some (.notAhead p.1, r)
    | _ => none
  | n + 1, 91 :: 94 :: r => (parseSet n r).bind fun p => some (.one true p.1, p.2)
  | n + 1, 91 :: r => (parseSet n r).bind fun p => some (.one false p.1, p.2)
  | _ + 1, s =>
    if meta_.contains (s.headD 0) then none
    else (parseItem s).bind fun p => some (.one false [p.1], p.2)

end

/-- A whole pattern. -/
def parse (s : List Nat) : Option Rx :=
  match parseAlt (3 * s.length + 3) s with
  | some (r, []) => some r
  | _ => none

/-! ## Matching -/

/-- Whether a character belongs to an element of a set. -/
def Item.has (cl : Classes) (c : Nat) : Item → Bool
  | .lit d => c == d
  | .letter => cl.letter c
  | .number => cl.number c
  | .space => cl.space c
  | .nonSpace => !cl.space c

/-- One or more matches in a row, as many as possible first. -/
def reps (f : List Nat → List (List Nat)) : Nat → List Nat → List (List Nat)
  | 0, _ => []
  | n + 1, s => (f s).flatMap fun s' => reps f n s' ++ [s']

/-- What can be left of the text after a match at its beginning, in the order of the attempts. -/
def Rx.run (cl : Classes) : Rx → List Nat → List (List Nat)
  | .nil, s => [s]
  | .one _ _, [] => []
  | .one neg items, c :: s => if (items.any (Item.has cl c)) != neg then [s] else []
  | .seq a b, s => (a.run cl s).flatMap (b.run cl)
  | .alt a b, s => a.run cl s ++ b.run cl s
  | .opt a, s => a.run cl s ++ [s]
  | .plus a, s => reps (a.run cl) s.length s
  | .notAhead a, s => if (a.run cl s).isEmpty then [s] else []

/-- The loop of `uregex_findNext`: the positions (in characters) of the successive matches.  A search starts where
the last match ended, after an empty match one character later. -/
def findAll (cl : Classes) (r : Rx) : Nat → Nat → List Nat → List (Nat × Nat)
  | 0, _, _ => []
  | n + 1, pos, s =>
    match (r.run cl s).head? with
    | some s' =>
      if s'.length < s.length then
        (pos, pos + (s.length - s'.length)) :: findAll cl r n (pos + (s.length - s'.length)) s'
      else (pos, pos) :: (match s with
        | [] => []
        | _ :: t => findAll cl r n (pos + 1) t)
    | none =>
      match s with
      | [] => []
      | _ :: t => findAll cl r n (pos + 1) t

/-- The characters of a UTF-16 string with their numbers of units; a surrogate that is not part of a pair is a
character of its own. -/
def chars : List Nat → List (Nat × Nat)
  | [] => []
  | [u] => [(u, 1)]
  | u :: v :: us =>
    if 0xd800 ≤ u ∧ u < 0xdc00 ∧ 0xdc00 ≤ v ∧ v < 0xe000 then
      (0x10000 + (u - 0xd800) * 0x400 + (v - 0xdc00), 2) :: chars us
    else (u, 1) :: chars (v :: us)

/-- Position in units of the character with the given number. -/
def offset (cs : List (Nat × Nat)) (i : Nat) : Nat := ((cs.take i).map (·.2)).sum

/-- The matches of an expression in a UTF-16 string, as positions in units. -/
def matchesOf (cl : Classes) (r : Rx) (units : List Nat) : List (Nat × Nat) :=
  (findAll cl r ((chars units).length + 1) 0 ((chars units).map (·.1))).map fun m =>
    (offset (chars units) m.1, offset (chars units) m.2)

/-- The pattern in `tokenize`, roberta.cpp:295. -/
def gpt2Text : String := "'s|'t|'re|'ve|'m|'ll|'d| ?\\p{L}+| ?\\p{N}+| ?[^\\s\\p{L}\\p{N}]+|\\s+(?!\\S)|\\s+"

/-- `unicode::regex re{...}`, roberta.cpp:295: no match at all if the pattern could not be opened. -/
@[irreducible] def gpt2Matches (cl : Classes) (units : List Nat) : List (Nat × Nat) :=
  match parse (gpt2Text.toList.map Char.toNat) with
  | some r => matchesOf cl r units
  | none => []

end Berts.Pattern
