import Verif.Model.Roberta
import Verif.Model.Regex

/-!
# RoBERTa tokenization with a regular expression engine that can fail

Model/Roberta.lean assumes that the engine finds all matches.  Here the expression may fail to compile
(the constructor, unicode.cpp:639-646, only leaves `impl` empty) and the search may be given up.
-/

namespace Berts.Roberta

open Berts.Unicode Berts.Vocab Berts.Bpe

/-- The engine of one call of `tokenize`: whether `uregex_open` succeeded at roberta.cpp:295, and whether it
gives up on a string after the matches `Env.matches_`. -/
structure Engine where
  open_ : Bool
  failed : List Nat → Bool

/-- What the engine does with a string. -/
def Engine.run (en : Engine) (e : Env) (units : List Nat) : Run := ⟨e.matches_ units, en.failed units⟩

/-- A piece that is not a special token, roberta.cpp:328-353; the number returned by `re.split` at line 329 is
not looked at. -/
def plainPieceE (en : Engine) (e : Env) (r : RVocab) (units : List Nat) (cache : Cache) (result : List Nat) :
    Res (Option (List Nat) × Cache) :=
  (bpeLoop e r.bpe (splitRun en.open_ units (en.run e units) []).1 [] cache).bind fun p =>
  (idLoop r.v p.1 result).bind fun o => .ok (o, p.2)

/-- The main loop, roberta.cpp:300-354. -/
def pieceLoopE (en : Engine) (e : Env) (r : RVocab) (mask : List Nat) :
    List (Bool × List Nat) → Cache → List Nat → Res (Option (List Nat))
  | [], _, result => .ok (some result)
  | (true, s) :: ps, cache, result =>
    (specialPiece e.ws r.v (nextIsMask mask ps) s result).bind fun o =>
      match o with
      | none => .ok none
      | some result => pieceLoopE en e r mask ps cache result
  | (false, s) :: ps, cache, result =>
    (subtextUnits e.ws (nextIsMask mask ps) s).bind fun units =>
    (plainPieceE en e r units cache result).bind fun p =>
      match p.1 with
      | none => .ok none
      | some result => pieceLoopE en e r mask ps p.2 result

/-- `roberta::tokenize`, roberta.cpp:250-358, with the set `never_split` in iteration order. -/
def tokenizeWithE (en : Engine) (e : Env) (r : RVocab) (keeps : List (List Nat)) (text result : List Nat) :
    Res (Option (List Nat)) :=
  (splitLoop keeps e.fuel text [] []).bind fun pieces =>
  (idToToken r.v r.special.mask).bind fun mask =>
  pieceLoopE en e r mask pieces [] result

/-- `model::tokenize`, roberta.cpp:360-376; `setOrder` puts the elements of the hash set into
iteration order. -/
def tokenizeE (en : Engine) (e : Env) (r : RVocab) (setOrder : List (List Nat) → List (List Nat))
    (text : List Nat) : Res (Option (List Nat)) :=
  (specialTokens r.v r.special).bind fun sps => tokenizeWithE en e r (setOrder sps) text []

end Berts.Roberta
