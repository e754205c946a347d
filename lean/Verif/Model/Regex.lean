import Verif.Model.Unicode

/-!
# `regex::test` and `regex::split` with an engine that can fail

`regexSplit` (Model/Unicode.lean) is `split` for an engine that finds all matches.  ICU can also give up
in the middle of a search (time or stack limit, no memory); `check_uerror` then is false.
-/

namespace Berts.Unicode

/-- What the engine does with a text: the successive matches, then the end of the matches or a failure. -/
structure Run where
  found : List (Nat × Nat)
  failed : Bool
deriving DecidableEq, Repr

/-- The loop of `regex::split`, unicode.cpp:703-743, with the early `return false` of line 708.
(Lines 713 and 715 fail only if there was no match.) -/
def splitRunLoop (text : List Nat) (failed : Bool) (cur added : Nat) (out : List (List Nat)) :
    List (Nat × Nat) → List (List Nat) × Nat
  | [] =>
    if failed then (out, 0)
    else if cur < text.length then (out ++ [(text.drop cur).take (text.length - cur)], added + 1)
    else (out, added)
  | (s, e) :: ms =>
    let (out, added) :=
      if cur < s then (out ++ [(text.drop cur).take (s - cur)], added + 1) else (out, added)
    splitRunLoop text failed e (added + 1) (out ++ [(text.drop s).take (e - s)]) ms

/-- `regex::split`, unicode.cpp:690-744; `open_` tells whether `uregex_open` succeeded.  `uregex_setText`
rejects the null pointer of an empty string. -/
def splitRun (open_ : Bool) (text : List Nat) (r : Run) (out : List (List Nat)) : List (List Nat) × Nat :=
  if !open_ then (out, 0)
  else if text.length = 0 then (out, 0)
  else splitRunLoop text r.failed 0 0 out r.found

/-- `regex::test`, unicode.cpp:670-688: only the first search counts. -/
def regexTest (open_ : Bool) (text : List Nat) (r : Run) : Bool :=
  if !open_ then false
  else if text.length = 0 then false
  else match r.found with
    | _ :: _ => true
    | [] => false

end Berts.Unicode
