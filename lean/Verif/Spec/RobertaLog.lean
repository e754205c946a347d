import Verif.Spec.BertLog
import Verif.Spec.Bpe
import Verif.Spec.Roberta

/-!
# What RoBERTa's tokenizer says

Lines as in `Verif.Spec.BertLog`: the highest log level at which a line is written, and its text.
-/

namespace Berts.Spec

open Berts.Vocab Berts.Unicode

/-- The lines of a call that succeeds, without those for the level DEBUG: ids of special tokens that are no ids (the
mask token is looked up twice) and the start.  `n` is the number of tokens of the vocabulary. -/
def startLines (n : Nat) (sp : Special) : List (Int × List Nat) :=
  specialLines n [sp.bos, sp.eos, sp.cls, sp.mask, sp.pad, sp.sep, sp.unk] ++
    line 1 (bytes! "tokenization start") :: specialLines n [sp.mask]

/-- A special token as the log shows it: without the blanks at its end if it is followed by the mask token, nothing if
it is not well-formed UTF-8. -/
def shownSpecial (ws : Nat → Bool) (beforeMask : Bool) (t : List Nat) : List Nat :=
  match utf8Decode t with
  | none => []
  | some cs => utf8Encode (if beforeMask then stripEnd ws cs else cs)

/-- The lines about a token `t` that has no id. -/
inductive Complains (ws : Nat → Bool) (t : List Nat) : List (Int × List Nat) → Prop
  | plain : Complains ws t [line 1 (bytes! "token " ++ t ++ bytes! " is not found"),
      line 1 (bytes! "failed to tokenize: " ++ t)]
  | special (beforeMask : Bool) : Complains ws t [line 1 (bytes! "token " ++ t ++ bytes! " is not found"),
      line 1 (bytes! "unknown special token: \"" ++ shownSpecial ws beforeMask t ++ bytes! "\"")]

/-! ## Byte pair encoding -/

/-- The merges `(a, b, n)`, in this order, lead from the word `w` to the word `v`. -/
inductive Trace (tbl : MergeTable Nat) : List Nat → List (Nat × Nat × Nat) → List Nat → Prop
  | done (w) : Trace tbl w [] w
  | merge {pre a b post r n ms v} : tbl a b = some (r, n) → Trace tbl (pre ++ n :: post) ms v →
      Trace tbl (pre ++ a :: b :: post) ((a, b, n) :: ms) v

/-- The same where each merge is the one of the textbook algorithm: an adjacent pair of lowest rank, the leftmost one
if there are several. -/
inductive RefTrace (tbl : MergeTable Nat) : List Nat → List (Nat × Nat × Nat) → List Nat → Prop
  | done (w) : RefTrace tbl w [] w
  | merge {pre a b post r n ms v} : tbl a b = some (r, n) →
      (∀ pre' a' b' post' r' n', pre ++ a :: b :: post = pre' ++ a' :: b' :: post' → tbl a' b' = some (r', n') →
        r < r' ∨ (r = r' ∧ pre.length ≤ pre'.length)) →
      RefTrace tbl (pre ++ n :: post) ms v → RefTrace tbl (pre ++ a :: b :: post) ((a, b, n) :: ms) v

/-- Ids with blanks between them. -/
def spaced : List Nat → List Nat
  | [] => []
  | [i] => decimal i
  | i :: is => decimal i ++ bytes! " " ++ spaced is

/-- The lines about the start of byte pair encoding of a text. -/
def bpeStart (text : List Nat) : List (Int × List Nat) :=
  [line 0 (bytes! "start BPE tokenization"), line 0 (bytes! "  text = \"" ++ unitText text ++ bytes! "\"")]

/-- All lines of byte pair encoding: the text, the ids of its characters, the merges and the end. -/
def bpeLines (text ids : List Nat) (ms : List (Nat × Nat × Nat)) : List (Int × List Nat) :=
  bpeStart text ++ [line 0 (bytes! "  id = (" ++ spaced ids ++ bytes! ")")] ++
  ms.map (fun m => line 0 (bytes! "  * merge (" ++ decimal m.1 ++ bytes! ", " ++ decimal m.2.1 ++ bytes! ") -> " ++
    decimal m.2.2)) ++
  [line 0 (bytes! "finish BPE tokenization")]

end Berts.Spec
