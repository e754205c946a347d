import Verif.Spec.Unicode
import Verif.Spec.Bpe

/-! # Specification vocabulary for the RoBERTa tokenizer -/

namespace Berts.Spec

open Berts.Unicode

/-- The printable bytes of GPT-2's `bytes_to_unicode`: `!`..`~`, `¡`..`¬`, `®`..`ÿ`. -/
def Printable (b : Nat) : Prop :=
  (0x21 ≤ b ∧ b ≤ 0x7e) ∨ (0xa1 ≤ b ∧ b ≤ 0xac) ∨ (0xae ≤ b ∧ b ≤ 0xff)

instance : DecidablePred Printable := fun b => by unfold Printable; infer_instance

/-- GPT-2's `bytes_to_unicode`: printable bytes stand for themselves, the others are numbered from
256 in increasing order. -/
def byteChar (b : Nat) : Nat :=
  if Printable b then b else 256 + ((List.range b).filter (fun x => ¬ Printable x)).length

/-- Blank, control and invisible characters below U+0180. -/
def BlankOrControl (c : Nat) : Prop := c ≤ 0x20 ∨ (0x7f ≤ c ∧ c ≤ 0xa0) ∨ c = 0xad

instance : DecidablePred BlankOrControl := fun b => by unfold BlankOrControl; infer_instance

/-- A byte string. -/
def Bytes (bs : List Nat) : Prop := ∀ b ∈ bs, b < 256

instance (bs : List Nat) : Decidable (Bytes bs) := by unfold Bytes; infer_instance

/-- Byte-level encoding of a byte string. -/
def byteChars (bs : List Nat) : List Nat := bs.map byteChar

/-- The text `text` is cut into `pieces`, each either one of the special strings (`true`) or a
non-empty piece of other text (`false`); two pieces of other text are never adjacent. -/
structure Cut (specials : List (List Nat)) (text : List Nat) (pieces : List (Bool × List Nat)) :
    Prop where
  concat : (pieces.map (·.2)).flatten = text
  special : ∀ p ∈ pieces, p.1 = true → p.2 ∈ specials
  plain : ∀ p ∈ pieces, p.1 = false → p.2 ≠ []
  /-- no special string starts inside a plain piece, looking at everything that follows -/
  none_inside : ∀ pre p post, pieces = pre ++ p :: post → p.1 = false → ∀ a c b, p.2 = a ++ c :: b →
    ∀ k ∈ specials, ¬ k <+: (c :: b) ++ (post.map (·.2)).flatten
  /-- plain pieces are maximal -/
  maximal : ∀ pre p q post, pieces = pre ++ p :: q :: post → p.1 = true ∨ q.1 = true

/-- Unit position `i` of the string with code points `cs` is not inside a surrogate pair. -/
def AlignedAt (cs : List Nat) (i : Nat) : Prop := ∃ a b, cs = a ++ b ∧ i = (utf16Encode a).length

/-- What is assumed of the regular expression engine: matches are ordered, do not overlap, lie inside
the text and consist of whole code points. -/
structure RegexContract (f : List Nat → List (Nat × Nat)) : Prop where
  ordered : ∀ text, Matches text.length 0 (f text)
  aligned : ∀ cs, (∀ c ∈ cs, IsScalar c) → ∀ m ∈ f (utf16Encode cs),
    AlignedAt cs m.1 ∧ AlignedAt cs m.2

/-- A sequence without its trailing blanks. -/
def stripEnd (ws : Nat → Bool) (cs : List Nat) : List Nat := (cs.reverse.dropWhile ws).reverse

/-- The bytes of a plain piece that are tokenized: before a mask token without trailing blanks. -/
def keptBytes (ws : Nat → Bool) (beforeMask : Bool) (s : List Nat) : List Nat :=
  if beforeMask then utf8Encode (stripEnd ws ((utf8Decode s).getD [])) else s

/-- The pieces of a cut text as they reach the model: special tokens as they are, plain text with
blanks before a mask token removed. -/
def keptPieces (ws : Nat → Bool) (mask : List Nat) : List (Bool × List Nat) → List (Bool × List Nat)
  | [] => []
  | (true, s) :: ps => (true, s) :: keptPieces ws mask ps
  | (false, s) :: ps =>
    (false, keptBytes ws (ps.head?.any (fun p => p.1 && p.2 == mask)) s) :: keptPieces ws mask ps

/-- The ids spell the code points `cs`: their entries in the list `l` are UTF-8 and concatenate to
`cs`. -/
def Spells (l : List (List Nat)) (ids : List Nat) (cs : List Nat) : Prop :=
  ∃ parts : List (List Nat), (∀ p ∈ parts, ∀ c ∈ p, IsScalar c) ∧
    ids.map (l[·]?) = parts.map (fun p => some (utf8Encode p)) ∧ parts.flatten = cs

/-- One group of ids for each piece: a special token has its own id, a plain piece is spelled in the
byte alphabet. -/
def PieceIds (l : List (List Nat)) : List (Bool × List Nat) → List (List Nat) → Prop
  | [], idss => idss = []
  | _ :: _, [] => False
  | (true, s) :: ps, ids :: idss => (∃ i, ids = [i] ∧ l[i]? = some s) ∧ PieceIds l ps idss
  | (false, s) :: ps, ids :: idss => Spells l ids (byteChars s) ∧ PieceIds l ps idss

/-! ## The reference tokenizer -/

/-- Two lists of the same length whose elements are related one by one. -/
def Each {α β : Type} (R : α → β → Prop) : List α → List β → Prop
  | [], [] => True
  | a :: as, b :: bs => R a b ∧ Each R as bs
  | _, _ => False

/-- `pairs` are the merges of the file: each record of three numbers names two entries of the
vocabulary (`tcs` are the code points of its entries; the third number is not used).  Tokens are
UTF-16 strings. -/
def MergeFile (tcs : List (List Nat)) (data : List Nat) (pairs : List (List Nat × List Nat)) : Prop :=
  data.length = 3 * pairs.length ∧
  ∀ (k : Nat) p, pairs[k]? = some p → ∃ i j a b, data[3 * k]? = some i ∧ data[3 * k + 1]? = some j ∧
    tcs[i]? = some a ∧ tcs[j]? = some b ∧ p = (utf16Encode a, utf16Encode b)

/-- The word `bs` (bytes), written in the byte alphabet, is cut into `toks` by reference BPE. -/
def ByteBpe (tbl : MergeTable (List Nat)) (bs : List Nat) (toks : List (List Nat)) : Prop :=
  RefBpe tbl ((byteChars bs).map (fun c => [c])) toks

/-- `id` is the position of the token in the vocabulary. -/
def IdOf (l : List (List Nat)) (id : Nat) (tok : List Nat) : Prop :=
  ∃ tc, (∀ c ∈ tc, IsScalar c) ∧ tok = utf16Encode tc ∧ l[id]? = some (utf8Encode tc)

/-- Reference ids of a plain piece with the code points `cs`: it is cut into words at the matches of the
regular expression, each word is tokenized by reference BPE, and the tokens are looked up. -/
def RefPlain (l : List (List Nat)) (tbl : MergeTable (List Nat)) (f : List Nat → List (Nat × Nat))
    (cs ids : List Nat) : Prop :=
  ∃ words tokss, words.flatten = cs ∧ words.map utf16Encode =
      (if cs = [] then [] else cutAt (utf16Encode cs) 0 (f (utf16Encode cs))) ∧
    Each (fun w toks => ByteBpe tbl (utf8Encode w) toks) words tokss ∧ Each (IdOf l) ids tokss.flatten

/-- Reference ids of the pieces of a text, one group for each piece. -/
def RefPieces (l : List (List Nat)) (tbl : MergeTable (List Nat)) (f : List Nat → List (Nat × Nat)) :
    List (Bool × List Nat) → List (List Nat) → Prop :=
  Each fun p ids => if p.1 then ∃ i, ids = [i] ∧ l[i]? = some p.2
    else ∃ cs, (∀ c ∈ cs, IsScalar c) ∧ p.2 = utf8Encode cs ∧ RefPlain l tbl f cs ids

end Berts.Spec
