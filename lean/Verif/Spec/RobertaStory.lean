import Verif.Spec.RobertaLog

/-!
# The whole log of RoBERTa's tokenizer

Words and tokens are byte strings and ids here; `l` is the vocabulary.
-/

namespace Berts.Spec

open Berts.Vocab Berts.Unicode

/-- `tbl` is the merge table of the file with the records `data` (three numbers each; the third is not used): the rank
of two tokens is the last record that names them, and they are merged into the token that is their concatenation. -/
def IdTable (l : List (List Nat)) (data : List Nat) (tbl : MergeTable Nat) : Prop :=
  ∀ i j r n, tbl i j = some (r, n) ↔
    (data[3 * r]? = some i ∧ data[3 * r + 1]? = some j ∧
      ∀ k, data[3 * k]? = some i → data[3 * k + 1]? = some j → k ≤ r) ∧
    ∃ a b, l[i]? = some a ∧ l[j]? = some b ∧ l[n]? = some (a ++ b)

/-- The ids of the bytes of a word before any merge: each byte stands for a character; a character without an id is
replaced by the unknown token, unless the id before is that of the unknown token (`prev`). -/
def firstIds (l : List (List Nat)) (unk : Nat) : Option Nat → List Nat → List Nat
  | _, [] => []
  | prev, b :: bs =>
    match l.idxOf? (utf8Of (byteChar b)) with
    | some i => i :: firstIds l unk (some i) bs
    | none => if prev = some unk then firstIds l unk prev bs else unk :: firstIds l unk (some unk) bs

/-- What is done one after the other: a special token, which may be followed by the mask token, or a word. -/
inductive Job
  | special (beforeMask : Bool) (s : List Nat)
  | word (bs : List Nat)

/-- The jobs that the pieces of a text lead to: words are what the matches of the regular expression cut a plain piece
into. -/
def Jobs (ws : Nat → Bool) (f : List Nat → List (Nat × Nat)) (mask : List Nat) :
    List (Bool × List Nat) → List Job → Prop
  | [], jobs => jobs = []
  | (true, s) :: ps, jobs => ∃ rest, jobs = .special (ps.head?.any fun p => p.1 && p.2 == mask) s :: rest ∧
      Jobs ws f mask ps rest
  | (false, s) :: ps, jobs => ∃ (cs : List Nat) (words : List (List Nat)) (rest : List Job), (∀ c ∈ cs, IsScalar c) ∧
      utf8Encode cs = keptBytes ws (ps.head?.any fun p => p.1 && p.2 == mask) s ∧ words.flatten = cs ∧
      words.map utf16Encode = (if cs = [] then [] else cutAt (utf16Encode cs) 0 (f (utf16Encode cs))) ∧
      jobs = words.map (fun w => .word (utf8Encode w)) ++ rest ∧ Jobs ws f mask ps rest

/-- `Told seen jobs ls ids`: the jobs are logged with the lines `ls` and lead to the ids.  A word that has been seen
leads to the same ids as before, and nothing is said about how; of a new one all merges are told, which are those of the
textbook algorithm, up to the point where no pair can be merged. -/
inductive Told (l : List (List Nat)) (tbl : MergeTable Nat) (unk : Nat) (ws : Nat → Bool) :
    List (List Nat × List Nat) → List Job → List (Int × List Nat) → List Nat → Prop
  | done {seen} : Told l tbl unk ws seen [] [] []
  | special {seen bm s i jobs ls ids} : l[i]? = some s → Told l tbl unk ws seen jobs ls ids →
      Told l tbl unk ws seen (.special bm s :: jobs)
        (line 0 (bytes! "special token: " ++ shownSpecial ws bm s ++ bytes! " (" ++ decimal i ++ bytes! ")") :: ls)
        (i :: ids)
  | again {seen bs out jobs ls ids} : (bs, out) ∈ seen → Told l tbl unk ws seen jobs ls ids →
      Told l tbl unk ws seen (.word bs :: jobs) (bpeStart (byteChars bs) ++ ls) (out ++ ids)
  | fresh {seen bs ms out jobs ls ids} : (∀ o, (bs, o) ∉ seen) → RefTrace tbl (firstIds l unk none bs) ms out →
      Normal tbl out → Told l tbl unk ws ((bs, out) :: seen) jobs ls ids →
      Told l tbl unk ws seen (.word bs :: jobs) (bpeLines (byteChars bs) (firstIds l unk none bs) ms ++ ls) (out ++ ids)

/-- The lines about the pieces of a text. -/
def pieceLines (pieces : List (Bool × List Nat)) : List (Int × List Nat) :=
  line 0 (bytes! "  subtexts:") ::
    pieces.map fun p => line 0 (bytes! "    \"" ++ p.2 ++ bytes! "\" " ++ if p.1 then bytes! "*" else [])

end Berts.Spec
