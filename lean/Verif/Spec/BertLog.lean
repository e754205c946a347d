import Verif.Model.Format
import Verif.Spec.Bert

/-!
# What tokenizing says

A line of the log is a pair: the highest log level at which it is written, and its text.
-/

namespace Berts.Spec

open Berts.Vocab Berts.Unicode

/-- Units as UTF-8; text that is not well-formed UTF-16 is shown as nothing. -/
def unitText (l : List Nat) : List Nat :=
  if none ∈ decodeUnits l then [] else utf8Encode ((decodeUnits l).filterMap id)

/-- Like `Scan`, with what the ids stand for: `parts` are the stretches consumed and their ids, `left` what was left
over (replaced by the unknown token) if anything was. -/
inductive Report (V : List (List Nat)) :
    List Nat → List Nat → List (List Nat × Nat) → Option (List Nat) → List Nat → Prop
  | empty (pfx) : Report V pfx [] [] none pfx
  | fail (pfx rest) : rest ≠ [] → (∀ p, p <+: rest → p ≠ [] → pfx ++ p ∉ V) →
      Report V pfx rest [] (some rest) pfx
  | step (pfx p q r id parts left pfx') : p ≠ [] → p <+: q → IsLastIndex V (pfx ++ p) id →
      (∀ p', p' <+: q ++ r → p' ≠ [] → pfx ++ p' ∈ V → p'.length ≤ p.length) →
      (∃ v ∈ V, pfx ++ q <+: v) →
      (∀ q', q' <+: q ++ r → (∃ v ∈ V, pfx ++ q' <+: v) → q'.length ≤ q.length) →
      Report V (if r = [] then [] else marker) r parts left pfx' →
      Report V pfx (q ++ r) ((q, id) :: parts) left pfx'

/-- A list of words. -/
inductive ReportAll (V : List (List Nat)) :
    List Nat → List (List Nat) → List (List (List Nat × Nat) × Option (List Nat)) → Prop
  | nil (pfx) : ReportAll V pfx [] []
  | cons (pfx w ws parts left pfx' rs) : Report V pfx w parts left pfx' → ReportAll V pfx' ws rs →
      ReportAll V pfx (w :: ws) ((parts, left) :: rs)

/-- The ids of a report. -/
def reportIds (unk : Nat) (r : List (List Nat × Nat) × Option (List Nat)) : List Nat :=
  r.1.map (·.2) ++ (match r.2 with | none => [] | some _ => [unk])

/-- A line. -/
def line (level : Int) (text : List Nat) : Int × List Nat := (level, text)

/-- The lines of a report: one per token at level DEBUG, one per unknown token at level WARN. -/
def reportLines (r : List (List Nat × Nat) × Option (List Nat)) : List (Int × List Nat) :=
  r.1.map (fun p => line 0 (bytes! "  token: " ++ unitText p.1 ++ bytes! " (" ++ decimal p.2 ++ bytes! ")")) ++
  (match r.2 with | none => [] | some rest => [line 2 (bytes! "  unknown token: " ++ unitText rest)])

/-- The lines about removed characters. -/
def removalLines (cond : Bert.TokInfo) (text : List Nat) : List (Int × List Nat) :=
  (text.filter (fun c => (c = 0 ∧ cond.removeNull) ∨ (c = 0xfffd ∧ cond.removeRepl))).map fun c =>
    line 1 (if c = 0 then bytes! "null character found in text" else bytes! "0xfffd found")

/-- The lines about special tokens whose ids are no ids (errors that are only written up to level INFO). -/
def specialLines (n : Nat) (ids : List Nat) : List (Int × List Nat) :=
  (ids.filter (n ≤ ·)).map fun i =>
    line 1 (bytes! "token id " ++ decimal i ++ bytes! " is not found (max=" ++ decimal n ++ bytes! ")")

/-- All lines written while tokenizing `text` (normalised), given the reports. -/
def tokenizeLines (V : List (List Nat)) (special : List Nat) (cond : Bert.TokInfo) (text : List Nat)
    (reports : List (List (List Nat × Nat) × Option (List Nat))) : List (Int × List Nat) :=
  specialLines V.length special ++
  [line 1 (bytes! "start tokenize"), line 0 (bytes! "start basic_tokenize")] ++
  removalLines cond text ++
  [line 0 (bytes! "end basic_tokenize"), line 0 (bytes! "start wordpiece_tokenize")] ++
  (if ∃ v ∈ V, marker <+: v then reports.flatMap reportLines ++ [line 0 (bytes! "end wordpiece_tokenize")]
   else [line 3 (bytes! "corrupted vocab: \"##\" is not found")]) ++
  [line 1 (bytes! "end tokenize")]

end Berts.Spec
