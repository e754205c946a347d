import Verif.Model.Bert
import Verif.Spec.Unicode
import Verif.Spec.Trie

/-! # Specification vocabulary for the BERT tokenizer -/

namespace Berts.Spec

open Berts.Bert

/-- Blank characters: space, tab, line feed, carriage return and the blanks of Unicode. -/
def Blank (u : Icu) (c : Nat) : Prop := c ∈ [32, 9, 10, 13] ∨ u.isBlank c = true

/-- Control characters: unprintable ones other than the four ASCII blanks. -/
def Control (u : Icu) (c : Nat) : Prop := c ∉ [32, 9, 10, 13] ∧ u.isPrint c = false

/-- Characters that the basic mode does not remove. -/
def Kept (u : Icu) (c : Nat) : Prop := c ≠ 0 ∧ c ≠ 0xfffd ∧ ¬ Control u c

/-- Characters that end up in some word in the basic mode. -/
def Solid (u : Icu) (c : Nat) : Prop := Kept u c ∧ ¬ Blank u c

/-- The blocks of CJK ideographs (the table of `transformers`' `_is_chinese_char`). -/
def cjkBlocks : List (Nat × Nat) :=
  [(0x4E00, 0x9FFF), (0x3400, 0x4DBF), (0x20000, 0x2A6DF), (0x2A700, 0x2B73F), (0x2B740, 0x2B81F),
   (0x2B820, 0x2CEAF), (0xF900, 0xFAFF), (0x2F800, 0x2FA1F)]

/-- CJK ideograph. -/
def Ideograph (c : Nat) : Prop := ∃ b ∈ cjkBlocks, b.1 ≤ c ∧ c ≤ b.2

instance (u : Icu) : DecidablePred (Blank u) := fun c => by unfold Blank; infer_instance
instance (u : Icu) : DecidablePred (Control u) := fun c => by unfold Control; infer_instance
instance (u : Icu) : DecidablePred (Kept u) := fun c => by unfold Kept; infer_instance
instance (u : Icu) : DecidablePred (Solid u) := fun c => by unfold Solid; infer_instance
instance : DecidablePred Ideograph := fun c => by unfold Ideograph; infer_instance

/-- Punctuation: ASCII characters that are neither letters nor digits nor blanks nor controls, and
the characters Unicode classifies as punctuation. -/
def Punct (u : Icu) (c : Nat) : Prop :=
  (32 < c ∧ c < 127 ∧ ¬ (48 ≤ c ∧ c ≤ 57) ∧ ¬ (65 ≤ c ∧ c ≤ 90) ∧ ¬ (97 ≤ c ∧ c ≤ 122)) ∨
  u.catP c = true

instance (u : Icu) : DecidablePred (Punct u) := fun c => by unfold Punct; infer_instance

/-- The basic cleaning options are on. -/
def BasicMode (cond : TokInfo) : Prop :=
  cond.removeNull = true ∧ cond.removeRepl = true ∧ cond.removeCtrl = true ∧ cond.normWs = true

/-- ICU's normaliser maps well-formed text to well-formed text. -/
def NormOk (norm : List Nat → List Nat) : Prop :=
  ∀ cs, (∀ c ∈ cs, IsScalar c) →
    ∃ ds, (∀ d ∈ ds, IsScalar d) ∧ norm (Unicode.utf16Encode cs) = Unicode.utf16Encode ds

/-- `ps` is the text `cs` cut at its punctuation characters: joined it is `cs`, every piece is one
punctuation character or a non-empty run without punctuation, and two runs are never adjacent. -/
structure CutAtPunct (u : Icu) (cs : List Nat) (ps : List (List Nat)) : Prop where
  joined : ps.flatten = cs
  piece : ∀ p ∈ ps, (∃ c, Punct u c ∧ p = [c]) ∨ (p ≠ [] ∧ ∀ c ∈ p, ¬ Punct u c)
  maximal : ∀ (a b : List (List Nat)) (p q : List Nat), ps = a ++ p :: q :: b →
    (∃ c, Punct u c ∧ p = [c]) ∨ (∃ c, Punct u c ∧ q = [c])

/-- Characters at which text is cut into words: blanks that are not removed. -/
def Separator (u : Icu) (c : Nat) : Prop := Blank u c ∧ Kept u c

instance (u : Icu) : DecidablePred (Separator u) := fun c => by unfold Separator; infer_instance

/-- The non-empty stretches between separators; `cur` is the stretch being read. -/
def wordsFrom (sep : Nat → Bool) (cur : List Nat) : List Nat → List (List Nat)
  | [] => [cur].filter (· ≠ [])
  | c :: cs => if sep c then [cur].filter (· ≠ []) ++ wordsFrom sep [] cs else wordsFrom sep (cur ++ [c]) cs

/-! ## WordPiece -/

/-- The marker of continuation pieces, `##`. -/
def marker : List Nat := [35, 35]

/-- Reference WordPiece on the remaining part `rest` of a word: repeatedly take the longest
vocabulary entry that starts `rest` (after the prefix `pfx`, empty for the first piece and `##` for
the following ones).  `ids` are the pieces, `left` what remains when no entry matches. -/
inductive Pieces (V : List (List Nat)) : List Nat → List Nat → List Nat → List Nat → Prop
  | done (pfx) : Pieces V pfx [] [] []
  | stuck (pfx rest) : rest ≠ [] → (∀ q, q <+: rest → q ≠ [] → pfx ++ q ∉ V) →
      Pieces V pfx rest [] rest
  | step (pfx p r id ids left) : p ≠ [] → IsLastIndex V (pfx ++ p) id →
      (∀ q, q <+: p ++ r → q ≠ [] → pfx ++ q ∈ V → q.length ≤ p.length) →
      Pieces V marker r ids left → Pieces V pfx (p ++ r) (id :: ids) left

/-- Reference result for a word: its pieces, or the unknown token if it cannot be cut up. -/
def RefWord (V : List (List Nat)) (unk : Nat) (w : List Nat) (out : List Nat) : Prop :=
  (Pieces V [] w out []) ∨ (∃ ids left, Pieces V [] w ids left ∧ left ≠ [] ∧ out = [unk])

/-- Like `Pieces` ending with nothing left, and at every step no longer part of the rest is the
beginning of an entry: looking ahead never goes beyond the longest match. -/
inductive TightPieces (V : List (List Nat)) : List Nat → List Nat → List Nat → Prop
  | done (pfx) : TightPieces V pfx [] []
  | step (pfx p r id ids) : p ≠ [] → IsLastIndex V (pfx ++ p) id →
      (∀ q, q <+: p ++ r → (∃ v ∈ V, pfx ++ q <+: v) → q.length ≤ p.length) →
      TightPieces V marker r ids → TightPieces V pfx (p ++ r) (id :: ids)

/-- Every part of an entry is an entry (up to the marker `##`): true for vocabularies whose longer
pieces only extend shorter ones. -/
def PrefixClosed (V : List (List Nat)) : Prop :=
  ∀ pfx, pfx = [] ∨ pfx = marker → ∀ q v, q ≠ [] → v ∈ V → pfx ++ q <+: v → pfx ++ q ∈ V

/-! ## What the code does instead

`Scan` and `ScanAll` describe the behaviour of the code without its data structures, for comparison with
the reference algorithm above. -/

/-- One word, looked up after the prefix `pfx`: the ids, and the prefix at which the look-up stands
afterwards.  In each step the id is that of the longest entry `p` which starts the rest, but the part
consumed is the longest `q` that starts some entry. -/
inductive Scan (V : List (List Nat)) (unk : Nat) : List Nat → List Nat → List Nat → List Nat → Prop
  | empty (pfx) : Scan V unk pfx [] [] pfx
  | fail (pfx rest) : rest ≠ [] → (∀ p, p <+: rest → p ≠ [] → pfx ++ p ∉ V) →
      Scan V unk pfx rest [unk] pfx
  | step (pfx p q r id ids pfx') : p ≠ [] → p <+: q → IsLastIndex V (pfx ++ p) id →
      (∀ p', p' <+: q ++ r → p' ≠ [] → pfx ++ p' ∈ V → p'.length ≤ p.length) →
      (∃ v ∈ V, pfx ++ q <+: v) →
      (∀ q', q' <+: q ++ r → (∃ v ∈ V, pfx ++ q' <+: v) → q'.length ≤ q.length) →
      Scan V unk (if r = [] then [] else marker) r ids pfx' →
      Scan V unk pfx (q ++ r) (id :: ids) pfx'

/-- A list of words: each word starts where the one before it left the look-up. -/
inductive ScanAll (V : List (List Nat)) (unk : Nat) : List Nat → List (List Nat) → List Nat → Prop
  | nil (pfx) : ScanAll V unk pfx [] []
  | cons (pfx w ws ids pfx' out) : Scan V unk pfx w ids pfx' → ScanAll V unk pfx' ws out →
      ScanAll V unk pfx (w :: ws) (ids ++ out)

end Berts.Spec
