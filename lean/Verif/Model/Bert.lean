import Verif.Model.Vocab
import Verif.Model.Api

/-!
# Model of the BERT tokenizer (`berts/models/bert.cpp`, 26-207 and 368-645)

ICU's data-dependent functions are the fields of `Icu`.  Word strings are unit lists; conversions
through `ustr` objects that can fail are kept (`UImpl`).
-/

namespace Berts.Bert

open Berts.Unicode Berts.Trie Berts.Vocab

/-- ICU functions used by the tokenizer: normalisation (unicode.cpp:512-538), lower-casing
(610-617), `u_isblank` (540-545), `u_isprint` (547-551), general category `P*` (553-566) and `Mn`
(605-608). -/
structure Icu where
  nfc : List Nat → List Nat
  nfd : List Nat → List Nat
  lower : List Nat → List Nat
  isBlank : Nat → Bool
  isPrint : Nat → Bool
  catP : Nat → Bool
  catMn : Nat → Bool

/-- `tokenizer_info` (bert.hpp); the field `normalize` is ignored by the code. -/
structure TokInfo where
  removeRepl : Bool
  removeNull : Bool
  removeCtrl : Bool
  normWs : Bool
  addCjk : Bool
  lowerCase : Bool
  stripAcc : Bool
  splitPunc : Bool

/-- `tokenizer_info_basic`, bert.cpp:26-38. -/
def basicInfo : TokInfo := ⟨true, true, true, true, true, true, true, true⟩

/-- `tokenizer_info_no_basic`, bert.cpp:40-52. -/
def noBasicInfo : TokInfo := ⟨false, false, false, true, false, false, false, false⟩

/-- `BERTS_UNICODE_IS_WS`, bert.cpp:375. -/
def isWs (u : Icu) (c : Nat) : Bool := c == 32 || c == 9 || c == 10 || c == 13 || u.isBlank c

/-- `BERTS_UNICODE_IS_CTRL`, bert.cpp:376. -/
def isCtrl (u : Icu) (c : Nat) : Bool := c != 32 && c != 9 && c != 10 && c != 13 && !u.isPrint c

/-- `BERTS_UNICODE_IS_CJK`, bert.cpp:377. -/
def isCjk (c : Nat) : Bool :=
  (decide (0x4E00 ≤ c) && decide (c ≤ 0x9FFF)) || (decide (0x3400 ≤ c) && decide (c ≤ 0x4DBF)) ||
  (decide (0x20000 ≤ c) && decide (c ≤ 0x2A6DF)) || (decide (0x2A700 ≤ c) && decide (c ≤ 0x2B73F)) ||
  (decide (0x2B740 ≤ c) && decide (c ≤ 0x2B81F)) || (decide (0x2B820 ≤ c) && decide (c ≤ 0x2CEAF)) ||
  (decide (0xF900 ≤ c) && decide (c ≤ 0xFAFF)) || (decide (0x2F800 ≤ c) && decide (c ≤ 0x2FA1F))

/-- The lambda of `clean_text_and_split`, bert.cpp:400-457: what is pushed to `cleaned` for one code
point.  `cleaned.push_back(c)` converts the 32-bit `c` to `cp(unic_t)`, truncating to 16 bits. -/
def cleanCp (u : Icu) (cond : TokInfo) (p : Cp) : List Cp :=
  if p.c = 0 then (if cond.removeNull then [] else [Cp.ofUnit (p.c % 65536)])
  else if p.c = 0xfffd then (if cond.removeRepl then [] else [Cp.ofUnit (p.c % 65536)])
  else if isCtrl u p.c then (if cond.removeCtrl then [] else [Cp.ofUnit (p.c % 65536)])
  else if isWs u p.c then (if cond.normWs then [Cp.ofUnit 32] else [Cp.ofUnit (p.c % 65536)])
  else if isCjk p.c && cond.addCjk then [Cp.ofUnit 32, p, Cp.ofUnit 32]
  else [p]

/-- The units pushed to `current` for one code point, bert.cpp:475-480. -/
def pushUnits (p : Cp) : List Nat := if p.isPair then [p.hi, p.lo] else [p.c % 65536]

/-- The word splitting loop, bert.cpp:459-485. -/
def splitLoop (cur : List Nat) : List Cp → List (List Nat)
  | [] => if cur = [] then [] else [cur]
  | p :: ps =>
    if p.c = 32 then (if cur = [] then splitLoop [] ps else cur :: splitLoop [] ps)
    else splitLoop (cur ++ pushUnits p) ps

/-- `clean_text_and_split`, bert.cpp:396-486, on the units of the text. -/
def cleanAndSplit (u : Icu) (cond : TokInfo) (text : List Nat) : List (List Nat) :=
  splitLoop [] ((eachCp false text).flatMap (cleanCp u cond))

/-- `safe_norm_nfc`/`safe_norm_nfd`, bert.cpp:380-394. -/
def safeNorm (norm : List Nat → List Nat) (inp : UImpl) : Res UImpl := do
  let (ok, s) ← UImpl.normalize norm inp UImpl.default
  if ok then return s else s.copyFrom inp

/-- Lower-casing one word, bert.cpp:510-513: the word is moved to `s1` and `to_lower(s1, word)` is
called, its result ignored. -/
def lowerWord (u : Icu) (w : UImpl) : Res UImpl := do
  let (s1, w') ← UImpl.default.moveFrom w
  let (_, _, out) ← UImpl.caseMap u.lower s1 w'
  return out

/-- Accent stripping of one word, bert.cpp:515-524. -/
def stripAccents (u : Icu) (w : UImpl) : Res UImpl := do
  let s1 ← safeNorm u.nfd w
  let l ← s1.readUnits
  safeNorm u.nfc (UImpl.ofUtf32 (((eachCp true l).map (·.c)).filter (fun c => !u.catMn c)))

/-- The punctuation loop, bert.cpp:533-556, on code points: the pieces in order; `temp` is the
current run. -/
def puncLoop (u : Icu) (temp : List Nat) : List Nat → List (List Nat)
  | [] => if temp = [] then [] else [temp]
  | c :: cs =>
    if isPunct u.catP c then
      (if temp = [] then [] else [temp]) ++ [c] :: puncLoop u [] cs
    else puncLoop u (temp ++ [c]) cs

/-- Reading the units of every string of a list. -/
def readAll : List UImpl → Res (List (List Nat))
  | [] => .ok []
  | s :: ss => do
    let l ← s.readUnits
    let ls ← readAll ss
    return l :: ls

/-- `if (cond.do_lower_case)`, bert.cpp:510-513. -/
def lowerStep (u : Icu) (cond : TokInfo) (w : UImpl) : Res UImpl :=
  if cond.lowerCase then lowerWord u w else .ok w

/-- `if (cond.strip_accents)`, bert.cpp:515-524. -/
def stripStep (u : Icu) (cond : TokInfo) (w : UImpl) : Res UImpl :=
  if cond.stripAcc then stripAccents u w else .ok w

/-- The body of the word loop of `basic_tokenize`, bert.cpp:506-557: the strings appended to the
result for one word.  `keep` is `never_split` (special tokens that are not valid UTF-8 are treated
as the empty string). -/
def basicWord (u : Icu) (cond : TokInfo) (keep : List (List Nat)) (word : List Nat) :
    Res (List (List Nat)) :=
  if word ∈ keep then .ok [word]
  else
    (lowerStep u cond (UImpl.ofUnits word)).bind fun w =>
    (stripStep u cond w).bind fun w =>
    w.readUnits.bind fun l =>
      if cond.splitPunc then
        readAll ((puncLoop u [] ((eachCp true l).map (·.c))).map UImpl.ofUtf32)
      else .ok [l]

/-- The word loop of `basic_tokenize`, bert.cpp:506-557. -/
def basicWords (u : Icu) (cond : TokInfo) (keep : List (List Nat)) : List (List Nat) →
    Res (List (List Nat))
  | [] => .ok []
  | w :: ws => do
    let r ← basicWord u cond keep w
    let rs ← basicWords u cond keep ws
    return r ++ rs

/-- `basic_tokenize`, bert.cpp:488-562; `text` is the byte string. -/
def basicTokenize (u : Icu) (cond : TokInfo) (keep : List (List Nat)) (text : List Nat) :
    Res (List (List Nat)) := do
  let s ← safeNorm u.nfc (UImpl.ofUtf8 text)
  let l ← s.readUnits
  basicWords u cond keep (cleanAndSplit u cond l)

/-- The `while (!rest.empty())` loop of `wordpiece_tokenize`, bert.cpp:581-598, for one word: the
ids pushed and the value of `root` afterwards.  `rest` gets shorter in every round, so the initial
length of the word is enough `fuel`. -/
def wordLoop (rootNode contNode : Node) (unk : Nat) : Nat → Node → List Nat → List Nat × Node
  | 0, root, _ => ([], root)
  | fuel + 1, root, rest =>
    if rest = [] then ([], root)
    else
      let r := searchSubstr root rest [] rest
      if r.1 ≠ INVALID then
        let t := wordLoop rootNode contNode unk fuel (if r.2.2 = [] then rootNode else contNode) r.2.2
        (r.1 :: t.1, t.2)
      else ([unk], root)

/-- The word loop, bert.cpp:578-599; `root` is declared outside the loop and is *not* reset per
word. -/
def wordsLoop (rootNode contNode : Node) (unk : Nat) : Node → List (List Nat) → List Nat
  | _, [] => []
  | root, w :: ws =>
    let r := wordLoop rootNode contNode unk w.length root w
    r.1 ++ wordsLoop rootNode contNode unk r.2 ws

/-- `"##"`, bert.cpp:570. -/
def hashes : List Nat := [35, 35]

/-- `wordpiece_tokenize`, bert.cpp:564-604: `none` is `return false`, otherwise the ids appended. -/
def wordpiece (t : Node) (unk : Nat) (words : List (List Nat)) : Option (List Nat) :=
  match findNode t hashes with
  | none => none
  | some cont => some (wordsLoop t cont unk t words)

/-- `tokenize`, bert.cpp:606-628 and `model::tokenize`, 630-642: the results of both steps are
ignored, so a missing `##` yields no ids but success.  Result: the ids appended (the return value
is always `true`). -/
def tokenize (u : Icu) (cond : TokInfo) (v : VocabT) (sp : Special) (text : List Nat) :
    Res (List Nat) := do
  let keep := [sp.cls, sp.mask, sp.pad, sp.sep, sp.unk].map (fun i => unitsOfUtf8 (v.idToToken i))
  let words ← basicTokenize u cond keep text
  return (wordpiece (buildTrie v.idToTok) sp.unk words).getD []

/-- Tokenizer options of `vocab::init`, bert.cpp:143-173; the arguments are the metadata values. -/
def condOf (lowerCase basic cjk stripAcc : Option Bool) : TokInfo :=
  let lower := lowerCase.getD true
  let base := if basic.getD true then basicInfo else noBasicInfo
  { base with lowerCase := lower, addCjk := cjk.getD true, stripAcc := stripAcc.getD lower }

/-- A loaded BERT model as the C interface sees it: the accessors of
model_base.hpp:283-330 forward to the vocabulary; `tokenize` is `model::tokenize`, bert.cpp:630-642. -/
def bertModel (u : Icu) (cond : TokInfo) (v : VocabT) (sp : Special) : Api.ModelI where
  clsId := sp.cls
  maskId := sp.mask
  padId := sp.pad
  sepId := sp.sep
  unkId := sp.unk
  bosId := sp.bos
  eosId := sp.eos
  vocabCount := v.tokenCount
  idToToken := fun i => .ok (v.idToToken i)
  tokenToId := fun t => .ok (v.tokenToId t)
  tokenize := fun text => do
    let ids ← tokenize u cond v sp text
    return (true, ids)

end Berts.Bert
