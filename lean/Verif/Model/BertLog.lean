import Verif.Model.Bert
import Verif.Model.Format

/-!
# BERT's tokenizer with its messages

`Verif.Model.Bert` without the log; here the state of the log is threaded through, and the words stay `ustr` objects up
to the point where they are written.
-/

namespace Berts.Bert

open Berts.Unicode Berts.Trie Berts.Vocab Berts.Log Berts.Format

/-- `log::when`, log.hpp:20-28. -/
def whenL (s : St) (l : Int) (f : St → Res St) : Res St := if isLogging s l then f s else .ok s

/-- The messages of the lambda of `clean_text_and_split`, bert.cpp:400-426, for one code point. -/
def cleanMsg (cond : TokInfo) (s : St) (p : Cp) : Res St :=
  if p.c = 0 then
    (if cond.removeNull then plain s .info (bytes! "null character found in text") else .ok s)
  else if p.c = 0xfffd then
    (if cond.removeRepl then
      whenL s 1 fun s =>
        if p.isPair then
          (fmt (bytes! "invalid sequence found: lone {} surrogate {:04x}")
            [textArg (if p.hi ≠ 0 then bytes! "high" else bytes! "low"),
             numArg (if p.hi ≠ 0 then p.hi else p.lo)]).bind fun m => plain s .info m
        else plain s .info (bytes! "0xfffd found")
     else .ok s)
  else .ok s

/-- The messages of `clean_text_and_split`, bert.cpp:396-457, for all code points. -/
def cleanMsgs (cond : TokInfo) : St → List Cp → Res St
  | s, [] => .ok s
  | s, p :: ps => (cleanMsg cond s p).bind fun s => cleanMsgs cond s ps

/-- As `basicWord`, bert.cpp:506-557, with the strings appended to the result as objects.  `result.push_back(word)`
copies the word. -/
def basicWordU (u : Icu) (cond : TokInfo) (keep : List (List Nat)) (word : List Nat) : Res (List UImpl) :=
  if word ∈ keep then .ok [UImpl.ofUnits word]
  else
    (lowerStep u cond (UImpl.ofUnits word)).bind fun w =>
    (stripStep u cond w).bind fun w =>
      if cond.splitPunc then
        w.readUnits.bind fun l => .ok ((puncLoop u [] ((eachCp true l).map (·.c))).map UImpl.ofUtf32)
      else (UImpl.default.copyFrom w).bind fun w => .ok [w]

/-- As `basicWords`, bert.cpp:506-557. -/
def basicWordsU (u : Icu) (cond : TokInfo) (keep : List (List Nat)) : List (List Nat) → Res (List UImpl)
  | [] => .ok []
  | w :: ws =>
    (basicWordU u cond keep w).bind fun r => (basicWordsU u cond keep ws).bind fun rs => .ok (r ++ rs)

/-- As `basicTokenize`, bert.cpp:488-562. -/
def basicTokenizeL (u : Icu) (cond : TokInfo) (keep : List (List Nat)) (text : List Nat) (s : St) :
    Res (List UImpl × St) :=
  (plain s .debug (bytes! "start basic_tokenize")).bind fun s =>
  (safeNorm u.nfc (UImpl.ofUtf8 text)).bind fun n =>
  n.readUnits.bind fun l =>
  (cleanMsgs cond s (eachCp false l)).bind fun s =>
  (basicWordsU u cond keep (cleanAndSplit u cond l)).bind fun ws =>
  (plain s .debug (bytes! "end basic_tokenize")).bind fun s => .ok (ws, s)

/-- As `wordLoop`, bert.cpp:580-598. -/
def wordLoopL (rootNode contNode : Node) (unk : Nat) : Nat → Node → UImpl → St → Res ((List Nat × Node) × St)
  | 0, root, _, s => .ok (([], root), s)
  | fuel + 1, root, rest, s =>
    if rest.empty then .ok (([], root), s)
    else
      rest.readUnits.bind fun l =>
        let r := searchSubstr root l [] l
        if r.1 ≠ INVALID then
          (whenL s 0 fun s => (UImpl.ofUnits r.2.1).encode.bind fun found =>
            formatted s .debug (fmt (bytes! "  token: {} ({})") [textArg found.1, numArg r.1])).bind fun s =>
          (wordLoopL rootNode contNode unk fuel (if r.2.2 = [] then rootNode else contNode)
            (UImpl.ofUnits r.2.2) s).bind fun t => .ok ((r.1 :: t.1.1, t.1.2), t.2)
        else
          (whenL s 2 fun s => rest.encode.bind fun e =>
            formatted s .warn (fmt (bytes! "  unknown token: {}") [textArg e.1])).bind fun s => .ok (([unk], root), s)

/-- As `wordsLoop`, bert.cpp:578-599; `ustr rest{word}` is a copy. -/
def wordsLoopL (rootNode contNode : Node) (unk : Nat) : Node → List UImpl → St → Res (List Nat × St)
  | _, [], s => .ok ([], s)
  | root, w :: ws, s =>
    (UImpl.default.copyFrom w).bind fun rest =>
    rest.readSize.bind fun n =>
    (wordLoopL rootNode contNode unk n root rest s).bind fun r =>
    (wordsLoopL rootNode contNode unk r.1.2 ws r.2).bind fun t => .ok (r.1.1 ++ t.1, t.2)

/-- As `wordpiece`, bert.cpp:564-604. -/
def wordpieceL (t : Node) (unk : Nat) (words : List UImpl) (s : St) : Res (Option (List Nat) × St) :=
  (plain s .debug (bytes! "start wordpiece_tokenize")).bind fun s =>
  match findNode t hashes with
  | none => (plain s .error (bytes! "corrupted vocab: \"##\" is not found")).bind fun s => .ok (none, s)
  | some cont =>
    (wordsLoopL t cont unk t words s).bind fun r =>
    (plain r.2 .debug (bytes! "end wordpiece_tokenize")).bind fun s => .ok (some r.1, s)

/-- As `VocabT.idToToken`, model_base.hpp:129-135, with the message. -/
def idToTokenL (v : VocabT) (id : Nat) (s : St) : Res (List Nat × St) :=
  if v.idToTok.length ≤ id then
    (formatted s .error (fmt (bytes! "token id {} is not found (max={})") [numArg id, numArg v.idToTok.length])).bind
      fun s => .ok ([], s)
  else .ok (v.idToToken id, s)

/-- The special tokens, bert.cpp:633-639, as members of `keep`, 614-617. -/
def keepL (v : VocabT) : List Nat → St → Res (List (List Nat) × St)
  | [], s => .ok ([], s)
  | i :: is, s =>
    (idToTokenL v i s).bind fun r =>
    (keepL v is r.2).bind fun t => .ok (unitsOfUtf8 r.1 :: t.1, t.2)

/-- As `tokenize`, bert.cpp:606-642. -/
def tokenizeL (u : Icu) (cond : TokInfo) (v : VocabT) (sp : Special) (text : List Nat) (s : St) :
    Res (List Nat × St) :=
  (keepL v [sp.cls, sp.mask, sp.pad, sp.sep, sp.unk] s).bind fun k =>
  (plain k.2 .info (bytes! "start tokenize")).bind fun s =>
  (basicTokenizeL u cond k.1 text s).bind fun ws =>
  (wordpieceL (buildTrie v.idToTok) sp.unk ws.1 ws.2).bind fun r =>
  (plain r.2 .info (bytes! "end tokenize")).bind fun s => .ok (r.1.getD [], s)

end Berts.Bert

namespace Berts.Vocab

open Berts.Log Berts.Format

/-- As `addToken`, model_base.hpp:146-157, with the message. -/
def VocabT.addTokenL (v : VocabT) (t : List Nat) (s : St) : Res ((Bool × VocabT) × St) :=
  if v.hasToken t then
    (formatted s .warn (fmt (bytes! "  token {} already exists") [textArg t])).bind fun s => .ok (v.addToken t, s)
  else .ok (v.addToken t, s)

end Berts.Vocab
