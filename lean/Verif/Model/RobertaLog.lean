import Verif.Model.LoadLog

/-!
# RoBERTa's tokenizer with its messages

`Verif.Model.Roberta` and the tokenizing part of `Verif.Model.Bpe` without the log; here the state of the log is
threaded through.  The regular expression engine is taken to work, as in `Verif.Model.Roberta` (an error code of ICU is
another message, unicode.cpp:23-29).
-/

namespace Berts.Bpe

open Berts.Unicode Berts.Vocab Berts.Log Berts.Format
open Berts.Load (LogM lift say sayF sayWhen)

/-- What the string stream holds at bpe.cpp:292-300; the last blank is overwritten by the parenthesis. -/
def idText (syms : List Sym) : List Nat :=
  40 :: ((syms.flatMap fun s => decimal s.id ++ [32]).dropLast ++ [41])

/-- As `iteration`, bpe.cpp:329-410. -/
def iterationL (c : Cfg) (s : Bpe.St) (e : Entry) (q : List Entry) : LogM Bpe.St :=
  if 0 < c.dropout ∧ c.draw s.pops < c.dropout then
    pure ⟨s.syms, q, s.skip ++ [e], s.pops + 1⟩
  else
    let q := q ++ s.skip
    match s.syms[e.index]? with
    | none => lift .ub
    | some sym =>
      if sym.len = 0 then pure ⟨s.syms, q, [], s.pops + 1⟩
      else
        match sym.next with
        | none => pure ⟨s.syms, q, [], s.pops + 1⟩
        | some nextPos =>
          match s.syms[nextPos]? with
          | none => lift .ub
          | some right =>
            match find c.merge (sym.id, right.id) with
            | none => pure ⟨s.syms, q, [], s.pops + 1⟩
            | some (_, newId) =>
              if newId ≠ e.newId then pure ⟨s.syms, q, [], s.pops + 1⟩
              else do
                -- 373
                sayF .debug (bytes! "  * merge ({}, {}) -> {}") [numArg sym.id, numArg right.id, numArg e.newId]
                let r ← lift (doMerge c.merge s.syms e.index nextPos e.newId sym right)
                pure ⟨r.1, q ++ r.2, [], s.pops + 1⟩

/-- As `mainLoop`, bpe.cpp:328-411. -/
def mainLoopL (c : Cfg) : Nat → Bpe.St → LogM Bpe.St
  | fuel, s =>
    if s.q = [] then pure s
    else
      match fuel with
      | 0 => lift .hang
      | fuel + 1 =>
        match s.q[c.pick s.pops s.q]? with
        | none => lift .ub
        | some e => do
          let s ← iterationL c s e (s.q.eraseIdx (c.pick s.pops s.q))
          mainLoopL c fuel s

/-- As `mergeAll`, bpe.cpp:290-422. -/
def mergeAllL (c : Cfg) (fuel : Nat) (syms : List Sym) : LogM (List Sym × Nat) := do
  sayWhen 0 (sayF .debug (bytes! "  id = {}") [textArg (idText syms)])
  let s ← mainLoopL c fuel ⟨syms, initQueue c.merge 0 syms, [], 0⟩
  pure (s.syms.filter (fun s => s.len ≠ 0), s.pops)

/-- As `tokensOf`, bpe.cpp:254-262. -/
def tokensOfL (b : Bpe) (v : Env) (text : Str) : LogM (List Str) := do
  let r ← mergeAllL ⟨b.merge, b.dropout, v.draw, v.pick⟩ v.fuel (initialSymbols b text)
  pure (wordToTokens b r.1)

/-- As `tokenize`, bpe.cpp:233-288.  Two of the three ways to return true say nothing at the end. -/
def tokenizeL (b : Bpe) (v : Env) (text : Str) (result : List Str) (cache : Option (List (Str × List Str))) :
    LogM (List Str × Option (List (Str × List Str))) := do
  sayWhen 0 do
    say .debug (bytes! "start BPE tokenization")
    let t ← lift (Roberta.encodeUnits text)
    sayF .debug (bytes! "  text = \"{}\"") [textArg t]
  if text = [] then pure (result, cache)
  else
    let hit : Option (List Str) := match cache with
      | some m => if b.dropout = 0 then find m text else none
      | none => none
    match hit with
    | some cached => pure (result ++ cached, cache)
    | none => do
      let tokens ← tokensOfL b v text
      say .debug (bytes! "finish BPE tokenization")
      match cache with
      | some m =>
        if b.dropout = 0 then pure (result ++ tokens, some (assign m text tokens))
        else pure (result ++ tokens, cache)
      | none => pure (result ++ tokens, cache)

end Berts.Bpe

namespace Berts.Roberta

open Berts.Unicode Berts.Vocab Berts.Bpe Berts.Log Berts.Format
open Berts.Load (LogM lift say sayF sayWhen)

/-- As `idToToken`, roberta.cpp:109-117 with the message of model_base.hpp:129-135. -/
def idToTokenL (v : VocabT) (id : Nat) : LogM (List Nat) := do
  if v.idToTok.length ≤ id then
    sayF .error (bytes! "token id {} is not found (max={})") [numArg id, numArg v.idToTok.length]
  lift (idToToken v id)

/-- `token_to_id_internal`, roberta.hpp:43-45, with the message of model_base.hpp:137-144. -/
def tokenToIdL (v : VocabT) (t : List Nat) : LogM Nat := do
  if v.tokenToId t = INVALID then
    sayF .error (bytes! "token {} is not found") [textArg t]
  pure (v.tokenToId t)

/-- As `bpeLoop`, roberta.cpp:332-344; `bpe::tokenize` never returns false, so the message at line 341 is not written. -/
def bpeLoopL (e : Env) (b : Bpe) : List Str → List Str → Cache → LogM (List Str × Cache)
  | [], toks, cache => pure (toks, cache)
  | s :: ss, toks, cache => do
    let bytes ← lift (encodeUnits s)
    let us ← lift (encodeBytes e.signed bytes)
    let r ← Bpe.tokenizeL b e.bpe us toks (some cache)
    bpeLoopL e b ss r.1 (r.2.getD [])

/-- As `idLoop`, roberta.cpp:346-353. -/
def idLoopL (v : VocabT) : List Str → List Nat → LogM (Option (List Nat))
  | [], result => pure (some result)
  | t :: ts, result => do
    let r ← lift (UImpl.ofUnits t).encode
    let id ← tokenToIdL v r.1
    if id = INVALID then
      let t ← lift r.2.encode
      sayF .error (bytes! "failed to tokenize: {}") [textArg t.1]
      pure none
    else idLoopL v ts (result ++ [id])

/-- As `plainPiece`, roberta.cpp:328-353. -/
def plainPieceL (e : Env) (r : RVocab) (units : List Nat) (cache : Cache) (result : List Nat) :
    LogM (Option (List Nat) × Cache) := do
  let p ← bpeLoopL e r.bpe (regexSplit units (e.matches_ units) []).1 [] cache
  let o ← idLoopL r.v p.1 result
  pure (o, p.2)

/-- As `specialPiece`, roberta.cpp:313-326.  The arguments of the message at line 318 are computed even if it is not
written. -/
def specialPieceL (ws : Nat → Bool) (v : VocabT) (beforeMask : Bool) (bytes result : List Nat) :
    LogM (Option (List Nat)) := do
  let u ← lift (if beforeMask then (UImpl.ofUtf8 bytes).rstrip ws else .ok (UImpl.ofUtf8 bytes))
  let id ← tokenToIdL v bytes
  if id = INVALID then
    let t ← lift u.encode
    sayF .error (bytes! "unknown special token: \"{}\"") [textArg t.1]
    pure none
  else
    sayWhen 0 do
      let t ← lift u.encode
      sayF .debug (bytes! "special token: {} ({})") [textArg t.1, numArg id]
    pure (some (result ++ [id]))

/-- As `pieceLoop`, roberta.cpp:300-354. -/
def pieceLoopL (e : Env) (r : RVocab) (mask : List Nat) :
    List (Bool × List Nat) → Cache → List Nat → LogM (Option (List Nat))
  | [], _, result => pure (some result)
  | (true, s) :: ps, cache, result => do
    match ← specialPieceL e.ws r.v (nextIsMask mask ps) s result with
    | none => pure none
    | some result => pieceLoopL e r mask ps cache result
  | (false, s) :: ps, cache, result => do
    let units ← lift (subtextUnits e.ws (nextIsMask mask ps) s)
    let p ← plainPieceL e r units cache result
    match p.1 with
    | none => pure none
    | some result => pieceLoopL e r mask ps p.2 result

/-- The lines about the pieces, roberta.cpp:289-291. -/
def subtextsL : List (Bool × List Nat) → LogM Unit
  | [] => pure ()
  | (sp, s) :: ps => do
    sayF .debug (bytes! "    \"{}\" {}") [textArg s, textArg (if sp then bytes! "*" else [])]
    subtextsL ps

/-- As `tokenizeWith`, roberta.cpp:250-358. -/
def tokenizeWithL (e : Env) (r : RVocab) (keeps : List (List Nat)) (text result : List Nat) :
    LogM (Option (List Nat)) := do
  say .info (bytes! "tokenization start")
  let pieces ← lift (splitLoop keeps e.fuel text [] [])
  sayWhen 0 do
    say .debug (bytes! "  subtexts:")
    subtextsL pieces
  let mask ← idToTokenL r.v r.special.mask
  match ← pieceLoopL e r mask pieces [] result with
  | none => pure none
  | some ids => do
    say .debug (bytes! "finish tokenization")
    pure (some ids)

/-- As `specialTokens`, roberta.cpp:365-371. -/
def specialTokensL (v : VocabT) (sp : Special) : LogM (List (List Nat)) := do
  let bos ← idToTokenL v sp.bos
  let eos ← idToTokenL v sp.eos
  let cls ← idToTokenL v sp.cls
  let mask ← idToTokenL v sp.mask
  let pad ← idToTokenL v sp.pad
  let sep ← idToTokenL v sp.sep
  let unk ← idToTokenL v sp.unk
  pure [bos, eos, cls, mask, pad, sep, unk]

/-- As `tokenize`, roberta.cpp:360-376. -/
def tokenizeL (e : Env) (r : RVocab) (setOrder : List (List Nat) → List (List Nat)) (text : List Nat) :
    LogM (Option (List Nat)) := do
  let sps ← specialTokensL r.v r.special
  tokenizeWithL e r (setOrder sps) text []

end Berts.Roberta
