import Verif.Model.Unicode

/-!
# Model of `berts/models/bpe.hpp` and `berts/models/bpe.cpp`

* A `ustr` is represented by its list of UTF-16 units: C02 and C03 show that equality, hashing,
  copying and concatenation of initialised `ustr` objects are functions of the units.
* `std::unordered_map` is an association list; only the iteration order over the vocabulary given
  to `load_vocab` is observable, it is the order of the argument list.
* `std::priority_queue` is a list of entries together with an oracle `pick` that says, for each
  iteration of the main loop, which element is at the top.  Theorems quantify over all oracles
  that obey the contract "no element of the queue is greater than the top".
* `dropout` and the random draws are rationals (NaN is not modelled).
* Simplification: symbol lengths and the number of symbols are unbounded (no wrap of `uint32_t
  len`, `int32_t prev/next`); the value `-1` of `prev`/`next` is `none`.
-/

namespace Berts.Bpe

open Berts.Unicode

/-- Units of a `ustr`. -/
abbrev Str := List Nat

/-- `unordered_map::insert_or_assign` on an association list. -/
def assign {κ ν : Type} [DecidableEq κ] (m : List (κ × ν)) (k : κ) (v : ν) : List (κ × ν) :=
  match m with
  | [] => [(k, v)]
  | (k', v') :: m => if k' = k then (k, v) :: m else (k', v') :: assign m k v

/-- `unordered_map::find`. -/
def find {κ ν : Type} [DecidableEq κ] (m : List (κ × ν)) (k : κ) : Option ν :=
  match m with
  | [] => none
  | (k', v') :: m => if k' = k then some v' else find m k

/-- `struct bpe`, bpe.hpp:22-43; `merge` maps `(id0, id1)` to `(rank, new_id)`. -/
structure Bpe where
  unk : Str
  dropout : Rat
  fuseUnk : Bool
  vocab : List (Str × Nat)
  vocabR : List (Nat × Str)
  merge : List ((Nat × Nat) × (Nat × Nat))
  prefx : Str
  suffix : Str

/-- `bpe::bpe`, bpe.cpp:108-113. -/
def Bpe.new (unk : Str) (dropout : Rat) (fuse : Bool) : Bpe :=
  ⟨unk, dropout, fuse, [], [], [], [], []⟩

/-- `slice`, bpe.cpp:94-106; `len = none` is a negative `len`. -/
def sliceLoop (begin : Nat) (len : Option Nat) (index : Nat) (acc : List Nat) :
    List Cp → List Nat
  | [] => acc
  | p :: ps =>
    if index < begin then sliceLoop begin len (index + 1) acc ps
    else
      let take := match len with
        | none => true
        | some n => decide (acc.length < n)
      sliceLoop begin len (index + 1) (if take then acc ++ [p.c] else acc) ps

/-- `slice`, bpe.cpp:94-106: the code points are collected and converted back to a string. -/
def slice (s : Str) (begin : Nat) (len : Option Nat) : UImpl :=
  UImpl.ofUtf32 (sliceLoop begin len 0 [] (eachCp false s))

/-- `bpe::clear`, bpe.cpp:115-118 (`vocab_r` is not cleared). -/
def Bpe.clear (b : Bpe) : Bpe := { b with vocab := [], merge := [] }

/-- `bpe::id_to_token`, bpe.cpp:120-127. -/
def Bpe.idToToken (b : Bpe) (id : Nat) : Option Str := find b.vocabR id

/-- `bpe::token_to_id`, bpe.cpp:129-136. -/
def Bpe.tokenToId (b : Bpe) (t : Str) : Option Nat := find b.vocab t

/-- The first loop of `load_vocab`, bpe.cpp:146-149. -/
def Bpe.addVocab (b : Bpe) : List (Str × Nat) → Bpe
  | [] => b
  | (s, id) :: v =>
    Bpe.addVocab { b with vocab := assign b.vocab s id, vocabR := assign b.vocabR id s } v

/-- `token0 + token1` or `token0 + slice(token1, prefix_len)`, bpe.cpp:181-185. -/
def Bpe.concat (b : Bpe) (t0 t1 : Str) : Res Str :=
  if codepoints b.prefx = 0 then .ok (t0 ++ t1)
  else do
    let r ← (slice t1 (codepoints b.prefx) none).readUnits
    return t0 ++ r

/-- The second loop of `load_vocab`, bpe.cpp:166-195, at position `index`; the rank is converted
to `uint32_t` when it is stored. -/
def Bpe.addMerges (rankStart : Nat) (b : Bpe) (index : Nat) :
    List (Nat × Nat) → Res (Bool × Bpe)
  | [] => .ok (true, b)
  | (id0, id1) :: ms =>
    match b.idToToken id0 with
    | none => .ok (false, b)
    | some t0 =>
      match b.idToToken id1 with
      | none => .ok (false, b)
      | some t1 =>
        (b.concat t0 t1).bind fun t =>
          match b.tokenToId t with
          | none => .ok (false, b)
          | some id =>
            Bpe.addMerges rankStart
              { b with merge := assign b.merge (id0, id1) ((rankStart + index) % 2 ^ 32, id) }
              (index + 1) ms

/-- `bpe::load_vocab` with id pairs, bpe.cpp:138-200: success and the new object (which keeps what
was stored before a failure). -/
def Bpe.loadVocab (b : Bpe) (vocab : List (Str × Nat)) (merge : List (Nat × Nat)) :
    Res (Bool × Bpe) :=
  Bpe.addMerges b.merge.length (b.addVocab vocab) 0 merge

/-- The loop of `load_vocab` with token pairs, bpe.cpp:203-221. -/
def pairIds (vocab : List (Str × Nat)) : List (Str × Str) → Option (List (Nat × Nat))
  | [] => some []
  | (t0, t1) :: ms =>
    match find vocab t0 with
    | none => none
    | some i0 =>
      match find vocab t1 with
      | none => none
      | some i1 => (pairIds vocab ms).map ((i0, i1) :: ·)

/-- `bpe::load_vocab` with token pairs, bpe.cpp:202-223. -/
def Bpe.loadVocabPairs (b : Bpe) (vocab : List (Str × Nat)) (merge : List (Str × Str)) :
    Res (Bool × Bpe) :=
  match pairIds vocab merge with
  | none => .ok (false, b)
  | some ms => b.loadVocab vocab ms

/-! ## Words -/

/-- `symbol_t`, bpe.cpp:21-25. -/
structure Sym where
  id : Nat
  prev : Option Nat
  next : Option Nat
  len : Nat
deriving DecidableEq, Repr

/-- `symbol_t::merge_with`, bpe.cpp:27-31. -/
def Sym.mergeWith (s other : Sym) (newId : Nat) : Sym :=
  { s with id := newId, len := s.len + other.len, next := other.next }

/-- `word_t::add`, bpe.cpp:37-45. -/
def addSym (syms : List Sym) (id len : Nat) : List Sym :=
  if syms.isEmpty then [⟨id, none, none, len⟩]
  else
    syms.modify (syms.length - 1) (fun s => { s with next := some syms.length }) ++
      [⟨id, some (syms.length - 1), none, len⟩]

/-- `word_t::last_is`, bpe.cpp:47-52. -/
def lastIs (syms : List Sym) (id : Nat) : Bool :=
  match syms.getLast? with
  | none => false
  | some s => s.id == id

/-- `merge_t`, bpe.cpp:62-65. -/
structure Entry where
  index : Nat
  rank : Nat
  newId : Nat
deriving DecidableEq, Repr

/-- `a < b` as derived from `merge_t::operator<=>`, bpe.cpp:67-73. -/
def Entry.less (a b : Entry) : Bool :=
  if a.rank ≠ b.rank then decide (b.rank < a.rank) else decide (b.index < a.index)

/-- What a run of the main loop depends on: the merge table, the dropout probability, the random
draw of each iteration and the position of the top element in each iteration. -/
structure Cfg where
  merge : List ((Nat × Nat) × (Nat × Nat))
  dropout : Rat
  draw : Nat → Rat
  pick : Nat → List Entry → Nat

/-- State of the main loop of `merge_all`: symbols, queue, `skip`, number of iterations so far. -/
structure St where
  syms : List Sym
  q : List Entry
  skip : List Entry
  pops : Nat
deriving DecidableEq, Repr

/-- Initial queue, bpe.cpp:307-317: one entry for each adjacent pair in the table. -/
def initQueue (merge : List ((Nat × Nat) × (Nat × Nat))) (index : Nat) : List Sym → List Entry
  | [] => []
  | [_] => []
  | s1 :: s2 :: ss =>
    (match find merge (s1.id, s2.id) with
      | some (rank, newId) => [⟨index, rank, newId⟩]
      | none => []) ++ initQueue merge (index + 1) (s2 :: ss)

/-- The entry pushed for the pair at `left`, bpe.cpp:385-396 and 399-410. -/
def pushPair (merge : List ((Nat × Nat) × (Nat × Nat))) (leftIx leftId rightId : Nat) : List Entry :=
  match find merge (leftId, rightId) with
  | some (rank, newId) => [⟨leftIx, rank, newId⟩]
  | none => []

/-- `word.symbols[right.next].prev = top.index` where applicable, bpe.cpp:380-382. -/
def setPrev (syms : List Sym) (next : Option Nat) (ix : Nat) : List Sym :=
  match next with
  | some nn => if nn < syms.length then syms.modify nn (fun s => { s with prev := some ix }) else syms
  | none => syms

/-- The update of the symbol array by a merge, bpe.cpp:374-382: `sym` and `right` are the symbols at
`ix` and `nextPos` before the merge. -/
def mergeArr (syms : List Sym) (ix nextPos newId : Nat) (sym right : Sym) : List Sym :=
  setPrev ((syms.set ix (sym.mergeWith right newId)).set nextPos { right with len := 0 }) right.next ix

/-- The entry pushed for the pair with the previous symbol, bpe.cpp:385-396. -/
def entryPrev (merge : List ((Nat × Nat) × (Nat × Nat))) (syms : List Sym) (sym : Sym) :
    Res (List Entry) :=
  match sym.prev with
  | none => .ok []
  | some p =>
    match syms[p]? with
    | none => .ub
    | some prev => .ok (pushPair merge p prev.id sym.id)

/-- The entry pushed for the pair with the next symbol, bpe.cpp:399-410. -/
def entryNext (merge : List ((Nat × Nat) × (Nat × Nat))) (syms : List Sym) (ix : Nat) (sym : Sym) :
    Res (List Entry) :=
  match sym.next with
  | none => .ok []
  | some n =>
    if n < syms.length then
      match syms[n]? with
      | none => .ub
      | some next => .ok (pushPair merge ix sym.id next.id)
    else .ok []

/-- The merge itself, bpe.cpp:372-410: the new symbol array and the pushed entries. -/
def doMerge (merge : List ((Nat × Nat) × (Nat × Nat))) (syms : List Sym) (ix nextPos newId : Nat)
    (sym right : Sym) : Res (List Sym × List Entry) :=
  let syms := mergeArr syms ix nextPos newId sym right
  match syms[ix]? with
  | none => .ub
  | some sym =>
    (entryPrev merge syms sym).bind fun e1 =>
    (entryNext merge syms ix sym).bind fun e2 =>
    .ok (syms, e1 ++ e2)

/-- One iteration of the main loop, bpe.cpp:329-410; `e` is the top entry, already popped. -/
def iteration (c : Cfg) (s : St) (e : Entry) (q : List Entry) : Res St :=
  if 0 < c.dropout ∧ c.draw s.pops < c.dropout then
    -- 332-338
    .ok ⟨s.syms, q, s.skip ++ [e], s.pops + 1⟩
  else
    -- 341-344
    let q := q ++ s.skip
    match s.syms[e.index]? with
    | none => .ub
    | some sym =>
      if sym.len = 0 then .ok ⟨s.syms, q, [], s.pops + 1⟩
      else
        match sym.next with
        | none => .ok ⟨s.syms, q, [], s.pops + 1⟩
        | some nextPos =>
          match s.syms[nextPos]? with
          | none => .ub
          | some right =>
            match find c.merge (sym.id, right.id) with
            | none => .ok ⟨s.syms, q, [], s.pops + 1⟩
            | some (_, newId) =>
              if newId ≠ e.newId then .ok ⟨s.syms, q, [], s.pops + 1⟩
              else
                (doMerge c.merge s.syms e.index nextPos e.newId sym right).bind fun r =>
                  .ok ⟨r.1, q ++ r.2, [], s.pops + 1⟩

/-- The main loop, bpe.cpp:328-411, for at most `fuel` iterations. -/
def mainLoop (c : Cfg) : Nat → St → Res St
  | fuel, s =>
    if s.q = [] then .ok s
    else
      match fuel with
      | 0 => .hang
      | fuel + 1 =>
        -- 329-330
        match s.q[c.pick s.pops s.q]? with
        | none => .ub
        | some e => (iteration c s e (s.q.eraseIdx (c.pick s.pops s.q))).bind (mainLoop c fuel)

/-- `merge_all`, bpe.cpp:290-422: the remaining symbols and the number of loop iterations. -/
def mergeAll (c : Cfg) (fuel : Nat) (syms : List Sym) : Res (List Sym × Nat) :=
  (mainLoop c fuel ⟨syms, initQueue c.merge 0 syms, [], 0⟩).bind fun s =>
    .ok (s.syms.filter (fun s => s.len ≠ 0), s.pops)

/-- The characters of the text with their lengths and the prefix/suffix added,
bpe.cpp:425-444; `i` is the position, `n` the number of characters. -/
def charStrings (b : Bpe) (n : Nat) (i : Nat) : List Cp → List (Str × Nat)
  | [] => []
  | p :: ps =>
    let s := (utf16Of p.c, 1)
    let s := if i ≠ 0 then (b.prefx ++ s.1, s.2 + codepoints b.prefx) else s
    let s := if i = n - 1 then (s.1 ++ b.suffix, s.2 + codepoints b.suffix) else s
    s :: charStrings b n (i + 1) ps

/-- The second loop of `merge_word`, bpe.cpp:448-472. -/
def addChars (b : Bpe) (syms : List Sym) : List (Str × Nat) → List Sym
  | [] => syms
  | (s, len) :: cs =>
    match b.tokenToId s with
    | some id => addChars b (addSym syms id len) cs
    | none =>
      if b.unk ≠ [] then
        match b.tokenToId b.unk with
        | some unkId =>
          if !b.fuseUnk || !lastIs syms unkId then
            addChars b (addSym syms unkId (len + codepoints b.unk)) cs
          else addChars b syms cs
        | none => addChars b syms cs
      else addChars b syms cs

/-- The symbols of the text before any merge, `merge_word`, bpe.cpp:424-472. -/
def initialSymbols (b : Bpe) (text : Str) : List Sym :=
  let cps := eachCp false text
  addChars b [] (charStrings b cps.length 0 cps)

/-- `word_to_tokens`, bpe.cpp:477-494 (only the token strings are used by the callers). -/
def wordToTokens (b : Bpe) (syms : List Sym) : List Str :=
  syms.map fun s => match b.idToToken s.id with
    | some t => t
    | none => b.unk

/-- The source of nondeterminism and the iteration allowance of a call. -/
structure Env where
  draw : Nat → Rat
  pick : Nat → List Entry → Nat
  fuel : Nat

/-- `merge_word` and `word_to_tokens`, bpe.cpp:254-262. -/
def tokensOf (b : Bpe) (v : Env) (text : Str) : Res (List Str) :=
  (mergeAll ⟨b.merge, b.dropout, v.draw, v.pick⟩ v.fuel (initialSymbols b text)).bind fun r =>
    .ok (wordToTokens b r.1)

/-- `tokenize_bpe`, bpe.cpp:233-288: the result vector after the call and the cache after the
call.  `cache = none` is the null pointer.  All paths return true. -/
def tokenize (b : Bpe) (v : Env) (text : Str) (result : List Str)
    (cache : Option (List (Str × List Str))) : Res (List Str × Option (List (Str × List Str))) :=
  if text = [] then .ok (result, cache)
  else
    let hit : Option (List Str) := match cache with
      | some m => if b.dropout = 0 then find m text else none
      | none => none
    match hit with
    | some cached => .ok (result ++ cached, cache)
    | none =>
      (tokensOf b v text).bind fun tokens =>
        match cache with
        | some m =>
          if b.dropout = 0 then .ok (result ++ tokens, some (assign m text tokens))
          else .ok (result ++ tokens, cache)
        | none => .ok (result ++ tokens, cache)

end Berts.Bpe
