import Verif.Props.Bpe
import Verif.Props.Trie
import Verif.Props.Unicode
import Verif.Props.Vocab

/-!
# The tests of the repository, run on the model

The self-contained tests of `/repo/berts/tests`, evaluated in the model: checks that the model behaves as the authors
expect of the code.  They are not claims.  Left out: what needs a model file, ICU's data or random numbers.
-/

namespace Berts.Props.RepoTests

open Berts.Vocab Berts.Trie Berts.Bpe Berts.Unicode

/-! ## test_trie.cpp -/

/-- test_trie.cpp:27-36. -/
def trieVocab : List (List Nat) := ["a", "b", "c", "ab", "abc", "acb", "ca", "##d"].map ascii

-- test_trie.cpp:44-69
example : (["a", "b", "c", "ab", "abc", "acb", "ca"].map fun s => searchTrie (buildTrie trieVocab) (ascii s)) =
    [0, 1, 2, 3, 4, 5, 6] := by decide +kernel
example : searchTrie (buildTrie trieVocab) (ascii "d") = INVALID ∧
    searchTrie (buildTrie trieVocab) (ascii "ac") = INVALID := by decide +kernel

/-- `search_node` twice. -/
def node2 (a b : String) : Bool :=
  match findNode (buildTrie trieVocab) (ascii a) with
  | none => false
  | some n => (findNode n (ascii b)).isSome

-- test_trie.cpp:72-108
example : (["d", "ac", "acb", "a", "##"].map fun s => (findNode (buildTrie trieVocab) (ascii s)).isSome) =
    [false, true, true, true, true] := by decide +kernel
example : node2 "a" "d" = false ∧ node2 "a" "c" = true ∧ node2 "a" "cb" = true ∧ node2 "ac" "b" = true ∧
    node2 "ac" "c" = false ∧ node2 "##" "d" = true ∧ node2 "##" "a" = false := by decide +kernel

-- test_trie.cpp:112-125
example : searchSubstr (buildTrie trieVocab) (ascii "abcd") [] [] = (4, ascii "abc", ascii "d") ∧
    (match findNode (buildTrie trieVocab) (ascii "##") with
      | some n => some (searchSubstr n (ascii "d") (ascii "abc") (ascii "d"))
      | none => none) = some (7, ascii "d", []) := by decide +kernel

/-! ## test_bpe.cpp -/

/-- Some entry of the queue with the best rank is taken; no random numbers are needed. -/
def run (unk : String) (dropout : Rat) (fuse : Bool) (vocab : List (String × Nat)) (merge : List (String × String))
    (text : String) : Option (List Str) :=
  match (Bpe.new (ascii unk) dropout fuse).loadVocabPairs (vocab.map fun p => (ascii p.1, p.2))
      (merge.map fun p => (ascii p.1, ascii p.2)) with
  | .ok (true, b) =>
    match tokenize b ⟨fun _ => 1 / 2, heapPick, 100⟩ (ascii text) [] none with
    | .ok (r, _) => some r
    | _ => none
  | _ => none

/-- test_bpe.cpp:26-30. -/
def smallVocab : List (String × Nat) := [("<unk>", 0), ("a", 1), ("b", 2)]

-- test_bpe.cpp:37-59
example : run "<unk>" 0 false smallVocab [] "c" = some [ascii "<unk>"] ∧
    run "<unk>" 0 false smallVocab [] "cc" = some [ascii "<unk>", ascii "<unk>"] ∧
    run "<unk>" 0 false smallVocab [] "accb" = some [ascii "a", ascii "<unk>", ascii "<unk>", ascii "b"] := by
  decide +kernel

-- test_bpe.cpp:77-95
example : run "<unk>" 0 true smallVocab [] "c" = some [ascii "<unk>"] ∧
    run "<unk>" 0 true smallVocab [] "cc" = some [ascii "<unk>"] ∧
    run "<unk>" 0 true smallVocab [] "accb" = some [ascii "a", ascii "<unk>", ascii "b"] := by decide +kernel

/-- test_bpe.cpp:102-119. -/
def relVocab : List (String × Nat) :=
  [("u", 0), ("n", 1), ("r", 2), ("e", 3), ("l", 4), ("a", 5), ("t", 6), ("d", 7), ("re", 8), ("at", 9), ("ed", 10),
   ("un", 11), ("ated", 12), ("rel", 13), ("related", 14), ("unrelated", 15)]

/-- test_bpe.cpp:120-129. -/
def relMerge : List (String × String) :=
  [("r", "e"), ("a", "t"), ("e", "d"), ("u", "n"), ("at", "ed"), ("re", "l"), ("rel", "ated"), ("un", "related")]

-- test_bpe.cpp:136-140
example : run "<unk>" 0 true relVocab relMerge "unrelated" = some [ascii "unrelated"] := by decide +kernel

-- test_bpe.cpp:175-189
example : run "<unk>" 1 true relVocab relMerge "unrelated" =
    some (["u", "n", "r", "e", "l", "a", "t", "e", "d"].map ascii) := by decide +kernel

-- test_bpe.cpp:232-250
example : run "<unk>" 0 false [("a", 0), ("b", 1), ("c", 2), ("ab", 3)] [("a", "b"), ("a", "d")] "a" = none := by
  decide +kernel

/-! ## test_unicode.cpp -/

-- test_unicode.cpp:15-43: equality and assignment
example : (UImpl.ofUtf8 (ascii "a")).eq (.ofUtf8 (ascii "a")) = .ok true ∧
    (UImpl.ofUtf8 (ascii "a")).eq (.ofUtf8 (ascii "b")) = .ok false ∧
    (UImpl.ofUtf8 [0xe3, 0x81, 0x82]).eq (.ofUtf8 [0xe3, 0x81, 0x82]) = .ok true ∧
    (UImpl.ofUtf8 [0xe3, 0x81, 0x82]).eq (.ofUtf8 [0xe3, 0x81, 0x8b]) = .ok false ∧
    ((UImpl.default.copyFrom (.ofUtf8 (ascii "a"))).bind fun c => (UImpl.ofUtf8 (ascii "a")).eq c) = .ok true ∧
    ((UImpl.default.copyFrom (.ofUtf8 (ascii "a"))).bind fun c => (UImpl.ofUtf8 (ascii "b")).eq c) = .ok false := by
  decide +kernel

-- test_unicode.cpp:50-78: concatenation, also of an object with itself
example : (((UImpl.ofUtf8 (ascii "a")).plus (.ofUtf8 (ascii "b"))).bind fun c => c.eq (.ofUtf8 (ascii "ab"))) = .ok true ∧
    (((UImpl.ofUtf8 (ascii "abc")).plus (.ofUtf8 (ascii "abc"))).bind fun c => c.eq (.ofUtf8 (ascii "abcabc"))) = .ok true ∧
    ((Store.plusAssign (fun _ => .ofUtf8 (ascii "abcabc")) 0 0).bind fun σ =>
      (σ 0).eq (.ofUtf8 (ascii "abcabcabcabc"))) = .ok true := by
  decide +kernel

-- test_unicode.cpp:137-183: normalisation, with what ICU gives for these strings
example : ((UImpl.normalize (fun l => if l = [0x61, 0x300] then [0xe0] else l) (.ofUtf8 [0x61, 0xcc, 0x80]) .default).bind
      fun r => r.2.eq (.ofUtf8 [0xc3, 0xa0])) = .ok true ∧
    ((UImpl.normalize (fun l => if l = [0x304c] then [0x304b, 0x3099] else l) (.ofUtf8 [0xe3, 0x81, 0x8c]) .default).bind
      fun r => r.2.eq (.ofUtf8 [0xe3, 0x81, 0x8b, 0xe3, 0x82, 0x99])) = .ok true := by
  decide +kernel

/-! ## test_uregex.cpp, with the matches of the expression -/

-- test_uregex.cpp:60-112
example : regexSplit (ascii "abc") [(0, 1)] [] = (["a", "bc"].map ascii, 2) ∧
    regexSplit (ascii "bac") [(1, 2)] [] = (["b", "a", "c"].map ascii, 3) ∧
    regexSplit (ascii "bca") [(2, 3)] [] = (["bc", "a"].map ascii, 2) ∧
    regexSplit (ascii "bacdaef") [(1, 2), (4, 5)] [] = (["b", "a", "cd", "a", "ef"].map ascii, 5) ∧
    regexSplit (ascii "bcd") [] [] = (["bcd"].map ascii, 1) := by decide +kernel

-- test_uregex.cpp:145-188
example : regexSplit (ascii "bacdaef") [(1, 3), (4, 6)] [] = (["b", "ac", "d", "ae", "f"].map ascii, 5) ∧
    regexSplit (ascii "bacdaef") [(1, 2), (2, 3), (4, 5)] [] = (["b", "a", "c", "d", "a", "ef"].map ascii, 6) ∧
    regexSplit (ascii "bacdaef") [(1, 3), (4, 5)] [] = (["b", "ac", "d", "a", "ef"].map ascii, 5) := by decide +kernel

end Berts.Props.RepoTests
