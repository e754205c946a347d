import Verif.Model.Unicode

/-!
# Model of `berts/models/trie.cpp`

A node's `children` (an `unordered_map<unic_t, node_t>`) is a finite partial function from units to
nodes.  Pointer updates become functional updates.  Strings are unit lists (`List Nat`).
-/

namespace Berts.Trie

/-- `trie_node`, trie.cpp:14-25. -/
inductive Node where
  | mk (id : Nat) (children : Nat → Option Node)

namespace Node

/-- The field `id`. -/
def id : Node → Nat
  | mk i _ => i

/-- `children.find(c)`. -/
def child : Node → Nat → Option Node
  | mk _ ch => ch

/-- `trie_node()`, trie.cpp:18-20: id `-1`, no children. -/
def new : Node := mk INVALID (fun _ => none)

end Node

/-- The loop of `add_str`, trie.cpp:39-52: walk down, creating missing nodes, then set the id. -/
def addLoop (n : Node) : List Nat → Nat → Node
  | [], id => .mk id n.child
  | c :: cs, id =>
    let sub := match n.child c with
      | none => addLoop Node.new cs id
      | some m => addLoop m cs id
    .mk n.id (fun x => if x = c then some sub else n.child x)

/-- `add_str`, trie.cpp:33-53: empty strings are ignored. -/
def addStr (n : Node) (s : List Nat) (id : Nat) : Node :=
  if s = [] then n else addLoop n s id

/-- The loop of `find_node`, trie.cpp:61-71. -/
def walk (n : Node) : List Nat → Option Node
  | [] => some n
  | c :: cs =>
    match n.child c with
    | none => none
    | some m => walk m cs

/-- `find_node`, trie.cpp:55-72. -/
def findNode (n : Node) (s : List Nat) : Option Node :=
  if s = [] then none else walk n s

/-- The loop of `find_substr`, trie.cpp:85-103; state: current node, `last_found`, `found_`.
Result: `last_found`, `found`, `rest`. -/
def substrLoop (n : Node) (last : Option Node) (found : List Nat) :
    List Nat → Option Node × List Nat × List Nat
  | [] => (last, found, [])
  | c :: cs =>
    match n.child c with
    | none => (last, found, c :: cs)
    | some m => substrLoop m (if m.id ≠ INVALID then some m else last) (found ++ [c]) cs

/-- `find_substr`, trie.cpp:74-108; for an empty text nothing is written. -/
def findSubstr (n : Node) (s : List Nat) (found rest : List Nat) :
    Option Node × List Nat × List Nat :=
  if s = [] then (none, found, rest) else substrLoop n none [] s

/-- `build_trie` on already converted strings, trie.cpp:110-116, from index `i` on.  The index is
converted to the 32-bit token type. -/
def buildFrom (t : Node) (i : Nat) : List (List Nat) → Node
  | [] => t
  | s :: ss => buildFrom (addStr t s (i % 2 ^ 32)) (i + 1) ss

/-- The units of `ustr{bytes}`; ill-formed UTF-8 gives an empty string (unicode.cpp:257-264). -/
def unitsOfUtf8 (bs : List Nat) : List Nat :=
  match Unicode.utf8Decode bs with
  | none => []
  | some cs => Unicode.utf16Encode cs

/-- `build_trie`, trie.cpp:110-116. -/
def buildTrie (vocab : List (List Nat)) : Node :=
  buildFrom Node.new 0 (vocab.map unitsOfUtf8)

/-- `search_trie`, trie.cpp:130-133. -/
def searchTrie (t : Node) (s : List Nat) : Nat :=
  match findNode t s with
  | none => INVALID
  | some n => n.id

/-- `search_trie_substr`, trie.cpp:173-184: the id and the (possibly unchanged) `found` and
`rest`. -/
def searchSubstr (n : Node) (s : List Nat) (found rest : List Nat) : Nat × List Nat × List Nat :=
  let r := findSubstr n s [] []
  let id := match r.1 with
    | none => INVALID
    | some m => m.id
  if id ≠ INVALID then (id, r.2.1, r.2.2) else (id, found, rest)

/-- `search_trie` for byte strings, trie.cpp:126-128. -/
def searchTrieBytes (t : Node) (s : List Nat) : Nat := searchTrie t (unitsOfUtf8 s)

/-- `search_trie_substr` for byte strings, trie.cpp:152-154 and 160-170: `found_` and `rest_` are
converted to UTF-8 by `ustr::encode`. -/
def searchSubstrBytes (n : Node) (s : List Nat) (found rest : List Nat) :
    Res (Nat × List Nat × List Nat) :=
  let r := searchSubstr n (unitsOfUtf8 s) [] []
  if r.1 ≠ INVALID then
    (Unicode.UImpl.ofUnits r.2.1).encode.bind fun f =>
    (Unicode.UImpl.ofUnits r.2.2).encode.bind fun g =>
    .ok (r.1, f.1, g.1)
  else .ok (r.1, found, rest)

end Berts.Trie
