import Verif.Model.Base

/-!
# Model of `berts/models/unicode.hpp` and `berts/models/unicode.cpp`

* 16-bit code units (`unic_t`, unicode.hpp:14), code points (`unic32_t`, unicode.hpp:15) and bytes
  are all represented by `Nat`; where a C++ conversion truncates,
  the model writes the `%` explicitly.
* A `ustr` object is modelled by its `ustr_impl` (`UImpl`).  Its `size` field may be
  *indeterminate* (`none`): the default constructor does not initialise it.  Reading an
  indeterminate `size` is undefined behaviour.
* ICU is a parameter: UTF-8/16/32 conversion is modelled by the standard definitions, everything
  data dependent (character classes, case mapping, normalisation, regex matches) is a function or
  list argument.
* Simplification: buffer sizes are unbounded (`int32_t` overflow of string sizes is not modelled).
-/

namespace Berts.Unicode

/-! ## UTF-8 / UTF-16 transcoding (ICU `u_strFromUTF8`, `u_strToUTF8`, `u_strFromUTF32`) -/

/-- UTF-16 encoding of one code point (what `u_strFromUTF32`/`u_strFromUTF8` store). -/
def utf16Of (c : Nat) : List Nat :=
  if c < 0x10000 then [c]
  else [0xd800 + (c - 0x10000) / 0x400, 0xdc00 + (c - 0x10000) % 0x400]

/-- UTF-16 encoding of a sequence of code points. -/
def utf16Encode (cs : List Nat) : List Nat := cs.flatMap utf16Of

/-- UTF-8 encoding of one code point (what `u_strToUTF8` stores). -/
def utf8Of (c : Nat) : List Nat :=
  if c < 0x80 then [c]
  else if c < 0x800 then [0xC0 + c / 0x40, 0x80 + c % 0x40]
  else if c < 0x10000 then [0xE0 + c / 0x1000, 0x80 + c / 0x40 % 0x40, 0x80 + c % 0x40]
  else [0xF0 + c / 0x40000, 0x80 + c / 0x1000 % 0x40, 0x80 + c / 0x40 % 0x40, 0x80 + c % 0x40]

/-- UTF-8 encoding of a sequence of code points. -/
def utf8Encode (cs : List Nat) : List Nat := cs.flatMap utf8Of

/-- UTF-8 continuation byte. -/
def isCont (b : Nat) : Bool := decide (0x80 ≤ b) && decide (b < 0xC0)

/-- Strict UTF-8 decoding (Unicode table 3-7), as performed by ICU's `u_strFromUTF8`, which reports
`U_INVALID_CHAR_FOUND` (here `none`) for ill-formed input. -/
def utf8Decode : List Nat → Option (List Nat)
  | [] => some []
  | b0 :: bs =>
    if b0 < 0x80 then (utf8Decode bs).map (b0 :: ·)
    else if b0 < 0xC2 then none
    else if b0 < 0xE0 then
      match bs with
      | b1 :: bs =>
        if isCont b1 then
          (utf8Decode bs).map (((b0 - 0xC0) * 0x40 + (b1 - 0x80)) :: ·)
        else none
      | _ => none
    else if b0 < 0xF0 then
      match bs with
      | b1 :: b2 :: bs =>
        if isCont b1 && isCont b2 && !(decide (b0 = 0xE0) && decide (b1 < 0xA0))
            && !(decide (b0 = 0xED) && decide (0xA0 ≤ b1)) then
          (utf8Decode bs).map
            (((b0 - 0xE0) * 0x1000 + (b1 - 0x80) * 0x40 + (b2 - 0x80)) :: ·)
        else none
      | _ => none
    else if b0 < 0xF5 then
      match bs with
      | b1 :: b2 :: b3 :: bs =>
        if isCont b1 && isCont b2 && isCont b3 && !(decide (b0 = 0xF0) && decide (b1 < 0x90))
            && !(decide (b0 = 0xF4) && decide (0x90 ≤ b1)) then
          (utf8Decode bs).map
            (((b0 - 0xF0) * 0x40000 + (b1 - 0x80) * 0x1000 + (b2 - 0x80) * 0x40 + (b3 - 0x80)) :: ·)
        else none
      | _ => none
    else none

/-! ## Iteration by code point -/

/-- `ustr::cp`, unicode.hpp:117-129: a code point with the surrogate pair it came from. -/
structure Cp where
  c : Nat
  hi : Nat
  lo : Nat
deriving DecidableEq, Repr

/-- `cp(unic_t c)`, unicode.hpp:120-123. -/
def Cp.ofUnit (c : Nat) : Cp := ⟨c, 0, 0⟩

/-- `cp::is_pair`, unicode.hpp:128. -/
def Cp.isPair (p : Cp) : Bool := p.hi != 0 || p.lo != 0

/-- One call of the lambda inside `each_cp`, unicode.hpp:135-166: given the pending high surrogate
`sur` (0 = none) and the next unit `c`, the new pending surrogate and the code points passed to
`fn`. -/
def eachCpStep (skip : Bool) (sur : Nat) (c : Nat) : Nat × List Cp :=
  if 0xdc00 ≤ c ∧ c < 0xe000 then
    if sur = 0 then
      -- lone low surrogate (137-143)
      (sur, if skip then [] else [⟨0xfffd, 0, c⟩])
    else
      -- complete pair (158-163)
      (0, [⟨((sur - 0xd800) * 0x400 + (c - 0xdc00)) + 0x10000, sur, c⟩])
  else
    -- lone high surrogate before `c` (146-151)
    let pre : List Cp := if sur ≠ 0 then (if skip then [] else [⟨0xfffd, sur, 0⟩]) else []
    if 0xd800 ≤ c ∧ c < 0xdc00 then (c, pre)
    else (0, pre ++ [Cp.ofUnit c])

/-- `ustr::each_cp` over the units of the string, unicode.hpp:131-174. -/
def eachCpFrom (skip : Bool) (sur : Nat) : List Nat → List Cp
  | [] => if sur ≠ 0 then (if skip then [] else [⟨0xfffd, sur, 0⟩]) else []
  | c :: cs => (eachCpStep skip sur c).2 ++ eachCpFrom skip (eachCpStep skip sur c).1 cs

/-- `ustr::each_cp`, unicode.hpp:131-174. -/
def eachCp (skip : Bool) (us : List Nat) : List Cp := eachCpFrom skip 0 us

/-- `ustr::pack_to(std::vector<unic32_t>&)`, unicode.cpp:445-449. -/
def toCodePoints (us : List Nat) : List Nat := (eachCp false us).map (·.c)

/-- Number of code points, `u_countChar32` as used by `ustr::codepoints`, unicode.cpp:432-435.
ICU counts a surrogate pair once and every other unit once. -/
def codepoints (us : List Nat) : Nat := (eachCp false us).length

/-! ## The string object -/

/-- ICU error code, as far as the code distinguishes values: success, a warning (success),
`U_BUFFER_OVERFLOW_ERROR`, any other failure. -/
inductive UErr where
  | zero | warn | overflow | fail
deriving DecidableEq, Repr

/-- `U_SUCCESS`. -/
def UErr.success : UErr → Bool
  | zero => true
  | warn => true
  | _ => false

/-- `ustr_impl`, unicode.cpp:33-108.  `str = none` is the null pointer, `size = none` is an
indeterminate value. -/
structure UImpl where
  str : Option (List Nat)
  size : Option Nat
  e : UErr
deriving DecidableEq, Repr

namespace UImpl

/-- `ustr_impl()`, unicode.cpp:41-43 (`size` is not initialised); also `ustr::ustr()`, 251-252. -/
def default : UImpl := ⟨none, none, .zero⟩

/-- `ustr_impl::free`, unicode.cpp:104-110. -/
def free (u : UImpl) : UImpl := { u with str := none, size := some 0 }

/-- `ustr_impl::alloc(n)` followed by filling the buffer with the `n` units `l`,
unicode.cpp:96-102: `free`, allocate unless `n = 0`, set `size`. -/
def allocFill (u : UImpl) (l : List Nat) : UImpl :=
  { u.free with str := (if l.length ≠ 0 then some l else none), size := some l.length }

/-- Reading `[str, str + size)`. -/
def readUnits (u : UImpl) : Res (List Nat) :=
  match u.size, u.str with
  | none, _ => .ub
  | some n, none => if n = 0 then .ok [] else .ub
  | some n, some l => if n ≤ l.length then .ok (l.take n) else .ub

/-- Reading the `size` field. -/
def readSize (u : UImpl) : Res Nat :=
  match u.size with
  | none => .ub
  | some n => .ok n

/-- `ustr_impl::operator=(const ustr_impl&)` for distinct objects, unicode.cpp:67-77. -/
def copyFrom (u other : UImpl) : Res UImpl :=
  match other.str with
  | none => .ok { u.free with e := other.e }
  | some _ => do
    let l ← other.readUnits
    return { u.allocFill l with e := other.e }

/-- `ustr_impl::operator=(ustr_impl&&)` for distinct objects, unicode.cpp:79-90: the new target and
the emptied source. -/
def moveFrom (_u other : UImpl) : Res (UImpl × UImpl) := do
  let n ← other.readSize
  return (⟨other.str, some n, other.e⟩, ⟨none, some 0, .zero⟩)

/-- `ustr::ustr(const unic_t*, size_t)`, unicode.cpp:266-270. -/
def ofUnits (l : List Nat) : UImpl := default.allocFill l

/-- `ustr::ustr(const char*, size_t)`, unicode.cpp:257-264.  On ill-formed UTF-8 ICU reports
`U_INVALID_CHAR_FOUND` without storing a length, and the constructor returns with a null buffer
and `size` still indeterminate.  Otherwise the exactly sized destination makes ICU report a
"not terminated" warning. -/
def ofUtf8 (bs : List Nat) : UImpl :=
  match utf8Decode bs with
  | none => { default with e := .fail }
  | some cs => { default.allocFill (utf16Encode cs) with e := .warn }

/-- `ustr::ustr(const unic32_t*, size_t)`, unicode.cpp:272-279 (`u_strFromUTF32` rejects
surrogate code points and values above U+10FFFF). -/
def ofUtf32 (cs : List Nat) : UImpl :=
  if cs.all (fun c => decide (c < 0xd800) || (decide (0xe000 ≤ c) && decide (c ≤ 0x10ffff))) then
    { default.allocFill (utf16Encode cs) with e := .warn }
  else { default with e := .fail }

/-- `ustr::dispose`, unicode.cpp:294-297. -/
def dispose (u : UImpl) : UImpl := { u.free with e := .zero }

/-- `ustr::operator+`, unicode.cpp:313-331: sizes are read first, the new object is allocated with
`lsize + rsize` units, then both contents are copied. -/
def plus (a b : UImpl) : Res UImpl := do
  let l ← a.readUnits
  let r ← b.readUnits
  return default.allocFill (l ++ r)

/-- The bytes of a little-endian unit buffer. -/
def bytesOf (l : List Nat) : List Nat := l.flatMap (fun u => [u % 256, u / 256])

/-- `memcmp(a, b, n) == 0`; `none` is a null pointer (allowed only for `n = 0`). -/
def memcmpEq (a b : Option (List Nat)) (n : Nat) : Res Bool :=
  if n = 0 then .ok true
  else
    match a, b with
    | some x, some y =>
      if n ≤ x.length ∧ n ≤ y.length then .ok (x.take n == y.take n) else .ub
    | _, _ => .ub

/-- `ustr::operator==`, unicode.cpp:352-362. -/
def eq (a b : UImpl) : Res Bool := do
  let n ← a.readSize
  let m ← b.readSize
  if n ≠ m then return false
  else if n = 0 then return true
  else memcmpEq (a.str.map bytesOf) (b.str.map bytesOf) (n * 2)

/-- The loop of `ustr::operator<=>`, unicode.cpp:388-400, from index `i` on. -/
def cmpLoop (lhs rhs : List Nat) (lsize rsize i : Nat) : Res Ordering :=
  if i < lsize then
    if rsize ≤ i then .ok .gt
    else
      match lhs[i]?, rhs[i]? with
      | some l, some r =>
        if l ≠ r then .ok (compare l r) else cmpLoop lhs rhs lsize rsize (i + 1)
      | _, _ => .ub
  else .ok (if lsize = rsize then .eq else .lt)
termination_by lsize - i

/-- `ustr::operator<=>`, unicode.cpp:364-401. -/
def cmp (a b : UImpl) : Res Ordering := do
  let n ← a.readSize
  let m ← b.readSize
  if n = 0 then return (if m = 0 then .eq else .lt)
  else if m = 0 then return .gt
  else
    match a.str, b.str with
    | some l, some r => cmpLoop l r n m 0
    | _, _ => .ub

/-- `ustr::empty`, unicode.cpp:407-409. -/
def empty (u : UImpl) : Bool := u.str.isNone

/-- `std::hash<ustr>`, unicode.hpp:207-216; `h` is `std::hash<char16_t>`.  Iterates over
`[begin, end)`, unicode.cpp:504-510. -/
def hash (h : Nat → Nat) (u : UImpl) : Res Nat :=
  match u.str with
  | none => .ok 0
  | some _ => do
    let l ← u.readUnits
    return l.foldl (fun v c => v ^^^ h c) 0

/-- `ustr::encode`, unicode.cpp:411-422: the bytes and the updated object (`impl->e` is written by
ICU).  ICU functions return immediately when the incoming error code is a failure; with
`U_BUFFER_OVERFLOW_ERROR` left over from an earlier call, the local `size` is never written but
used for `resize`. -/
def encode (u : UImpl) : Res (List Nat × UImpl) :=
  match u.str with
  | none => .ok ([], u)
  | some _ =>
    match u.e with
    | .overflow => .ub
    | .fail => .ok ([], u)
    | _ => do
      let l ← u.readUnits
      if (eachCp false l).length = (eachCp true l).length then
        return (utf8Encode (toCodePoints l), { u with e := .warn })
      else return ([], { u with e := .fail })

/-- `ustr::packsize`, unicode.cpp:428-430. -/
def packsize (u : UImpl) : Res Nat := u.readSize

/-- `ustr::operator[]`, unicode.cpp:451-457. -/
def index (u : UImpl) (i : Nat) : Res Nat := do
  let n ← u.readSize
  if i < n then
    match u.str with
    | none => .ub
    | some l =>
      match l[i]? with
      | some c => return c
      | none => .ub
  else return 0xfffd

/-- `ustr::starts_with`, unicode.cpp:459-464: note that `memcmp` is given `size` *bytes*. -/
def startsWith (u p : UImpl) : Res Bool := do
  let n ← u.readSize
  let m ← p.readSize
  if n < m then return false
  else memcmpEq (u.str.map bytesOf) (p.str.map bytesOf) m

/-- `ustr::ends_with`, unicode.cpp:466-472: `str + index` advances by units, `memcmp` compares
`size` *bytes*. -/
def endsWith (u p : UImpl) : Res Bool := do
  let n ← u.readSize
  let m ← p.readSize
  if n < m then return false
  else memcmpEq (u.str.map (fun l => bytesOf (l.drop (n - m)))) (p.str.map bytesOf) m

/-- Code points of the object as seen by `pack_to(std::vector<unic32_t>&)`, unicode.cpp:445-449:
`each` (unicode.hpp:109-115) runs to `packsize()` and dereferences the buffer. -/
def codePointsOf (u : UImpl) : Res (List Nat) := do
  let l ← u.readUnits
  return toCodePoints l

/-- The lambda loop of `ustr::lstrip`, unicode.cpp:477-484 (`doit` is true until the first
non-blank); `ws` is `is_whitespace`. -/
def lstripLoop (ws : Nat → Bool) : Bool → List Nat → List Nat
  | _, [] => []
  | doit, c :: cs =>
    if doit && ws c then lstripLoop ws doit cs
    else c :: lstripLoop ws false cs

/-- `ustr::lstrip`, unicode.cpp:474-487. -/
def lstrip (ws : Nat → Bool) (u : UImpl) : Res UImpl := do
  let cs ← u.codePointsOf
  return ofUtf32 (lstripLoop ws true cs)

/-- The loop of `ustr::rstrip`, unicode.cpp:493-500, over the reversed code points: the number of
code points that remain (`end - it`). -/
def rstripLoop (ws : Nat → Bool) : List Nat → Nat
  | [] => 0
  | c :: cs => if ws c then rstripLoop ws cs else (c :: cs).length

/-- `ustr::rstrip`, unicode.cpp:489-502. -/
def rstrip (ws : Nat → Bool) (u : UImpl) : Res UImpl := do
  let cs ← u.codePointsOf
  return ofUtf32 (cs.take (rstripLoop ws cs.reverse))

/-- `normalize_nfc` / `normalize_nfd`, unicode.cpp:512-538, for distinct `in` and `out`; `norm` is
ICU's normalisation.  The preflight call uses its own error variable, so only the length matters.
The result is (return value, new `out`).  ICU rejects a null source with non-zero length. -/
def normalize (norm : List Nat → List Nat) (inp out : UImpl) : Res (Bool × UImpl) := do
  let n ← inp.readSize
  if inp.str.isNone && n ≠ 0 then return (false, out.allocFill [])
  else
    let l ← inp.readUnits
    return (true, out.allocFill (norm l))

/-- `to_lower` (unicode.cpp:610-617) and `to_upper` (619-626), for distinct `in` and `out`; `conv`
is ICU's case mapping.  The result is (return value, new `in`, new `out`).

ICU protocol: a call with a failing error code does nothing; a null source (the empty string) is
`U_ILLEGAL_ARGUMENT_ERROR`; a preflight call (capacity 0) whose result has `n > 0` units sets
`U_BUFFER_OVERFLOW_ERROR`, with `n = 0` it sets a warning. -/
def caseMap (conv : List Nat → List Nat) (inp out : UImpl) : Res (Bool × UImpl × UImpl) := do
  let out := out.dispose
  if !inp.e.success then return (false, inp, out)
  else
    let _ ← inp.readSize
    if inp.str.isNone then return (false, { inp with e := .fail }, out)
    else
    let l ← inp.readUnits
    let n := (conv l).length
    let inp := { inp with e := if n = 0 then .warn else .overflow }
    if !inp.e.success then return (false, inp, out)
    else
      let out := { out.allocFill (conv l) with e := .warn }
      return (out.e.success, inp, out)

end UImpl

/-! ## Objects in memory: operations that take references -/

/-- Memory: an object for each address. -/
abbrev Store := Nat → UImpl

/-- Replace the object at one address. -/
def Store.set (σ : Store) (a : Nat) (v : UImpl) : Store := fun x => if x = a then v else σ x

/-- `ustr::operator=(const ustr&)`, unicode.cpp:303-306 with the self-assignment test of 68. -/
def Store.copyAssign (σ : Store) (dst src : Nat) : Res Store :=
  if dst = src then .ok σ
  else do
    let v ← (σ dst).copyFrom (σ src)
    return σ.set dst v

/-- `ustr::operator=(ustr&&)`, unicode.cpp:308-311 with the self-assignment test of 80. -/
def Store.moveAssign (σ : Store) (dst src : Nat) : Res Store :=
  if dst = src then .ok σ
  else do
    let (v, w) ← (σ dst).moveFrom (σ src)
    return (σ.set dst v).set src w

/-- `ustr::operator+=`, unicode.cpp:333-350; `dst` and `rhs` may be the same address. -/
def Store.plusAssign (σ : Store) (dst rhs : Nat) : Res Store := do
  let m ← (σ rhs).readSize
  if m = 0 then return σ
  else
    let n ← (σ dst).readSize
    if n = 0 then σ.copyAssign dst rhs
    else
      let s ← (σ dst).plus (σ rhs)
      -- `*this = result` copies from a temporary
      let v ← (σ dst).copyFrom s
      return σ.set dst v

/-! ## Character classes -/

/-- The ASCII part of `is_punct`, unicode.cpp:558-562. -/
def asciiPunct (c : Nat) : Bool :=
  (decide (33 ≤ c) && decide (c ≤ 47)) || (decide (58 ≤ c) && decide (c ≤ 64)) ||
  (decide (91 ≤ c) && decide (c ≤ 96)) || (decide (123 ≤ c) && decide (c ≤ 126))

/-- `is_punct`, unicode.cpp:553-566; `catP` tells whether ICU's general category is `P*`. -/
def isPunct (catP : Nat → Bool) (c : Nat) : Bool := asciiPunct c || catP c

/-! ## Regex splitting -/

/-- The match loop of `regex::split`, unicode.cpp:705-741.  `ms` are the (start, end) positions
that successive `uregex_findNext` calls report; `cur` is `current`, `added` the counter, `out` the
output vector.  `out.emplace_back(ptr, n)` copies `n` units from the text. -/
def splitLoop (text : List Nat) (cur added : Nat) (out : List (List Nat)) :
    List (Nat × Nat) → List (List Nat) × Nat
  | [] =>
    -- 738-741
    if cur < text.length then (out ++ [(text.drop cur).take (text.length - cur)], added + 1)
    else (out, added)
  | (s, e) :: ms =>
    -- 727-735
    let (out, added) :=
      if cur < s then (out ++ [(text.drop cur).take (s - cur)], added + 1) else (out, added)
    splitLoop text e (added + 1) (out ++ [(text.drop s).take (e - s)]) ms

/-- `regex::split`, unicode.cpp:690-744: the final `out` vector and the returned count.
A null text (empty string) is rejected by `uregex_setText`, the function then returns 0. -/
def regexSplit (text : List Nat) (ms : List (Nat × Nat)) (out : List (List Nat)) :
    List (List Nat) × Nat :=
  if text.length = 0 then (out, 0)
  else splitLoop text 0 0 out ms

end Berts.Unicode
