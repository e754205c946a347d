import Verif.Model.Unicode

/-!
# Model of the memory of strings (`berts/models/unicode.cpp`)

`Verif.Model.Unicode` describes a `ustr` by its value.  This file models the memory behind it: a `ustr`
holds a pointer to a `ustr_impl` on the heap, which holds a pointer to a buffer of 16-bit units on the
heap.  Reading or releasing something that is not allocated is undefined behaviour, and so is reading a
unit that has not been stored yet, or `size` before it was set.

Simplifications: `new` does not fail; `int32_t` sizes do not overflow; a `ustr` returned by value
(`operator+`) is constructed in place (copy elision), as the compilers do.
-/

namespace Berts.Memory

open Berts.Unicode

/-- `ustr_impl`, unicode.cpp:33-39: `str` is the address of a buffer or null. -/
structure Impl where
  str : Option Nat
  size : Option Nat
  e : UErr
deriving DecidableEq, Repr

/-- The heap: the `ustr_impl` objects and the buffers that are allocated.  A unit `none` has not been
stored yet.  `new` hands out the addresses in order. -/
structure Heap where
  impls : Nat → Option Impl
  bufs : Nat → Option (List (Option Nat))
  nextImpl : Nat
  nextBuf : Nat

/-- Nothing is allocated. -/
def Heap.empty : Heap := ⟨fun _ => none, fun _ => none, 0, 0⟩

/-- Change one entry of a map. -/
def upd {α : Type} (f : Nat → α) (k : Nat) (v : α) : Nat → α := fun x => if x = k then v else f x

/-- Reading the object at `p`. -/
def Heap.get (h : Heap) (p : Nat) : Res Impl :=
  match h.impls p with
  | none => .ub
  | some i => .ok i

/-- Storing the object at `p`. -/
def Heap.put (h : Heap) (p : Nat) (i : Impl) : Heap := { h with impls := upd h.impls p (some i) }

/-- Reading `size`. -/
def Impl.readSize (i : Impl) : Res Nat :=
  match i.size with
  | none => .ub
  | some n => .ok n

/-- `new ustr_impl{}`, unicode.cpp:41-43 and 251-252: `size` is not initialised. -/
def newImpl (h : Heap) : Nat × Heap :=
  (h.nextImpl,
    { h with impls := upd h.impls h.nextImpl (some ⟨none, none, .zero⟩), nextImpl := h.nextImpl + 1 })

/-- `ustr_impl::free`, unicode.cpp:104-110; `delete[]` needs an allocated buffer. -/
def freeStr (h : Heap) (p : Nat) : Res Heap := do
  let i ← h.get p
  match i.str with
  | none => return h.put p { i with size := some 0 }
  | some b =>
    match h.bufs b with
    | none => .ub
    | some _ => return { h.put p { i with str := none, size := some 0 } with bufs := upd h.bufs b none }

/-- `ustr_impl::alloc`, unicode.cpp:96-102. -/
def alloc (h : Heap) (p n : Nat) : Res Heap := do
  let h ← freeStr h p
  let i ← h.get p
  if n ≠ 0 then
    return { h.put p { i with str := some h.nextBuf, size := some n } with
      bufs := upd h.bufs h.nextBuf (some (List.replicate n none)), nextBuf := h.nextBuf + 1 }
  else
    return h.put p { i with size := some n }

/-- Storing `us` at `dst + off`; nothing is accessed when `us` is empty. -/
def store (h : Heap) (dst : Option Nat) (off : Nat) (us : List Nat) : Res Heap :=
  if us = [] then .ok h
  else
    match dst with
    | none => .ub
    | some b =>
      match h.bufs b with
      | none => .ub
      | some l =>
        if off + us.length ≤ l.length then
          .ok { h with
            bufs := upd h.bufs b (some (l.take off ++ us.map some ++ l.drop (off + us.length))) }
        else .ub

/-- Reading `[src, src + n)`; nothing is accessed when `n = 0`. -/
def load (h : Heap) (src : Option Nat) (n : Nat) : Res (List Nat) :=
  if n = 0 then .ok []
  else
    match src with
    | none => .ub
    | some b =>
      match h.bufs b with
      | none => .ub
      | some l =>
        if n ≤ l.length then
          match (l.take n).mapM id with
          | none => .ub
          | some us => .ok us
        else .ub

/-- `std::copy(src, src + n, dst + off)`. -/
def copyUnits (h : Heap) (src : Option Nat) (n : Nat) (dst : Option Nat) (off : Nat) : Res Heap := do
  let us ← load h src n
  store h dst off us

/-- `ustr_impl::operator=(const ustr_impl &)`, unicode.cpp:67-77. -/
def assignImpl (h : Heap) (p q : Nat) : Res Heap :=
  if p = q then do
    let _ ← h.get p
    return h
  else do
    let h ← freeStr h p
    let o ← h.get q
    let h ← (match o.str with
      | none => (.ok h : Res Heap)
      | some _ => do
        let n ← o.readSize
        let h ← alloc h p n
        let o ← h.get q
        let i ← h.get p
        let n ← o.readSize
        copyUnits h o.str n i.str 0)
    let o ← h.get q
    let i ← h.get p
    return h.put p { i with e := o.e }

/-- `ustr_impl::operator=(ustr_impl &&)`, unicode.cpp:79-90. -/
def moveImpl (h : Heap) (p q : Nat) : Res Heap :=
  if p = q then do
    let _ ← h.get p
    return h
  else do
    let h ← freeStr h p
    let o ← h.get q
    let i ← h.get p
    let n ← o.readSize
    let h := h.put p { i with str := o.str, size := some n, e := o.e }
    return h.put q ⟨none, some 0, .zero⟩

/-- What the constructors from units, UTF-8 and UTF-32 do once the number of units is known:
`alloc` and the conversion into the buffer, unicode.cpp:262-263, 268-269, 277-278. -/
def fillNew (h : Heap) (p : Nat) (us : List Nat) (e : UErr) : Res Heap := do
  let h ← alloc h p us.length
  let i ← h.get p
  let h ← store h i.str 0 us
  let i ← h.get p
  return h.put p { i with e := e }

/-- `ustr(const unic_t *, size_t)`, unicode.cpp:266-270. -/
def ctorUnits (h : Heap) (us : List Nat) : Res (Nat × Heap) := do
  let (p, h) := newImpl h
  let h ← fillNew h p us .zero
  return (p, h)

/-- `ustr(const char *, size_t)`, unicode.cpp:257-264.  On ill-formed input ICU stores no length. -/
def ctorUtf8 (h : Heap) (bs : List Nat) : Res (Nat × Heap) := do
  let (p, h) := newImpl h
  match utf8Decode bs with
  | none => do
    let i ← h.get p
    return (p, h.put p { i with e := .fail })
  | some cs => do
    let i ← h.get p
    let h := h.put p { i with size := some (utf16Encode cs).length, e := .zero }
    let h ← fillNew h p (utf16Encode cs) .warn
    return (p, h)

/-- `ustr(const unic32_t *, size_t)`, unicode.cpp:272-279. -/
def ctorUtf32 (h : Heap) (cs : List Nat) : Res (Nat × Heap) := do
  let (p, h) := newImpl h
  if cs.all (fun c => decide (c < 0xd800) || (decide (0xe000 ≤ c) && decide (c ≤ 0x10ffff))) then do
    let i ← h.get p
    let h := h.put p { i with size := some (utf16Encode cs).length, e := .zero }
    let h ← fillNew h p (utf16Encode cs) .warn
    return (p, h)
  else do
    let i ← h.get p
    return (p, h.put p { i with e := .fail })

/-- `ustr(const ustr &)`, unicode.cpp:284-287. -/
def ctorCopy (h : Heap) (q : Nat) : Res (Nat × Heap) := do
  let (p, h) := newImpl h
  let h ← assignImpl h p q
  return (p, h)

/-- `ustr(ustr &&)`, unicode.cpp:289-292. -/
def ctorMove (h : Heap) (q : Nat) : Res (Nat × Heap) := do
  let (p, h) := newImpl h
  let h ← moveImpl h p q
  return (p, h)

/-- `ustr::dispose`, unicode.cpp:294-297. -/
def dispose (h : Heap) (p : Nat) : Res Heap := do
  let h ← freeStr h p
  let i ← h.get p
  return h.put p { i with e := .zero }

/-- `ustr::~ustr`, unicode.cpp:299-301: `dispose`, and nothing else (`impl` is not deleted). -/
def dtor (h : Heap) (p : Nat) : Res Heap := dispose h p

/-- `ustr::operator+`, unicode.cpp:313-331. -/
def plus (h : Heap) (p q : Nat) : Res (Nat × Heap) := do
  let l ← h.get p
  let lsize ← l.readSize
  let r ← h.get q
  let rsize ← r.readSize
  let (s, h) := newImpl h
  let h ← alloc h s (lsize + rsize)
  let i ← h.get s
  let h ← (if lsize ≠ 0 then copyUnits h l.str lsize i.str 0 else .ok h)
  let h ← (if rsize ≠ 0 then copyUnits h r.str rsize i.str lsize else .ok h)
  return (s, h)

/-- `ustr::operator+=`, unicode.cpp:333-350; `result` is destroyed on return. -/
def plusAssign (h : Heap) (p q : Nat) : Res Heap := do
  let r ← h.get q
  let rsize ← r.readSize
  if rsize = 0 then do
    let _ ← h.get p
    return h
  else
    let l ← h.get p
    let lsize ← l.readSize
    if lsize = 0 then assignImpl h p q
    else
      let (s, h) ← plus h p q
      let h ← assignImpl h p s
      dtor h s

/-! ## Programs that use strings -/

/-- A program's strings: for each variable that is alive, its `impl` member (unicode.hpp:176). -/
structure St where
  obj : Nat → Option Nat
  heap : Heap

/-- No strings, nothing allocated. -/
def St.init : St := ⟨fun _ => none, Heap.empty⟩

/-- What a program does with strings; `o` is the variable that is created, assigned or destroyed. -/
inductive Op where
  | default (o : Nat)
  | units (o : Nat) (us : List Nat)
  | utf8 (o : Nat) (bs : List Nat)
  | utf32 (o : Nat) (cs : List Nat)
  | copy (o q : Nat)
  | move (o q : Nat)
  | sum (o q r : Nat)
  | assign (o q : Nat)
  | moveAssign (o q : Nat)
  | add (o q : Nat)
  | dispose (o : Nat)
  | destroy (o : Nat)
deriving DecidableEq, Repr

/-- The `impl` of a variable; using one that is not alive is undefined behaviour. -/
def St.use (s : St) (o : Nat) : Res Nat :=
  match s.obj o with
  | none => .ub
  | some p => .ok p

/-- Creating a variable where one is alive is undefined behaviour. -/
def St.create (s : St) (o : Nat) (r : Res (Nat × Heap)) : Res St :=
  match s.obj o with
  | some _ => .ub
  | none => do
    let (p, h) ← r
    return ⟨upd s.obj o (some p), h⟩

/-- One operation, unicode.cpp:251-350. -/
def step (s : St) : Op → Res St
  | .default o => s.create o (.ok (newImpl s.heap))
  | .units o us => s.create o (ctorUnits s.heap us)
  | .utf8 o bs => s.create o (ctorUtf8 s.heap bs)
  | .utf32 o cs => s.create o (ctorUtf32 s.heap cs)
  | .copy o q => do let q ← s.use q; s.create o (ctorCopy s.heap q)
  | .move o q => do let q ← s.use q; s.create o (ctorMove s.heap q)
  | .sum o q r => do let q ← s.use q; let r ← s.use r; s.create o (plus s.heap q r)
  | .assign o q => do let p ← s.use o; let q ← s.use q; let h ← assignImpl s.heap p q; return { s with heap := h }
  | .moveAssign o q => do let p ← s.use o; let q ← s.use q; let h ← moveImpl s.heap p q; return { s with heap := h }
  | .add o q => do let p ← s.use o; let q ← s.use q; let h ← plusAssign s.heap p q; return { s with heap := h }
  | .dispose o => do let p ← s.use o; let h ← dispose s.heap p; return { s with heap := h }
  | .destroy o => do let p ← s.use o; let h ← dtor s.heap p; return ⟨upd s.obj o none, h⟩

/-- A history of operations. -/
def run (s : St) : List Op → Res St
  | [] => .ok s
  | op :: ops => do let s ← step s op; run s ops

end Berts.Memory
