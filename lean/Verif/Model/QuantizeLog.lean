import Verif.Model.QuantizeFile
import Verif.Model.LoadLog

/-!
# Quantizing with its messages

`Verif.Model.Quantize` and `Verif.Model.QuantizeFile` with the state of the log threaded through, as in
`Verif.Model.LoadLog`.  Types are numbers below 2^32, so that `type_to_str` (gguf.cpp:53-55) is `ftype`.
-/

namespace Berts.Quantize

open Berts.Load Berts.Log Berts.Format
open Berts.TypeNames (ftypeName)

variable {α F : Type}

/-- What the messages need of floating-point numbers and of ggml: the texts of `n / 1024.0f` and
`n / 1024.0f / 1024.0f` with one digit and of `n / sum` with three digits after the point, and what
`ggml_quantize_chunk` adds to the 16 numbers of the histogram; and the address of the new gguf context. -/
structure Show (F : Type) where
  kib : Nat → List Nat
  mib : Nat → List Nat
  share : Nat → Nat → List Nat
  hist : Nat → List F → List Nat
  dst : Fin (2 ^ 63)

/-- A `float` as argument of a field with the specification `spec0`. -/
def floatArg (spec0 text : List Nat) : Arg := fun spec => if spec = spec0 then some text else none

/-- What is counted for the last message: `total_size_org`, `total_size_new` and `buffer.hist`. -/
structure Totals where
  org : Nat
  new : Nat
  hist : List Nat

/-- Numbers added to the histogram. -/
def addHist (a b : List Nat) : List Nat := List.zipWith (· + ·) a b

/-- As `quantize`, quantize.cpp:41-68, with the histogram. -/
def quantizeL (cv : Conv F) (sh : Show F) (t : LT) (qtype : Nat) (cap : Nat) (hist : List Nat) :
    LogM ((Option (List Nat) × Nat) × List Nat) :=
  let cap := reserve cap (nelements t)
  if t.type = 0 then do
    let r ← lift (convert cv qtype cap (cv.dec32 t.data))
    pure (r, addHist hist (sh.hist qtype (cv.dec32 t.data)))
  else if t.type = 1 then do
    let r ← lift (convert cv qtype cap (cv.dec16 t.data))
    pure (r, addHist hist (sh.hist qtype (cv.dec16 t.data)))
  else do
    let name ← lift (ftypeName t.type)
    sayF .error (bytes! "input type must be f16 or f32, but {}") [textArg name]
    pure ((none, cap), hist)

/-- As `payload`, quantize.cpp:126-153; also whether the tensor was quantized. -/
def payloadL (cv : Conv F) (sh : Show F) (qtype : Nat) (name : List Nat) (t : LT) (cap : Nat) (hist : List Nat) :
    LogM ((Option (Nat × List Nat) × Nat) × Bool × List Nat) :=
  if matchWeight name && t.ndims == 2 then do
    let r ← quantizeL cv sh t qtype cap hist
    pure ((r.1.1.map fun b => (qtype, b), r.1.2), true, r.2)
  else pure ((some (t.type, t.data), cap), false, hist)

/-- As `convLoop`, quantize.cpp:122-176. -/
def convLoopL (cv : Conv F) (sh : Show F) (aw : Nat) (qtype : Nat) (ts : List LT) :
    List (List Nat) → List Info → Nat → Out → Totals → LogM ((Option (List Info) × Out) × Totals)
  | [], infos, _, o, tot => pure ((some infos, o), tot)
  | name :: names, infos, cap, o, tot =>
    match getTensor ts name with
    | none => lift .ub
    | some t => do
      let r ← payloadL cv sh qtype name t cap tot.hist
      match r.1.1 with
      | none => pure ((none, o), tot)
      | some (type, data) => do
        let infos ← lift (setType name type infos)
        let infos ← lift (setData aw name data.length infos)
        let o := o.write data
        let o := writeZeros o (Graph.pad data.length aw - data.length)
        sayF .info (bytes! "{}:\n  quantized = {}\n  n_dims = {}\n  size = {:.1f} KiB -> {:.1f} KiB")
          [textArg name, boolArg r.2.1, numArg t.ndims, floatArg (bytes! ".1f") (sh.kib t.data.length),
           floatArg (bytes! ".1f") (sh.kib data.length)]
        convLoopL cv sh aw qtype ts names infos r.1.2 o ⟨tot.org + t.data.length, tot.new + data.length, r.2.2⟩

/-- The lines of the histogram, quantize.cpp:206-209. -/
def binsText (sh : Show F) (sum : Nat) : Nat → List Nat → Res (List Nat)
  | _, [] => .ok []
  | i, v :: vs =>
    (fmt (bytes! "  bin #{}: {:.3f}\n") [numArg i, floatArg (bytes! ".3f") (sh.share v sum)]).bind fun a =>
    (binsText sh sum (i + 1) vs).bind fun b => .ok (a ++ b)

/-- The last message, quantize.cpp:193-213.  The totals are `size_t`, but no process has that many bytes. -/
def summaryText (sh : Show F) (tot : Totals) : Res (List Nat) :=
  (fmt (bytes! "========================================\noriginal size  = {} ({:.1f} MiB)\nquantized size = {} ({:.1f} MiB)\n")
    [numArg tot.org, floatArg (bytes! ".1f") (sh.mib tot.org), numArg tot.new,
     floatArg (bytes! ".1f") (sh.mib tot.new)]).bind fun msg =>
  (if 0 < tot.hist.sum then
    (binsText sh tot.hist.sum 0 tot.hist).bind fun b => .ok (msg ++ bytes! "[histogram]\n" ++ b)
   else .ok msg).bind fun msg =>
  .ok (msg ++ bytes! "========================================")

/-- As `modelQuantize`, quantize.cpp:83-218, for a source that was loaded. -/
def modelQuantizeL (cv : Conv F) (sh : Show F) (aw : Nat) (qtype : Nat) (names : List (List Nat)) (ts : List LT)
    (room : Option Nat) (outPath pre : List Nat) : LogM (Bool × Option Out) :=
  match room with
  | none => do
    sayF .error (bytes! "failed to open {}") [textArg outPath]
    pure (false, none)
  | some room => do
    let o : Out := ⟨[], 0, false, room⟩
    let infos ← lift (addAll aw ts names [])
    let size := metaSize aw pre infos
    let o := writeZeros o size
    say .info (bytes! "converting...")
    let r ← convLoopL cv sh aw qtype ts names infos 0 o ⟨0, 0, List.replicate 16 0⟩
    match r.1.1 with
    | none => pure (false, some r.1.2)
    | some infos => do
      say .info (bytes! "writing metadata...")
      let o ← lift (writeMeta r.1.2 size (metaData aw pre infos))
      sayWhen 1 do
        let msg ← lift (summaryText sh r.2)
        say .info msg
      say .info (bytes! "quantization completed")
      pure (true, some o)

/-- As `bertsModelQuantize`, quantize.cpp:70-218, with the two paths; at the end the destructors of `gguf_dst` and `ctx`,
utils.hpp:104-110, 153-159. -/
def bertsModelQuantizeL (pr : Printed) (cv : Conv F) (sh : Show F) (ver : Nat)
    (header : List (List Nat × Kv) → Nat → List Nat) (w : World α) (room : Option Nat) (qtype : Nat)
    (inPath outPath : List Nat) : LogM (Bool × Option Out) := do
  say .info (bytes! "start quantization")
  let _ ← lift (ftypeName qtype)
  let r ← loadL pr w inPath
  match r.1, w.gguf with
  | some c, some g => do
    onInit pr .ctx
    sayF .info (bytes! "model loaded: {}") [textArg inPath]
    sayF .debug (bytes! "gguf_init @ {:016x}") [addrArg sh.dst.val]
    let r ← modelQuantizeL cv sh 32 qtype (g.dir.map (·.name)) c.tensors room outPath
      (header (quantKv ver qtype g.kv) g.dir.length)
    sayF .debug (bytes! "gguf_free @ {:016x}") [addrArg sh.dst.val]
    onDispose pr .ctx
    pure r
  | _, _ => do
    sayF .error (bytes! "fail to load model: {}") [textArg inPath]
    pure (false, none)

end Berts.Quantize
