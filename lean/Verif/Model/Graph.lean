import Verif.Model.Base
import Verif.Spec.Encoder

/-!
# Model of the compute graphs (`berts/models/ggml.hpp`, `bert.cpp`, `roberta.cpp`)

Tensors have four dimensions and a function from indices to elements.  Elements belong to an
arbitrary type, and the arithmetic is an arbitrary structure `Arith`: nothing is assumed about
addition, dot products, softmax and so on, so everything proved holds for floating point numbers
(and for dequantised weights).

`ggml` itself is not part of the repository.  Its operations are modelled by their documented
behaviour: assertions on shapes are `abort`, each operation allocates its result in the context's
memory pool and aborts when the pool is too small, row lookups outside the table are undefined
behaviour.  Building and computing the graph are done in one go, which is unobservable because the
graph is a pure function of its inputs.  Sizes are natural numbers (the
same computation in `size_t` is in Model/SizeT.lean).
-/

namespace Berts.Graph

open Berts.Spec (Arith)

/-- A tensor: dimensions, bytes per element, whether it is contiguous, elements. -/
structure T (α : Type) where
  ne0 : Nat
  ne1 : Nat
  ne2 : Nat
  ne3 : Nat
  esz : Nat
  contig : Bool
  get : Nat → Nat → Nat → Nat → α

/-- `ggml_nelements`. -/
def T.count {α : Type} (t : T α) : Nat := t.ne0 * t.ne1 * t.ne2 * t.ne3

/-- The element at a position of the contiguous data. -/
def T.flat {α : Type} (t : T α) (k : Nat) : α :=
  t.get (k % t.ne0) (k / t.ne0 % t.ne1) (k / (t.ne0 * t.ne1) % t.ne2) (k / (t.ne0 * t.ne1 * t.ne2))

/-- Constants of ggml: `GGML_TENSOR_SIZE`, `GGML_OBJECT_SIZE`, `GGML_MEM_ALIGN`,
`ggml_graph_overhead()`. -/
structure Gg where
  tensorSize : Nat
  objectSize : Nat
  align : Nat
  graph : Nat

/-- `GGML_PAD`. -/
def pad (x n : Nat) : Nat := (x + n - 1) / n * n

/-- Arithmetic, constants, and the size of the memory pool. -/
structure Env (α : Type) where
  A : Arith α
  g : Gg
  mem : Nat

/-- Computations that use up the memory pool: number of bytes in use before and after. -/
def M (β : Type) := Nat → Res (β × Nat)

instance : Monad M where
  pure a := fun u => .ok (a, u)
  bind x f := fun u => (x u).bind fun p => f p.1 p.2

def M.abort {β : Type} : M β := fun _ => .abort
def M.ub {β : Type} : M β := fun _ => .ub

variable {α : Type}

/-- `ggml_new_object` for a tensor with the given number of data bytes. -/
def alloc (e : Env α) (bytes : Nat) : M Unit := fun u =>
  let n := e.g.objectSize + pad (e.g.tensorSize + bytes) e.g.align
  if u + n ≤ e.mem then .ok ((), u + n) else .abort

/-- `ggml_new_graph`. -/
def allocGraph (e : Env α) : M Unit := fun u =>
  if u + e.g.graph ≤ e.mem then .ok ((), u + e.g.graph) else .abort

/-- A new tensor with its own data. -/
def fresh {β : Type} (e : Env α) (t : T β) : M (T β) := do
  alloc e (t.esz * t.count)
  pure t

/-- A view of another tensor. -/
def view {β : Type} (e : Env α) (t : T β) : M (T β) := do
  alloc e 0
  pure t

/-- `GGML_ASSERT`. -/
def check (b : Bool) : M Unit := if b then pure () else M.abort

/-- `ggml_new_tensor_1d` with data. -/
def newTensor1d {β : Type} (e : Env α) (esz n : Nat) (f : Nat → β) : M (T β) :=
  fresh e ⟨n, 1, 1, 1, esz, true, fun i _ _ _ => f i⟩

/-- `ggml_get_rows`; the indices are `int32_t`. -/
def getRows (e : Env α) (w : T α) (idx : T Int) : M (T α) := do
  check (w.ne2 == idx.ne1 && idx.ne3 == 1 && idx.ne1 == 1)
  if ∀ i < idx.ne0, 0 ≤ idx.get i 0 0 0 ∧ idx.get i 0 0 0 < w.ne1 then
    fresh e ⟨w.ne0, idx.ne0, 1, 1, 4, true, fun i j _ _ => w.get i (idx.get j 0 0 0).toNat 0 0⟩
  else M.ub

/-- `GGML_ASSERT(ggml_can_mul_mat(a, b))`, which divides by two dimensions of `a`.  Simplification: a non-contiguous first
argument is rejected. -/
def canMulMat (a b : T α) : M Unit :=
  if a.ne2 = 0 ∨ a.ne3 = 0 then M.ub
  else check (a.contig && a.ne0 == b.ne0 && b.ne2 % a.ne2 == 0 && b.ne3 % a.ne3 == 0)

/-- `ggml_mul_mat`. -/
def mulMat (e : Env α) (a b : T α) : M (T α) := do
  canMulMat a b
  fresh e ⟨a.ne1, b.ne1, b.ne2, b.ne3, 4, true, fun i0 i1 i2 i3 =>
    e.A.dot
      ((List.range a.ne0).map fun k => a.get k i0 (i2 / (b.ne2 / a.ne2)) (i3 / (b.ne3 / a.ne3)))
      ((List.range b.ne0).map fun k => b.get k i1 i2 i3)⟩

/-- `GGML_ASSERT(ggml_can_repeat(a, b))`: the dimensions of `b` are divided by those of `a`, which is undefined if one is
zero.  (In ggml a later dimension is not looked at if an earlier one already does not divide.) -/
def canRepeat (a b : T α) : M Unit :=
  if a.ne0 = 0 ∨ a.ne1 = 0 ∨ a.ne2 = 0 ∨ a.ne3 = 0 then M.ub
  else check (b.ne0 % a.ne0 == 0 && b.ne1 % a.ne1 == 0 && b.ne2 % a.ne2 == 0 && b.ne3 % a.ne3 == 0)

/-- `ggml_repeat`. -/
def «repeat» (e : Env α) (a b : T α) : M (T α) := do
  canRepeat a b
  fresh e ⟨b.ne0, b.ne1, b.ne2, b.ne3, a.esz, true,
    fun i0 i1 i2 i3 => a.get (i0 % a.ne0) (i1 % a.ne1) (i2 % a.ne2) (i3 % a.ne3)⟩

/-- `ggml_add` and `ggml_mul`: the second argument is repeated. -/
def binary (f : α → α → α) (e : Env α) (a b : T α) : M (T α) := do
  canRepeat b a
  fresh e { a with
    contig := true
    get := fun i0 i1 i2 i3 =>
      f (a.get i0 i1 i2 i3) (b.get (i0 % b.ne0) (i1 % b.ne1) (i2 % b.ne2) (i3 % b.ne3)) }

/-- `ggml_gelu`, `ggml_relu`, `ggml_silu`, `ggml_tanh`. -/
def unary (f : α → α) (e : Env α) (a : T α) : M (T α) :=
  fresh e { a with contig := true, get := fun i0 i1 i2 i3 => f (a.get i0 i1 i2 i3) }

/-- Operations on rows: `ggml_norm`, `ggml_soft_max`, `ggml_soft_max_ext` without mask. -/
def rowOp (f : List α → Nat → α) (e : Env α) (a : T α) : M (T α) :=
  fresh e { a with
    contig := true
    get := fun i0 i1 i2 i3 => f ((List.range a.ne0).map fun k => a.get k i1 i2 i3) i0 }

/-- `ggml_reshape_4d` (and `_2d`). -/
def reshape (e : Env α) (a : T α) (n0 n1 n2 n3 : Nat) : M (T α) := do
  check (a.contig && a.count == n0 * n1 * n2 * n3)
  view e ⟨n0, n1, n2, n3, a.esz, true,
    fun i0 i1 i2 i3 => a.flat (i0 + n0 * (i1 + n1 * (i2 + n2 * i3)))⟩

/-- `j_p`. -/
def sel (p j0 j1 j2 j3 : Nat) : Nat := if p = 0 then j0 else if p = 1 then j1 else if p = 2 then j2 else j3

/-- `ggml_permute`: dimension `i` of the argument becomes dimension `p_i` of the result; the numbers are asserted to be
different and below 4. -/
def permute (e : Env α) (a : T α) (p0 p1 p2 p3 : Nat) : M (T α) := do
  check (decide ([p0, p1, p2, p3].Nodup ∧ ∀ p ∈ [p0, p1, p2, p3], p < 4))
  let dim := fun k => if p0 = k then a.ne0 else if p1 = k then a.ne1 else if p2 = k then a.ne2 else a.ne3
  view e ⟨dim 0, dim 1, dim 2, dim 3, a.esz, false, fun j0 j1 j2 j3 =>
    a.get (sel p0 j0 j1 j2 j3) (sel p1 j0 j1 j2 j3) (sel p2 j0 j1 j2 j3) (sel p3 j0 j1 j2 j3)⟩

/-- `ggml_cont`. -/
def cont (e : Env α) (a : T α) : M (T α) := fresh e { a with contig := true }

/-- `ggml_cpy(a, ggml_new_tensor_2d(F32, n0, n1))`. -/
def cpyTo2d (e : Env α) (a : T α) (n0 n1 : Nat) : M (T α) := do
  alloc e (4 * (n0 * n1))
  check (a.count == n0 * n1)
  view e ⟨n0, n1, 1, 1, 4, true, fun i0 i1 _ _ => a.flat (i0 + n0 * i1)⟩

/-- `ggml_view_1d` with offset 0. -/
def view1d (e : Env α) (a : T α) (n : Nat) : M (T α) := do
  check (a.contig && decide (n ≤ a.count))
  view e ⟨n, 1, 1, 1, a.esz, true, fun i _ _ _ => a.flat i⟩

/-- `ggml_pool_2d(a, op, 1, n, 1, n, 0, 0)`: one output row for every `n` rows.  The output size
divides by the stride. -/
def pool (f : List α → α) (e : Env α) (a : T α) (n : Nat) : M (T α) :=
  if n = 0 then M.ub
  else fresh e ⟨a.ne0, (a.ne1 - n) / n + 1, a.ne2, 1, 4, true, fun i0 i1 i2 _ =>
    f ((List.range n).map fun k => a.get i0 (i1 * n + k) i2 0)⟩

/-- `bert_dense`, ggml.hpp:92-96. -/
def dense (e : Env α) (x w b : T α) : M (T α) := do
  let x ← mulMat e w x
  let r ← «repeat» e b x
  binary e.A.add e x r

/-- `bert_layer_norm`, ggml.hpp:98-103; `eps` is the `double` of the hyperparameters, its conversion to `float`
is left to the arithmetic. -/
def layerNorm (e : Env α) (eps : Nat) (x w b : T α) : M (T α) := do
  let x ← rowOp (e.A.norm eps) e x
  let r ← «repeat» e w x
  let y ← binary e.A.mul e r x
  let s ← «repeat» e b x
  binary e.A.add e y s

/-- `hparams`, internal.hpp:21-33; all are read as `uint32_t`, gguf.cpp:214-225.  `act` is the number
of the activation function, internal.hpp:14-19; `eps` is a `double`, represented by its bits. -/
structure HParams where
  vocabSize : Nat
  hidden : Nat
  nLayers : Nat
  heads : Nat
  maxTokens : Nat
  interm : Nat
  segments : Nat
  act : Nat
  eps : Nat

/-- `transformer_block`, bert.hpp and roberta.hpp. -/
structure Layer (α : Type) where
  qw : T α
  qb : T α
  kw : T α
  kb : T α
  vw : T α
  vb : T α
  ffw : T α
  ffb : T α
  lnffw : T α
  lnffb : T α
  iw : T α
  ib : T α
  ow : T α
  ob : T α
  lnoutw : T α
  lnoutb : T α

/-- The weights of the language-model head. -/
structure LmWeights (α : Type) where
  dw : T α
  db : T α
  lnw : T α
  lnb : T α
  decw : T α
  decb : T α

/-- `weights`; `lm` is `none` if one of the six tensors is missing. -/
structure Weights (α : Type) where
  tok : T α
  seg : T α
  pos : T α
  lnw : T α
  lnb : T α
  layers : List (Layer α)
  poolw : T α
  poolb : T α
  lm : Option (LmWeights α)

/-- One query, key or value projection, bert.cpp:939-949 and roberta.cpp:661-671. -/
def project (e : Env α) (x w b : T α) (attnDim heads n : Nat) : M (T α) := do
  let q ← dense e x w b
  reshape e q attnDim heads n 1

/-- The attention itself, bert.cpp:951-968 and roberta.cpp:673-690: queries, keys and values of shape
(`attnDim`, `heads`, `n`) to a matrix of shape (`hidden`, `n`). -/
def attend (e : Env α) (hidden attnDim n : Nat) (q k v : T α) : M (T α) := do
  let q ← permute e q 0 2 1 3
  let q ← cont e q
  let k ← permute e k 0 2 1 3
  let k ← cont e k
  let v ← permute e v 1 2 0 3
  let v ← cont e v
  let kq ← mulMat e k q
  let sim ← rowOp (e.A.softmax (e.A.scale attnDim)) e kq
  let res ← mulMat e v sim
  let res ← permute e res 0 2 1 3
  let res ← cont e res
  cpyTo2d e res hidden n

/-- The attention block of a layer, bert.cpp:938-977 and roberta.cpp:660-699. -/
def attention (e : Env α) (eps hidden heads n : Nat) (l : Layer α) (x : T α) : M (T α) := do
  let attnDim := hidden / heads
  let q ← project e x l.qw l.qb attnDim heads n
  let k ← project e x l.kw l.kb attnDim heads n
  let v ← project e x l.vw l.vb attnDim heads n
  let res ← attend e hidden attnDim n q k v
  let res ← dense e res l.ffw l.ffb
  let x ← binary e.A.add e x res
  layerNorm e eps x l.lnffw l.lnffb

/-- The feed-forward block of a layer, bert.cpp:980-998 and roberta.cpp:702-720; `none` is
`return false`. -/
def feedForward (e : Env α) (eps act : Nat) (l : Layer α) (x : T α) : M (Option (T α)) := do
  let res ← dense e x l.iw l.ib
  if act = 0 then
    let res ← unary e.A.gelu e res
    let res ← dense e res l.ow l.ob
    let x ← binary e.A.add e x res
    let x ← layerNorm e eps x l.lnoutw l.lnoutb
    pure (some x)
  else pure none

/-- The loop over the layers, bert.cpp:929-999 and roberta.cpp:651-721; `last` is
`cond.output_layer`. -/
def layerLoop (e : Env α) (hp : HParams) (n : Nat) (last : Int) : Nat → List (Layer α) → T α →
    M (Option (T α))
  | _, [], x => pure (some x)
  | idx, l :: ls, x =>
    if last ≤ (idx : Int) then pure (some x)
    else do
      let x ← attention e hp.eps hp.hidden hp.heads n l x
      let o ← feedForward e hp.eps hp.act l x
      match o with
      | none => pure none
      | some x => layerLoop e hp n last (idx + 1) ls x

/-- The value of an `int32_t` with the given bits. -/
def i32 (v : Nat) : Int :=
  if v % 2 ^ 32 < 2 ^ 31 then (v % 2 ^ 32 : Nat) else (v % 2 ^ 32 : Nat) - 2 ^ 32

/-- The embeddings, bert.cpp:892-914 and roberta.cpp:608-636.  The positions are computed by the
caller. -/
def embeddings (e : Env α) (hp : HParams) (w : Weights α) (tokens segs : List Nat) (pos : List Int) :
    M (T α) := do
  let n := tokens.length
  let tok ← newTensor1d e 4 n (fun i => i32 (tokens.getD i 0))
  let seg ← newTensor1d e 4 n (fun i => i32 (segs.getD i 0))
  let pos ← newTensor1d e 4 n (fun i => pos.getD i 0)
  let x ← getRows e w.tok tok
  let p ← getRows e w.pos pos
  let x ← binary e.A.add e p x
  let s ← getRows e w.seg seg
  let x ← binary e.A.add e s x
  let x ← layerNorm e hp.eps x w.lnw w.lnb
  check (x.ne2 == 1 && x.ne3 == 1)
  check (x.ne0 == hp.hidden)
  check (x.ne1 == n)
  pure x

/-- The pooler, bert.cpp:1011-1041 and roberta.cpp:733-763.  `pool` is the number of the pooling type,
berts.h:128-140; `none` is `return false`. -/
def pooler (e : Env α) (hp : HParams) (w : Weights α) (poolType n : Nat) (x : T α) : M (Option (T α)) :=
  let finish := fun (x : T α) => (do
    check (x.ne0 == hp.hidden && x.ne1 == 1 && x.ne2 == 1 && x.ne3 == 1)
    let x ← dense e x w.poolw w.poolb
    let x ← unary e.A.tanh e x
    pure (some x) : M (Option (T α)))
  match poolType with
  | 0 => pure (some x)
  | 1 => do finish (← view1d e x x.ne0)
  | 2 => do finish (← pool e.A.avg e x n)
  | 3 => do finish (← pool e.A.max e x n)
  | _ => pure none

/-- `build_graph`, bert.cpp:871-1048 and roberta.cpp:587-770.  The division by the number of heads is
undefined if there are none. -/
def buildGraph (e : Env α) (hp : HParams) (w : Weights α) (last : Int) (poolType : Nat)
    (tokens segs : List Nat) (pos : List Int) : M (Option (T α)) := do
  let x ← embeddings e hp w tokens segs pos
  if hp.heads = 0 then M.ub
  else
    let o ← layerLoop e hp tokens.length last 0 w.layers x
    match o with
    | none => pure none
    | some x => pooler e hp w poolType tokens.length x

/-- The activation function of the head: the `switch` of bert.cpp:1084-1102; `gelu` whatever the
activation is in roberta.cpp:772-834.  `none` is `return false`. -/
def lmAct (A : Arith α) (isBert : Bool) (act : Nat) : Option (α → α) :=
  if !isBert then some A.gelu
  else match act with
    | 0 => some A.gelu
    | 1 => some A.relu
    | 2 => some A.silu
    | _ => none

/-- `build_lm_graph`, bert.cpp:1050-1131 and roberta.cpp:772-834: the tensors `lm_prob` and `lm_out`. -/
def buildLm (e : Env α) (isBert : Bool) (hp : HParams) (w : Weights α) (vocabCount : Nat)
    (hidden : List α) (dflt : α) : M (Option (T α × T Nat)) :=
  match w.lm with
  | none => pure none
  | some lm => do
    let n := hidden.length / hp.hidden
    let x ← newTensor1d e 4 hidden.length (fun i => hidden.getD i dflt)
    let x ← reshape e x hp.hidden n 1 1
    let x ← dense e x lm.dw lm.db
    match lmAct e.A isBert hp.act with
    | none => pure none
    | some act => do
      let x ← unary act e x
      let x ← layerNorm e hp.eps x lm.lnw lm.lnb
      check (x.ne0 == hp.hidden)
      check (x.ne1 == n)
      let x ← dense e x lm.decw lm.decb
      check (x.ne0 == vocabCount)
      check (x.ne1 == n)
      let p ← rowOp (e.A.softmax e.A.one) e x
      let o ← fresh e { (p : T α) with
        esz := 4
        contig := true
        get := fun i0 i1 i2 i3 => e.A.argsort ((List.range p.ne0).map fun k => p.get k i1 i2 i3) i0 }
      pure (some (p, o))

/-! ## Size estimates -/

/-- `get_tensor_size`, ggml.hpp:76-90, for types of 4 bytes per element. -/
def tensorSize (g : Gg) (ne0 : Nat) (ne1 : Nat := 1) (ne2 : Nat := 1) (ne3 : Nat := 1) : Nat :=
  pad (4 * ne0 * ne1 * ne2 * ne3 + g.tensorSize) g.align + g.objectSize

/-- `ggml_size_info`, ggml.hpp:14-27. -/
structure SizeInfo where
  emb : Nat
  layer : Nat
  pooler : Nat
  graph : Nat

def SizeInfo.calc (s : SizeInfo) (layers : Nat) : Nat := s.emb + s.layer * layers + s.pooler + s.graph

/-- `size.emb`, bert.cpp:665-683 and roberta.cpp:396-414. -/
def embSize (g : Gg) (hidden n : Nat) : Nat :=
  tensorSize g n * 3 + tensorSize g hidden n * 3 + tensorSize g hidden n * 2 + tensorSize g hidden n * 5

/-- `size.layer`, bert.cpp:690-765 and roberta.cpp:421-496. -/
def layerSize (g : Gg) (hidden heads interm n : Nat) : Nat :=
  (tensorSize g hidden n + tensorSize g hidden n + tensorSize g hidden n + tensorSize g 0 +
    tensorSize g hidden n + tensorSize g 0) * 3 +
  tensorSize g n n heads * 2 +
  tensorSize g hidden n +
  (tensorSize g 0 + tensorSize g hidden n) +
  (tensorSize g 0 + tensorSize g hidden n) +
  (tensorSize g hidden n + tensorSize g hidden n + tensorSize g hidden n) +
  tensorSize g hidden n +
  tensorSize g hidden n * 5 +
  (tensorSize g interm n + tensorSize g interm n + tensorSize g interm n) +
  tensorSize g interm n +
  (tensorSize g hidden n + tensorSize g hidden n + tensorSize g hidden n) +
  tensorSize g hidden n +
  tensorSize g hidden n * 5

/-- `size.pooler`, bert.cpp:771-797 and roberta.cpp:502-528. -/
def poolerSize (g : Gg) (hidden poolType : Nat) : Nat :=
  if poolType = 0 then 0
  else
    (match poolType with
      | 1 => tensorSize g 0
      | 2 => tensorSize g hidden
      | 3 => tensorSize g hidden
      | _ => 0) +
    (tensorSize g hidden + tensorSize g hidden + tensorSize g hidden) + tensorSize g hidden

/-- `get_context_buffer_size`, bert.cpp:648-800 and roberta.cpp:379-531. -/
def bufferSize (g : Gg) (hp : HParams) (poolType n : Nat) : SizeInfo where
  emb := embSize g hp.hidden n
  layer := if hp.nLayers ≠ 0 then layerSize g hp.hidden hp.heads hp.interm n else 0
  pooler := poolerSize g hp.hidden poolType
  graph := g.graph

/-- `get_context_buffer_size_for_lm`, bert.cpp:802-869 and roberta.cpp:533-585; an unknown activation
function is an assertion failure, but only in BERT. -/
def lmBufferSize (g : Gg) (isBert : Bool) (hp : HParams) (vocabCount n : Nat) : Res SizeInfo :=
  if isBert && decide (3 < hp.act) then .abort
  else .ok {
    emb := tensorSize g (n * hp.hidden) + tensorSize g 0 +
      (tensorSize g hp.hidden n + tensorSize g hp.hidden n + tensorSize g hp.hidden n) +
      tensorSize g hp.hidden n + tensorSize g hp.hidden n * 5 +
      (tensorSize g vocabCount n + tensorSize g vocabCount n + tensorSize g vocabCount n) +
      tensorSize g vocabCount n + tensorSize g vocabCount n
    layer := 0
    pooler := 0
    graph := g.graph }

end Berts.Graph
