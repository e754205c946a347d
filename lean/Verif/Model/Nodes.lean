import Verif.Model.Base

/-!
# Model of the graph of operations (`build_graph`, `build_lm_graph`) and of its expansion by ggml

`Verif.Model.Graph` computes the values; here only the structure is kept: which tensors are made, from which others.
`ggml_build_forward_expand` collects the tensors that are needed for the output, in an array of fixed size
(`GGML_DEFAULT_GRAPH_SIZE`, 2048, for `ggml_new_graph`).

Tensors are numbered in the order in which they appear.  Every weight is used once in a graph, so a number is given to it
at that point.
-/

namespace Berts.Nodes

/-- A tensor: whether it is a leaf (`GGML_OP_NONE`), and its sources. -/
structure Node where
  leaf : Bool
  src : List Nat
deriving DecidableEq, Repr

/-- Building a graph: the tensors made so far, before and after. -/
def B (β : Type) := List Node → β × List Node

instance : Monad B where
  pure a := fun g => (a, g)
  bind x f := fun g => f (x g).1 (x g).2

/-- A tensor without operation: a weight or `ggml_new_tensor`. -/
def leaf : B Nat := fun g => (g.length, g ++ [⟨true, []⟩])

/-- The result of an operation. -/
def op (src : List Nat) : B Nat := fun g => (g.length, g ++ [⟨false, src⟩])

/-- `bert_dense`, ggml.hpp:92-96.  `ggml_repeat` records its first argument only. -/
def dense (x : Nat) : B Nat := do
  let w ← leaf
  let x ← op [w, x]
  let b ← leaf
  let r ← op [b]
  op [x, r]

/-- `bert_layer_norm`, ggml.hpp:98-103. -/
def layerNorm (x : Nat) : B Nat := do
  let x ← op [x]
  let w ← leaf
  let r ← op [w]
  let y ← op [r, x]
  let b ← leaf
  let s ← op [b]
  op [y, s]

/-- The embeddings, bert.cpp:892-909 and roberta.cpp:608-631. -/
def embeddings : B Nat := do
  let tok ← leaf
  let seg ← leaf
  let pos ← leaf
  let wt ← leaf
  let x ← op [wt, tok]
  let wp ← leaf
  let p ← op [wp, pos]
  let x ← op [p, x]
  let ws ← leaf
  let s ← op [ws, seg]
  let x ← op [s, x]
  layerNorm x

/-- `bert_dense` and `ggml_reshape_4d`, bert.cpp:939-949 and roberta.cpp:661-671. -/
def project (x : Nat) : B Nat := do
  let q ← dense x
  op [q]

/-- `ggml_permute` and `ggml_cont`. -/
def permuteCont (q : Nat) : B Nat := do
  let q ← op [q]
  op [q]

/-- The attention block of a layer, bert.cpp:938-977 and roberta.cpp:660-699. -/
def attention (x : Nat) : B Nat := do
  let q ← project x
  let k ← project x
  let v ← project x
  let q ← permuteCont q
  let k ← permuteCont k
  let v ← permuteCont v
  let kq ← op [k, q]
  let sim ← op [kq]
  let res ← op [v, sim]
  let res ← permuteCont res
  let t ← leaf
  let res ← op [res, t]
  let res ← dense res
  let x ← op [x, res]
  layerNorm x

/-- The feed-forward block of a layer, bert.cpp:980-998 and roberta.cpp:702-720 (activation `gelu`; other activation
functions end the evaluation). -/
def feedForward (x : Nat) : B Nat := do
  let res ← dense x
  let res ← op [res]
  let res ← dense res
  let x ← op [x, res]
  layerNorm x

/-- The loop over the layers, bert.cpp:929-999 and roberta.cpp:651-721, for a model with `k` more layers. -/
def layerLoop (last : Int) : Nat → Nat → Nat → B Nat
  | _, 0, x => pure x
  | idx, k + 1, x =>
    if last ≤ (idx : Int) then pure x
    else do
      let x ← attention x
      let x ← feedForward x
      layerLoop last (idx + 1) k x

/-- The pooler, bert.cpp:1011-1041 and roberta.cpp:733-763 (for the pooling types that exist). -/
def pooler (poolType x : Nat) : B Nat :=
  if poolType = 0 then pure x
  else do
    let x ← op [x]
    let x ← dense x
    op [x]

/-- `build_graph`, bert.cpp:871-1048 and roberta.cpp:587-770: the number of the tensor `out`. -/
def build (nLayers : Nat) (last : Int) (poolType : Nat) : B Nat := do
  let x ← embeddings
  let x ← layerLoop last 0 nLayers x
  pooler poolType x

/-- `build_lm_graph`, bert.cpp:1050-1131 and roberta.cpp:772-834: the numbers of `lm_prob` and `lm_out`. -/
def buildLm : B (Nat × Nat) := do
  let x ← leaf
  let x ← op [x]
  let x ← dense x
  let x ← op [x]
  let x ← layerNorm x
  let x ← dense x
  let p ← op [x]
  let o ← op [p]
  pure (p, o)

/-! ## `ggml_build_forward_expand` -/

/-- `ggml_cgraph`: visited tensors, operations in the order of their computation, leafs. -/
structure Cgraph where
  visited : List Nat
  nodes : List Nat
  leafs : List Nat

def Cgraph.empty : Cgraph := ⟨[], [], []⟩

/-- `ggml_visit_parents`: the sources first, then the tensor itself; a full array is an assertion failure.  The first
number bounds the depth of the recursion.  (ggml also asserts that its table of
visited tensors, which has more than twice the size, does not overflow; that stops the same runs.) -/
def visit (g : List Node) (size : Nat) : Nat → Nat → Cgraph → Res Cgraph
  | 0, _, _ => .hang
  | f + 1, i, st =>
    if i ∈ st.visited then .ok st
    else
      match g[i]? with
      | none => .ub
      | some nd =>
        (nd.src.foldl (fun (r : Res Cgraph) j => r.bind (visit g size f j))
            (Res.ok { st with visited := i :: st.visited })).bind fun st =>
          if nd.leaf then
            if st.leafs.length < size then .ok { st with leafs := st.leafs ++ [i] } else .abort
          else
            if st.nodes.length < size then .ok { st with nodes := st.nodes ++ [i] } else .abort

/-- `GGML_DEFAULT_GRAPH_SIZE`, the size of the graphs of `ggml_new_graph`. -/
def graphSize : Nat := 2048

/-- `ggml_new_graph` and `ggml_build_forward_expand`, model_berts.hpp:161-169 and 282-290. -/
def expand (size : Nat) (g : List Node) (out : Nat) : Res Cgraph := visit g size g.length out .empty

end Berts.Nodes
