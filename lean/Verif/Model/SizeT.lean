import Verif.Model.Graph

/-!
# The size estimates in `size_t`

`Model/Graph.lean` computes sizes with natural numbers.  Here the same functions are written with the
64-bit words of the code, whose sums and products wrap around.  The constants of ggml and the padding
macro (`GGML_PAD(x, n)` is `((x) + (n) - 1) & ~((n) - 1)`) are those of ggml.h, which is not part of the
repository.
-/

namespace Berts.SizeT

open Berts.Graph (HParams)

/-- `size_t`. -/
abbrev W := BitVec 64

/-- The constants of ggml as words. -/
structure GgW where
  tensorSize : W
  objectSize : W
  align : W
  graph : W

/-- `GGML_PAD`. -/
def padW (x n : W) : W := (x + n - 1) &&& ~~~(n - 1)

/-- `get_data_size`, ggml.hpp:76-82; `tsz` is `ggml_type_size(type)`, `blck` is `ggml_blck_size(type)`. -/
def dataSizeW (tsz blck ne0 ne1 ne2 ne3 : W) : W :=
  let size := tsz * (ne0 / blck)
  let size := size * ne1
  let size := size * ne2
  size * ne3

/-- `get_tensor_size`, ggml.hpp:84-90, for the types `F32` and `I32`. -/
def tensorSizeW (g : GgW) (ne0 : W) (ne1 : W := 1) (ne2 : W := 1) (ne3 : W := 1) : W :=
  let size := dataSizeW 4 1 ne0 ne1 ne2 ne3
  let size := size + g.tensorSize
  let size := padW size g.align
  size + g.objectSize

/-- `ggml_size_info`, ggml.hpp:14-18. -/
structure SizeInfoW where
  emb : W := 0
  layer : W := 0
  pooler : W := 0
  graph : W := 0

/-- `ggml_size_info::layers`, ggml.hpp:20-22. -/
def SizeInfoW.layers (s : SizeInfoW) (n : W) : W := s.layer * n

/-- `ggml_size_info::calc`, ggml.hpp:24-26. -/
def SizeInfoW.calc (s : SizeInfoW) (n : W) : W := s.emb + s.layers n + s.pooler + s.graph

/-- `size.emb`, bert.cpp:665-683 and roberta.cpp:396-414. -/
def embW (g : GgW) (hidden n : W) : W :=
  let emb := tensorSizeW g n * 3
  let emb := emb + tensorSizeW g hidden n * 3
  let emb := emb + tensorSizeW g hidden n * 2
  emb + tensorSizeW g hidden n * 5

/-- `size.layer`, bert.cpp:690-765 and roberta.cpp:421-496. -/
def layerW (g : GgW) (hidden heads interm n : W) : W :=
  let s := tensorSizeW g hidden n
  let i := tensorSizeW g interm n
  let v := tensorSizeW g 0
  let layer := (s + s + s + v + s + v) * 3
  let layer := layer + tensorSizeW g n n heads * 2
  let layer := layer + s
  let layer := layer + (v + s)
  let layer := layer + (v + s)
  let layer := layer + (s + s + s)
  let layer := layer + s
  let layer := layer + s * 5
  let layer := layer + (i + i + i)
  let layer := layer + i
  let layer := layer + (s + s + s)
  let layer := layer + s
  layer + s * 5

/-- `size.pooler`, bert.cpp:771-797 and roberta.cpp:502-528. -/
def poolerW (g : GgW) (hidden : W) (poolType : Nat) : W :=
  if poolType = 0 then 0
  else
    let p := match poolType with
      | 1 => tensorSizeW g 0
      | 2 => tensorSizeW g hidden
      | 3 => tensorSizeW g hidden
      | _ => 0
    let p := p + (tensorSizeW g hidden + tensorSizeW g hidden + tensorSizeW g hidden)
    p + tensorSizeW g hidden

/-- `get_context_buffer_size`, bert.cpp:648-800 and roberta.cpp:379-531.  The hyperparameters are
converted from `int64_t` to `size_t`. -/
def bufferSizeW (g : GgW) (hp : HParams) (poolType : Nat) (n : W) : SizeInfoW where
  emb := embW g (.ofNat 64 hp.hidden) n
  layer := if BitVec.ofNat 64 hp.nLayers ≠ 0 then
    layerW g (.ofNat 64 hp.hidden) (.ofNat 64 hp.heads) (.ofNat 64 hp.interm) n else 0
  pooler := poolerW g (.ofNat 64 hp.hidden) poolType
  graph := g.graph

/-- `get_context_buffer_size_for_lm`, bert.cpp:802-869 and roberta.cpp:533-585. -/
def lmBufferSizeW (g : GgW) (isBert : Bool) (hp : HParams) (vocabCount n : W) : Res SizeInfoW :=
  if isBert && decide (3 < hp.act) then .abort
  else
    let hidden : W := .ofNat 64 hp.hidden
    let s := tensorSizeW g hidden n
    let v := tensorSizeW g vocabCount n
    let emb := tensorSizeW g (n * hidden)
    let emb := emb + tensorSizeW g 0
    let emb := emb + (s + s + s)
    let emb := emb + s
    let emb := emb + s * 5
    let emb := emb + (v + v + v)
    let emb := emb + v
    let emb := emb + v
    .ok { emb := emb, graph := g.graph }

end Berts.SizeT
