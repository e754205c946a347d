import Verif.Model.SizeT

/-! # Sizes in words -/

namespace Berts.SizeT

open Berts.Graph

/-- The word holds the number modulo 2^64. -/
def Mod (w : W) (x : Nat) : Prop := w.toNat = x % 2 ^ 64

/-- The words hold the constants of ggml, whose alignment is a power of two. -/
structure Consts (g : Gg) (k : Nat) (gw : GgW) : Prop where
  tensor : gw.tensorSize.toNat = g.tensorSize
  object : gw.objectSize.toNat = g.objectSize
  graph : gw.graph.toNat = g.graph
  small : k < 64
  align : g.align = 2 ^ k
  wordAlign : gw.align = BitVec.ofNat 64 (2 ^ k)

/-- Generous bounds for the constants of ggml (which are a few hundred bytes, and a few hundred kilobytes for
the graph). -/
structure SmallConsts (g : Gg) : Prop where
  tensor : g.tensorSize ≤ 2 ^ 20
  object : g.objectSize ≤ 2 ^ 20
  align : g.align ≤ 2 ^ 20
  graph : g.graph ≤ 2 ^ 40

/-- Generous bounds for a model: a thousand times those of the largest BERT models. -/
structure SmallModel (hp : HParams) : Prop where
  hidden : hp.hidden ≤ 2 ^ 20
  interm : hp.interm ≤ 2 ^ 22
  heads : hp.heads ≤ 2 ^ 14
  layers : hp.nLayers ≤ 2 ^ 10

end Berts.SizeT
