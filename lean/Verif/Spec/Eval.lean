import Verif.Model.Graph

/-!
# Reference semantics of an evaluation

Shapes the weights of a model file are expected to have, and the value of an evaluation in terms of
the reference encoder.
-/

namespace Berts.Graph

open Berts.Spec (Arith Mat RefLayer col)

variable {α : Type}

/-- A weight matrix from `d` to `d'` features, of any element type. -/
structure IsW (t : T α) (d d' : Nat) : Prop where
  ne0 : t.ne0 = d
  ne1 : t.ne1 = d'
  ne2 : t.ne2 = 1
  ne3 : t.ne3 = 1
  contig : t.contig = true

/-- A vector of `d` 4-byte elements (bias, gain). -/
structure IsVec (t : T α) (d : Nat) : Prop where
  ne0 : t.ne0 = d
  ne1 : t.ne1 = 1
  ne2 : t.ne2 = 1
  ne3 : t.ne3 = 1
  esz : t.esz = 4

/-- The rows of a weight tensor. -/
def wmat (t : T α) : Nat → Nat → α := fun i j => t.get i j 0 0
/-- The elements of a vector. -/
def wvec (t : T α) : Nat → α := fun i => t.get i 0 0 0

/-- A layer of the right shape. -/
structure LayerOK (l : Layer α) (hidden interm : Nat) : Prop where
  qw : IsW l.qw hidden hidden
  qb : IsVec l.qb hidden
  kw : IsW l.kw hidden hidden
  kb : IsVec l.kb hidden
  vw : IsW l.vw hidden hidden
  vb : IsVec l.vb hidden
  ffw : IsW l.ffw hidden hidden
  ffb : IsVec l.ffb hidden
  lnffw : IsVec l.lnffw hidden
  lnffb : IsVec l.lnffb hidden
  iw : IsW l.iw hidden interm
  ib : IsVec l.ib interm
  ow : IsW l.ow interm hidden
  ob : IsVec l.ob hidden
  lnoutw : IsVec l.lnoutw hidden
  lnoutb : IsVec l.lnoutb hidden

/-- The weights of a layer as functions. -/
def Layer.ref (l : Layer α) : RefLayer α where
  qw := wmat l.qw
  qb := wvec l.qb
  kw := wmat l.kw
  kb := wvec l.kb
  vw := wmat l.vw
  vb := wvec l.vb
  ffw := wmat l.ffw
  ffb := wvec l.ffb
  lnffw := wvec l.lnffw
  lnffb := wvec l.lnffb
  iw := wmat l.iw
  ib := wvec l.ib
  ow := wmat l.ow
  ob := wvec l.ob
  lnoutw := wvec l.lnoutw
  lnoutb := wvec l.lnoutb

/-- All weights have the shapes of the hyperparameters; the embedding tables have `V` tokens, `P`
positions and `S` segments. -/
structure WeightsOK (w : Weights α) (hp : HParams) (V P S : Nat) : Prop where
  tok : IsW w.tok hp.hidden V
  pos : IsW w.pos hp.hidden P
  seg : IsW w.seg hp.hidden S
  lnw : IsVec w.lnw hp.hidden
  lnb : IsVec w.lnb hp.hidden
  layers : ∀ l ∈ w.layers, LayerOK l hp.hidden hp.interm
  count : w.layers.length = hp.nLayers
  poolw : IsW w.poolw hp.hidden hp.hidden
  poolb : IsVec w.poolb hp.hidden

/-- All row numbers exist. -/
def RowsOK (V P S n : Nat) (tok seg pos : Nat → Int) : Prop :=
  (∀ i < n, 0 ≤ tok i ∧ tok i < V) ∧ (∀ i < n, 0 ≤ pos i ∧ pos i < P) ∧ (∀ i < n, 0 ≤ seg i ∧ seg i < S)

/-- The value of the graph for pooling type 0 (all rows) or 1, 2, 3 (one row). -/
def refOut (A : Arith α) (w : Weights α) (hidden poolType n : Nat) (X : Mat α) : Mat α :=
  if poolType = 0 then X
  else fun j _ => Spec.refPool A hidden (wmat w.poolw) (wvec w.poolb) (Spec.poolInput A poolType n X) j

/-- Number of rows of the result. -/
def outRows (poolType n : Nat) : Nat := if poolType = 0 then n else 1

/-- The hidden states after `L` layers. -/
def encoded (A : Arith α) (hp : HParams) (w : Weights α) (L : Nat) (tok seg pos : Nat → Nat) (n : Nat) :
    Mat α :=
  Spec.refEncode A hp.eps hp.hidden (hp.hidden / hp.heads) n hp.interm ((w.layers.take L).map Layer.ref)
    (Spec.refEmbed A hp.eps hp.hidden (wmat w.tok) (wmat w.seg) (wmat w.pos) (wvec w.lnw) (wvec w.lnb) tok seg pos)

/-- The reference value of an evaluation: `L` layers, then pooling. -/
def refEval (A : Arith α) (hp : HParams) (w : Weights α) (L poolType : Nat) (tok seg pos : Nat → Nat)
    (n : Nat) : Mat α :=
  refOut A w hp.hidden poolType n (encoded A hp w L tok seg pos n)

/-- Which value of the reference is the `k`-th of the output: token after token. -/
def flatten (hidden rows : Nat) (X : Mat α) : List α :=
  (List.range (hidden * rows)).map fun k => X (k % hidden) (k / hidden)

/-- The weights of the language model head have the right shapes. -/
structure LmOK (lm : LmWeights α) (hidden V : Nat) : Prop where
  dw : IsW lm.dw hidden hidden
  db : IsVec lm.db hidden
  lnw : IsVec lm.lnw hidden
  lnb : IsVec lm.lnb hidden
  decw : IsW lm.decw hidden V
  decb : IsVec lm.decb V

/-- The probabilities: dense layer, activation, normalisation, decoder, softmax. -/
def refLm (A : Arith α) (act : α → α) (lm : LmWeights α) (eps hidden V : Nat) (X : Mat α) : Mat α :=
  fun i t => A.softmax A.one (col V (Spec.dense A hidden (wmat lm.decw) (wvec lm.decb)
    (Spec.layerNorm A eps hidden (wvec lm.lnw) (wvec lm.lnb)
      (fun i t => act (Spec.dense A hidden (wmat lm.dw) (wvec lm.db) X i t)))) t) i


end Berts.Graph
