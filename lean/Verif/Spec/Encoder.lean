/-!
# Reference transformer encoder

Written with matrices as functions of feature and token, independently of tensors, memory pools and
views.  The arithmetic is arbitrary.
-/

namespace Berts.Spec

/-- The arithmetic used by the kernels.  `norm eps row i` (`eps` as the bits of a double) and `softmax scale row i` are the `i`-th
elements of the transformed row; `scale d` is `1.0f / sqrt((float)d)`; `one` is the scale of
`ggml_soft_max`; `argsort row i` is the index of the `i`-th largest element. -/
structure Arith (α : Type) where
  add : α → α → α
  mul : α → α → α
  dot : List α → List α → α
  norm : Nat → List α → Nat → α
  softmax : α → List α → Nat → α
  scale : Nat → α
  one : α
  gelu : α → α
  relu : α → α
  silu : α → α
  tanh : α → α
  avg : List α → α
  max : List α → α
  argsort : List α → Nat → Nat


variable {α : Type} (A : Arith α)

/-- A matrix: feature and token to element. -/
abbrev Mat (α : Type) := Nat → Nat → α

/-- The first `d` features of a token. -/
def col (d : Nat) (X : Mat α) (t : Nat) : List α := (List.range d).map (X · t)

/-- `W x + b`; `W k j` is the weight from feature `k` to feature `j`. -/
def dense (d : Nat) (W : Nat → Nat → α) (b : Nat → α) (X : Mat α) : Mat α :=
  fun j t => A.add (A.dot ((List.range d).map (W · j)) (col d X t)) (b j)

/-- Layer normalisation with gain `g` and bias `b`; `eps` is added to the variance. -/
def layerNorm (eps d : Nat) (g b : Nat → α) (X : Mat α) : Mat α :=
  fun i t => A.add (A.mul (g i) (A.norm eps (col d X t) i)) (b i)

/-- The sum of two matrices. -/
def madd (X Y : Mat α) : Mat α := fun i t => A.add (X i t) (Y i t)

/-- The features of head `h` (of size `d`). -/
def headPart (d h : Nat) (X : Mat α) (t : Nat) : List α := (List.range d).map fun i => X (h * d + i) t

/-- How much token `t` attends to token `s` in head `h`: softmax over `s` of the scaled products of
keys and query. -/
def attnWeight (d n h : Nat) (Q K : Mat α) (t s : Nat) : α :=
  A.softmax (A.scale d) ((List.range n).map fun s' => A.dot (headPart d h K s') (headPart d h Q t)) s

/-- Multi-head attention with heads of size `d` over `n` tokens: feature `j` belongs to head `j / d`;
its value is the weighted sum of that feature of the values. -/
def attend (d n : Nat) (Q K V : Mat α) : Mat α :=
  fun j t => A.dot ((List.range n).map (V j)) ((List.range n).map (attnWeight A d n (j / d) Q K t))

/-- Weights of a layer. -/
structure RefLayer (α : Type) where
  qw : Nat → Nat → α
  qb : Nat → α
  kw : Nat → Nat → α
  kb : Nat → α
  vw : Nat → Nat → α
  vb : Nat → α
  ffw : Nat → Nat → α
  ffb : Nat → α
  lnffw : Nat → α
  lnffb : Nat → α
  iw : Nat → Nat → α
  ib : Nat → α
  ow : Nat → Nat → α
  ob : Nat → α
  lnoutw : Nat → α
  lnoutb : Nat → α

/-- The attention half of a layer: attention, output projection, residual, normalisation. -/
def refAttention (eps hidden d n : Nat) (l : RefLayer α) (X : Mat α) : Mat α :=
  layerNorm A eps hidden l.lnffw l.lnffb
    (madd A X (dense A hidden l.ffw l.ffb
      (attend A d n (dense A hidden l.qw l.qb X) (dense A hidden l.kw l.kb X)
        (dense A hidden l.vw l.vb X))))

/-- The feed-forward half of a layer. -/
def refFeedForward (eps hidden interm : Nat) (l : RefLayer α) (X : Mat α) : Mat α :=
  layerNorm A eps hidden l.lnoutw l.lnoutb
    (madd A X (dense A interm l.ow l.ob (fun i t => A.gelu (dense A hidden l.iw l.ib X i t))))

/-- A layer. -/
def refLayer (eps hidden d n interm : Nat) (l : RefLayer α) (X : Mat α) : Mat α :=
  refFeedForward A eps hidden interm l (refAttention A eps hidden d n l X)

/-- The embedding layer: segment + (position + token), normalised. -/
def refEmbed (eps hidden : Nat) (tokE segE posE : Nat → Nat → α) (g b : Nat → α) (tok seg pos : Nat → Nat) :
    Mat α :=
  layerNorm A eps hidden g b (fun i t =>
    A.add (segE i (seg t)) (A.add (posE i (pos t)) (tokE i (tok t))))

/-- `layers` applied one after the other. -/
def refEncode (eps hidden d n interm : Nat) (layers : List (RefLayer α)) (X : Mat α) : Mat α :=
  layers.foldl (fun X l => refLayer A eps hidden d n interm l X) X

/-- Which vector goes into the pooling layer: 1 is the first token, 2 the average and 3 the maximum
over the `n` tokens, per feature. -/
def poolInput (poolType n : Nat) (X : Mat α) (i : Nat) : α :=
  match poolType with
  | 1 => X i 0
  | 2 => A.avg ((List.range n).map (X i))
  | _ => A.max ((List.range n).map (X i))

/-- The pooling layer: a dense layer and `tanh` applied to one vector. -/
def refPool (hidden : Nat) (W : Nat → Nat → α) (b : Nat → α) (x : Nat → α) : Nat → α :=
  fun j => A.tanh (dense A hidden W b (fun i _ => x i) j 0)

end Berts.Spec
