import Verif.Model.Load

/-!
# Specification for loading

Written against the file (directory, metadata, bytes) and the loaded weights only.
-/

namespace Berts.Load

open Berts.Vocab (ascii decimal)
open Berts.Graph (T Layer LmWeights Weights Gg)

variable {α : Type}

/-- All data bytes of a directory entry are in the file. -/
def Complete (g : Gguf) (bytes : List Nat) (t : TInfo) : Prop :=
  ∀ j, j < t.nbytes → g.dataOffset + t.offset + j < bytes.length

/-- Names are distinct and short enough for ggml. -/
def NamesOk (g : Gguf) : Prop := (g.dir.map (·.name)).Nodup ∧ ∀ t ∈ g.dir, t.name.length < 64

/-- File offsets fit a `std::streamoff`. -/
def OffsetsOk (g : Gguf) : Prop := ∀ t ∈ g.dir, g.dataOffset + t.offset < 2 ^ 63

/-- Bytes needed in a ggml context by the tensors of a directory: an object header and a tensor header
each, and data rounded up to the alignment. -/
def needed (gg : Gg) : List TInfo → Nat
  | [] => 0
  | t :: ts => gg.objectSize + gg.tensorSize + (t.nbytes + gg.align - 1) / gg.align * gg.align + needed gg ts

/-- The tensors of an encoder layer, by name in the checkpoint. -/
def LayerNamed (at_ : List Nat → Option (T α)) (n : Nat) (l : Layer α) : Prop :=
  let p (s : String) : List Nat := ascii "berts.bert.encoder.layer." ++ decimal n ++ ascii ("." ++ s)
  at_ (p "attention.self.query.weight") = some l.qw ∧ at_ (p "attention.self.query.bias") = some l.qb ∧
  at_ (p "attention.self.key.weight") = some l.kw ∧ at_ (p "attention.self.key.bias") = some l.kb ∧
  at_ (p "attention.self.value.weight") = some l.vw ∧ at_ (p "attention.self.value.bias") = some l.vb ∧
  at_ (p "attention.output.dense.weight") = some l.ffw ∧ at_ (p "attention.output.dense.bias") = some l.ffb ∧
  at_ (p "attention.output.LayerNorm.weight") = some l.lnffw ∧
  at_ (p "attention.output.LayerNorm.bias") = some l.lnffb ∧
  at_ (p "intermediate.dense.weight") = some l.iw ∧ at_ (p "intermediate.dense.bias") = some l.ib ∧
  at_ (p "output.dense.weight") = some l.ow ∧ at_ (p "output.dense.bias") = some l.ob ∧
  at_ (p "output.LayerNorm.weight") = some l.lnoutw ∧ at_ (p "output.LayerNorm.bias") = some l.lnoutb

/-- The tensors of the language-model head, by name. -/
def LmNamed (at_ : List Nat → Option (T α)) (l : LmWeights α) : Prop :=
  let p (s : String) : List Nat := ascii ("berts.bert.predictions." ++ s)
  at_ (p "transform.dense.weight") = some l.dw ∧ at_ (p "transform.dense.bias") = some l.db ∧
  at_ (p "transform.LayerNorm.weight") = some l.lnw ∧ at_ (p "transform.LayerNorm.bias") = some l.lnb ∧
  at_ (p "decoder.weight") = some l.decw ∧ at_ (p "decoder.bias") = some l.decb

/-- The weights of a model with `n` layers, by name; the language-model head is there if and only if all
of its tensors are. -/
def Named (at_ : List Nat → Option (T α)) (n : Nat) (w : Weights α) : Prop :=
  let p (s : String) : List Nat := ascii ("berts.bert." ++ s)
  at_ (p "embeddings.word_embeddings.weight") = some w.tok ∧
  at_ (p "embeddings.token_type_embeddings.weight") = some w.seg ∧
  at_ (p "embeddings.position_embeddings.weight") = some w.pos ∧
  at_ (p "embeddings.LayerNorm.weight") = some w.lnw ∧ at_ (p "embeddings.LayerNorm.bias") = some w.lnb ∧
  at_ (p "pooler.dense.weight") = some w.poolw ∧ at_ (p "pooler.dense.bias") = some w.poolb ∧
  w.layers.length = n ∧ (∀ i l, w.layers[i]? = some l → LayerNamed at_ i l) ∧
  (∀ l, w.lm = some l ↔ LmNamed at_ l)

/-- Names of the tensors every model needs. -/
def requiredNames (n : Nat) : List (List Nat) :=
  ["embeddings.word_embeddings.weight", "embeddings.token_type_embeddings.weight",
    "embeddings.position_embeddings.weight", "embeddings.LayerNorm.weight", "embeddings.LayerNorm.bias",
    "pooler.dense.weight", "pooler.dense.bias"].map (fun s => ascii ("berts.bert." ++ s)) ++
  (List.range n).flatMap fun i =>
    ["attention.self.query", "attention.self.key", "attention.self.value", "attention.output.dense",
      "attention.output.LayerNorm", "intermediate.dense", "output.dense", "output.LayerNorm"].flatMap fun s =>
      [ascii "berts.bert.encoder.layer." ++ decimal i ++ ascii ("." ++ s ++ ".weight"),
        ascii "berts.bert.encoder.layer." ++ decimal i ++ ascii ("." ++ s ++ ".bias")]

/-- The value of a u32 metadata key: the first entry with that key. -/
def HasU32 (g : Gguf) (k : String) (n : Nat) : Prop :=
  ∃ a b, g.kv = a ++ (ascii k, .u32 n) :: b ∧ ∀ p ∈ a, p.1 ≠ ascii k

/-- A metadata key is absent. -/
def NoKey (g : Gguf) (k : String) : Prop := ∀ p ∈ g.kv, p.1 ≠ ascii k

/-- The value of a float metadata key: the first entry with that key. -/
def HasF64 (g : Gguf) (k : String) (n : Nat) : Prop :=
  ∃ a b, g.kv = a ++ (ascii k, .f64 n) :: b ∧ ∀ p ∈ a, p.1 ≠ ascii k

/-- The number of segments: the value of the key, or 2. -/
def HasSegments (g : Gguf) (n : Nat) : Prop :=
  HasU32 g "berts.segments" n ∨ (NoKey g "berts.segments" ∧ n = 2)

/-- The bits of the double next to the fraction `num / den`, for a normal number of at most 53 bits before
the point. -/
def NearestDouble (num den bits : Nat) : Prop :=
  let m := 2 ^ 52 + bits % 2 ^ 52
  let e := 1075 - bits / 2 ^ 52
  bits / 2 ^ 52 ≤ 1075 ∧ 2 * (m * den) ≤ 2 * (num * 2 ^ e) + den ∧ 2 * (num * 2 ^ e) ≤ 2 * (m * den) + den

instance (num den bits : Nat) : Decidable (NearestDouble num den bits) := by unfold NearestDouble; infer_instance

/-- An optional float: the value of the key, or the double next to `num / den`. -/
def OptF64 (g : Gguf) (k : String) (num den n : Nat) : Prop :=
  HasF64 g k n ∨ (NoKey g k ∧ NearestDouble num den n)

/-- The metadata keys without which loading stops the process. -/
def mandatory : List String :=
  ["general.file_type", "berts.bert_type", "berts.vocab_size", "berts.hidden_dim", "berts.n_layers",
    "berts.attn_heads", "berts.max_token", "berts.intermediate_dim", "berts.hidden_act"]

end Berts.Load
