import Verif.Spec.Load
import Verif.Spec.EvalCalls
import Verif.Model.Loaded

/-!
# What a consistent model file is

Shapes of the tensors of a file in terms of its hyperparameters; written against the tensor directory.
-/

namespace Berts.Load

open Berts.Vocab (ascii decimal)
open Berts.Graph (T)

variable {α : Type}

/-- The tensors have the shape of the file; F32 (type 0) elements have 4 bytes. -/
structure ConvOk (conv : LT → T α) : Prop where
  ne0 : ∀ t, (conv t).ne0 = t.ne.getD 0 1
  ne1 : ∀ t, (conv t).ne1 = t.ne.getD 1 1
  ne2 : ∀ t, (conv t).ne2 = t.ne.getD 2 1
  ne3 : ∀ t, (conv t).ne3 = t.ne.getD 3 1
  contig : ∀ t, (conv t).contig = true
  esz : ∀ t, t.type = 0 → (conv t).esz = 4

/-- A directory entry of the given name is a matrix with rows of length `n0`, and `n1` rows. -/
def IsMatrix (g : Gguf) (name : List Nat) (n0 n1 : Nat) : Prop :=
  ∀ t ∈ g.dir, t.name = name → t.ne.getD 0 1 = n0 ∧ t.ne.getD 1 1 = n1 ∧ t.ne.getD 2 1 = 1 ∧ t.ne.getD 3 1 = 1

/-- A directory entry of the given name is a vector of F32. -/
def IsVector (g : Gguf) (name : List Nat) (n : Nat) : Prop :=
  ∀ t ∈ g.dir, t.name = name → (t.ne.getD 0 1 = n ∧ t.ne.getD 1 1 = 1 ∧ t.ne.getD 2 1 = 1 ∧ t.ne.getD 3 1 = 1) ∧
    t.type = 0

/-- The shapes of the tensors of encoder layer `i`. -/
def LayerShapes (g : Gguf) (hidden interm i : Nat) : Prop :=
  let p (s : String) : List Nat := ascii "berts.bert.encoder.layer." ++ decimal i ++ ascii ("." ++ s)
  (∀ s ∈ ["attention.self.query.weight", "attention.self.key.weight", "attention.self.value.weight",
    "attention.output.dense.weight"], IsMatrix g (p s) hidden hidden) ∧
  IsMatrix g (p "intermediate.dense.weight") hidden interm ∧
  IsMatrix g (p "output.dense.weight") interm hidden ∧
  (∀ s ∈ ["attention.self.query.bias", "attention.self.key.bias", "attention.self.value.bias",
    "attention.output.dense.bias", "attention.output.LayerNorm.weight", "attention.output.LayerNorm.bias",
    "output.dense.bias", "output.LayerNorm.weight", "output.LayerNorm.bias"], IsVector g (p s) hidden) ∧
  IsVector g (p "intermediate.dense.bias") interm

/-- The shapes of all tensors of a model with the given sizes: `V` tokens, `P` positions, `S` segments. -/
def Shapes (g : Gguf) (hidden interm layers V P S : Nat) : Prop :=
  let p (s : String) : List Nat := ascii ("berts.bert." ++ s)
  IsMatrix g (p "embeddings.word_embeddings.weight") hidden V ∧
  IsMatrix g (p "embeddings.position_embeddings.weight") hidden P ∧
  IsMatrix g (p "embeddings.token_type_embeddings.weight") hidden S ∧
  IsVector g (p "embeddings.LayerNorm.weight") hidden ∧ IsVector g (p "embeddings.LayerNorm.bias") hidden ∧
  IsMatrix g (p "pooler.dense.weight") hidden hidden ∧ IsVector g (p "pooler.dense.bias") hidden ∧
  ∀ i, i < layers → LayerShapes g hidden interm i

/-- A consistent file: shapes as the metadata say, the number of heads divides the hidden size,
there are enough segments, and not more layers than ggml's graph has room for (C86). -/
structure Consistent (g : Gguf) (V P S : Nat) : Prop where
  shapes : ∀ h i n, HasU32 g "berts.hidden_dim" h → HasU32 g "berts.intermediate_dim" i →
    HasU32 g "berts.n_layers" n → Shapes g h i n V P S
  hidden : ¬ HasU32 g "berts.hidden_dim" 0
  interm : ¬ HasU32 g "berts.intermediate_dim" 0
  heads : ∀ h a, HasU32 g "berts.hidden_dim" h → HasU32 g "berts.attn_heads" a → a ∣ h
  segments : ∀ n, HasSegments g n → n ≤ S
  layers : ∀ n, HasU32 g "berts.n_layers" n → n ≤ 44

end Berts.Load
