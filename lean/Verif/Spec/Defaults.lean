import Verif.Spec.Load

/-!
# Optional metadata

What the comments in keys.h say about optional keys, as predicates on a file and a value.
-/

namespace Berts.Load

open Berts.Vocab (ascii)

/-- The value of a boolean key: the first entry with that key. -/
def HasBool (g : Gguf) (k : String) (b : Bool) : Prop :=
  ∃ x y, g.kv = x ++ (ascii k, .bool b) :: y ∧ ∀ p ∈ x, p.1 ≠ ascii k

/-- A boolean key with the default `d`. -/
def OptBool (g : Gguf) (k : String) (d b : Bool) : Prop := HasBool g k b ∨ (NoKey g k ∧ b = d)

/-- The file gives no id: the key is absent or holds `BERTS_INVALID_TOKEN_ID`. -/
def NoId (g : Gguf) (k : String) : Prop := NoKey g k ∨ HasU32 g k INVALID

/-- `id` is the id of the first of `names` that is a token. -/
def FirstToken (toId : List Nat → Nat) (names : List String) (id : Nat) : Prop :=
  ∃ pre name post, names = pre ++ name :: post ∧ (∀ n ∈ pre, toId (ascii n) = INVALID) ∧
    toId (ascii name) = id ∧ id ≠ INVALID

/-- An id with a default: the id the file gives, or that of the first of `names` that is a token. -/
def OptId (g : Gguf) (k : String) (toId : List Nat → Nat) (names : List String) (id : Nat) : Prop :=
  (HasU32 g k id ∧ id ≠ INVALID) ∨ (NoId g k ∧ FirstToken toId names id)

/-- The metadata keys that mean something to the loader. -/
def knownKeys : List String :=
  ["general.architecture", "general.quantization_version", "general.alignment", "general.name", "general.author",
    "general.url", "general.description", "general.license", "general.file_type", "berts.bert_type",
    "berts.vocab_size", "berts.hidden_dim", "berts.n_layers", "berts.attn_heads", "berts.max_token",
    "berts.intermediate_dim", "berts.hidden_act", "berts.layer_norm_eps", "berts.segments",
    "berts.initializer_range", "berts.cls_id", "berts.mask_id", "berts.pad_id", "berts.sep_id", "berts.unk_id",
    "berts.bos_id", "berts.eos_id", "berts.do_lower_case", "berts.do_basic_tokenize",
    "berts.tokenize_chinese_chars", "berts.strip_accent"]

/-- Two files that agree but for metadata whose keys satisfy `skip`. -/
def SameBut (skip : List Nat → Prop) (g g' : Gguf) : Prop :=
  g.dir = g'.dir ∧ g.dataOffset = g'.dataOffset ∧
    ∃ l : List ((List Nat × Kv) × Bool × Bool),
      g.kv = (l.filter (·.2.1)).map (·.1) ∧ g'.kv = (l.filter (·.2.2)).map (·.1) ∧
      ∀ x ∈ l, ¬ skip x.1.1 → x.2.1 = true ∧ x.2.2 = true

end Berts.Load
