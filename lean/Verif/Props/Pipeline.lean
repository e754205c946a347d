import Verif.Proofs.Loaded
import Verif.Props.Eval
import Verif.Props.Loaded

/-! # Properties C73, C74: from a file to an evaluation, from a text to an evaluation -/

namespace Berts.Props

open Berts.Load
open Berts.Vocab (ascii decimal VocabT Special Holds)
open Berts.Graph (T Gg)
open Berts.Eval (EModel ECtx Accepted RowsExist expected Fits layersOf bertsEval refPos robertaPos)
open Berts.Spec (Arith)

variable {α : Type}

/-! ## C73 -/

theorem loaded_fits {w : World α} {c : Ctx α} {l : Ledger} {g : Gguf} {bytes : List Nat}
    (h : load w = .ok (some c, l)) (hg : w.gguf = some g) (hf : w.file = some bytes) (hn : NamesOk g)
    (ho : ∀ t ∈ g.dir, g.dataOffset + t.offset < 2 ^ 64) (hc : ConvOk w.conv) {V P S : Nat}
    (hcons : Consistent g V P S) (hV : V ≤ 2 ^ 31) (hP : P < 2 ^ 31) (hS : S ≤ 2 ^ 31) {tokens : List Nat}
    (htok : ∀ t ∈ tokens, t < V)
    (hpos : if c.hp.arch = 0 then c.hp.hp.maxTokens ≤ P else c.vocab.padId + tokens.length < P)
    (hlen : tokens.length ≤ c.hp.hp.maxTokens) :
    Fits (emodel c) V P S tokens ∧ RowsExist (emodel c) V P tokens := by
  obtain ⟨h1, h2, h3⟩ := model_ok h hg hf hn ho hc hcons
  by_cases ha : c.hp.arch = 0
  · rw [if_pos ha] at hpos
    have hb : (emodel c).isBert = true := by simp [emodel, ha]
    refine ⟨⟨⟨h1, hV, by omega, hS, h2, by omega, ?_, fun t ht => by have := htok t ht; omega⟩, h3⟩, htok, ?_⟩
    · rw [hb, if_pos rfl]; omega
    · intro t ht
      simp only [refPos, hb, if_true]
      omega
  · rw [if_neg ha] at hpos
    have hb : (emodel c).isBert = false := by simp [emodel, ha]
    refine ⟨⟨⟨h1, hV, by omega, hS, h2, by omega, ?_, fun t ht => by have := htok t ht; omega⟩, h3⟩, htok, ?_⟩
    · rw [hb, if_neg (by simp)]
      show c.vocab.padId + tokens.length < 2 ^ 31
      omega
    · intro t ht
      simp only [refPos, hb, Bool.false_eq_true, if_false, robertaPos]
      have h3 : (tokens.take (t + 1)).countP (· ≠ (emodel c).padId) ≤ tokens.length :=
        Nat.le_trans List.countP_le_length (by simp; omega)
      have h4 : (emodel c).padId = c.vocab.padId := rfl
      split <;> omega

/-- C73 (partial: the file must be consistent, which loading does not check): a model loaded from a
consistent file evaluates every accepted input whose rows exist, and gives the reference value. -/
theorem C73_consistent_partial {w : World α} {c : Ctx α} {l : Ledger} {g : Gguf} {bytes : List Nat}
    (h : load w = .ok (some c, l)) (hg : w.gguf = some g) (hf : w.file = some bytes) (hn : NamesOk g)
    (ho : ∀ t ∈ g.dir, g.dataOffset + t.offset < 2 ^ 64) (hc : ConvOk w.conv) (V P S : Nat)
    (hcons : Consistent g V P S) (hV : V ≤ 2 ^ 31) (hP : P < 2 ^ 31) (hS : S ≤ 2 ^ 31) (tokens : List Nat)
    (segs : Option (List Nat)) (poolType : Nat)
    (ha : Accepted (emodel c) tokens (segs.getD (tokens.map fun _ => 0)) poolType)
    (h0 : 0 < tokens.length) (htok : ∀ t ∈ tokens, t < V)
    (hpos : if c.hp.arch = 0 then c.hp.hp.maxTokens ≤ P else c.vocab.padId + tokens.length < P)
    (L : Int) (h1 : -(c.hp.hp.nLayers : Int) ≤ L) (h2 : L ≤ c.hp.hp.nLayers) (A : Arith α) (gg : Gg)
    (buf : List α) (hb : buf.length = c.hp.hp.hidden * (if poolType = 0 then tokens.length else 1)) :
    bertsEval A gg (some ⟨some (emodel c)⟩) tokens segs (some (L, poolType)) (some buf) (some buf.length) =
      .ok (true, some (expected A (emodel c) (layersOf c.hp.hp.nLayers L) poolType tokens
        (segs.getD (tokens.map fun _ => 0))), some buf.length) := by
  obtain ⟨hfit, hr⟩ := loaded_fits h hg hf hn ho hc hcons hV hP hS htok hpos ha.count
  have hv := Eval.eval_value (A := A) (g := gg) hfit.toShaped ha h0 hr L h1 h2
    (Nat.le_trans (Eval.layersOf_le h1 h2) hfit.depth) buf buf.length (Nat.le_refl _)
  rw [(C40_api A gg (emodel c) tokens segs (some buf)).1 L poolType buf.length _ hv]
  have hlen : (expected A (emodel c) (layersOf (emodel c).hp.nLayers L) poolType tokens
      (segs.getD (tokens.map fun _ => 0))).length = buf.length := by
    simp only [expected, Graph.flatten, Graph.outRows]
    rw [hb]
    simp [emodel]
  have hb' : (emodel c).hp.hidden * Graph.outRows poolType tokens.length = buf.length := hb.symm
  simp only [hb', Nat.min_self, List.drop_length, List.append_nil]
  rw [List.take_of_length_le (by omega)]
  rfl

/-- C73, in one step (partial: as before): opening a consistent file and evaluating an accepted input gives the reference
value; if the file cannot be loaded, evaluating fails and leaves the outputs alone. -/
theorem C73_load_eval_partial {w : World α} {g : Gguf} {bytes : List Nat} (hg : w.gguf = some g)
    (hf : w.file = some bytes) (hn : NamesOk g) (ho : ∀ t ∈ g.dir, g.dataOffset + t.offset < 2 ^ 64) (hc : ConvOk w.conv)
    (V P S : Nat) (hcons : Consistent g V P S) (hV : V ≤ 2 ^ 31) (hP : P < 2 ^ 31) (hS : S ≤ 2 ^ 31) (A : Arith α) (gg : Gg)
    (tokens : List Nat) (segs : Option (List Nat)) (poolType : Nat) (L : Int) (buf : List α) :
    (∀ c l, load w = .ok (some c, l) → Accepted (emodel c) tokens (segs.getD (tokens.map fun _ => 0)) poolType →
      0 < tokens.length → (∀ t ∈ tokens, t < V) →
      (if c.hp.arch = 0 then c.hp.hp.maxTokens ≤ P else c.vocab.padId + tokens.length < P) →
      -(c.hp.hp.nLayers : Int) ≤ L → L ≤ c.hp.hp.nLayers →
      buf.length = c.hp.hp.hidden * (if poolType = 0 then tokens.length else 1) →
      loadEval A gg w tokens segs (some (L, poolType)) (some buf) (some buf.length) =
        .ok (true, some (expected A (emodel c) (layersOf c.hp.hp.nLayers L) poolType tokens
          (segs.getD (tokens.map fun _ => 0))), some buf.length)) ∧
    ∀ l, load w = .ok (none, l) →
      loadEval A gg w tokens segs (some (L, poolType)) (some buf) (some buf.length) =
        .ok (false, some buf, some buf.length) := by
  refine ⟨fun c l h ha h0 htok hpos h1 h2 hb => ?_, fun l h => ?_⟩
  · unfold loadEval
    rw [h]
    exact C73_consistent_partial h hg hf hn ho hc V P S hcons hV hP hS tokens segs poolType ha h0 htok hpos L h1 h2 A gg buf hb
  · unfold loadEval
    rw [h]
    rfl

/-- C72: `berts_arch` of a loaded model is the architecture in the file, and vocabulary and tokenizer are those of this
architecture. -/
theorem C72_arch {w : World α} {c : Ctx α} {l : Ledger} {g : Gguf} (h : load w = .ok (some c, l))
    (hg : w.gguf = some g) (u : Bert.Icu) (e : Roberta.Env) (setOrder : List (List Nat) → List (List Nat)) :
    (HasU32 g "berts.bert_type" 0 ∧ Api.bertsArch (some (apiCtx u e setOrder c)) = .bert ∧
      ∃ v sp o, c.vocab = .bert v sp o) ∨
    (HasU32 g "berts.bert_type" 1 ∧ Api.bertsArch (some (apiCtx u e setOrder c)) = .roberta ∧
      ∃ r, c.vocab = .roberta r) := by
  obtain ⟨g0, _, n, hg0, _, _, harch, _, _, _, _, ⟨ha, _⟩, _, hv⟩ := C57_supported h
  rw [hg] at hg0
  cases hg0
  unfold vocabInit at hv
  obtain ⟨r, _, hv⟩ := Handle.res_inv hv
  cases r with
  | none => cases hv
  | some v =>
    simp only at hv
    rcases harch with h0 | h0
    · have ea : c.hp.arch = 0 := by
        have h1 := (u32_iff _ _ _).2 ha
        rw [(u32_iff _ _ _).2 h0] at h1
        injection h1 with h1
        exact h1.symm
      rw [if_pos ea] at hv
      refine .inl ⟨h0, by simp [Api.bertsArch, apiCtx, archOf, ea], ?_⟩
      unfold bertInit at hv
      obtain ⟨m, _, hv⟩ := Handle.res_inv hv
      split at hv
      · cases hv
      · obtain ⟨o, _, hv⟩ := Handle.res_inv hv
        injection hv with hv
        rw [Option.map_eq_some_iff] at hv
        obtain ⟨sp, _, hv⟩ := hv
        exact ⟨_, _, _, hv.symm⟩
    · have ea : c.hp.arch = 1 := by
        have h1 := (u32_iff _ _ _).2 ha
        rw [(u32_iff _ _ _).2 h0] at h1
        injection h1 with h1
        exact h1.symm
      rw [if_neg (by omega)] at hv
      refine .inr ⟨h0, by simp [Api.bertsArch, apiCtx, archOf, ea], ?_⟩
      unfold robertaInit at hv
      obtain ⟨m, _, hv⟩ := Handle.res_inv hv
      obtain ⟨r, _, hv⟩ := Handle.res_inv hv
      injection hv with hv
      rw [Option.map_eq_some_iff] at hv
      obtain ⟨r, _, hv⟩ := hv
      exact ⟨r, hv.symm⟩

/-! A small file: hidden size 1, no layers, three tokens, four positions, two segments. -/

/-- The directory, with the given number of rows of the token and position tables and the length of the
bias of the layer normalisation. -/
def pipeDir (V P lnb : Nat) : List TInfo :=
  [⟨ascii "berts.vocab.size", 1, [3], 16, 3, 0⟩, ⟨ascii "berts.vocab.data", 1, [4], 16, 4, 3⟩,
    ⟨ascii "berts.bert.embeddings.word_embeddings.weight", 2, [1, V], 16, V, 7⟩,
    ⟨ascii "berts.bert.embeddings.token_type_embeddings.weight", 2, [1, 2], 16, 2, 10⟩,
    ⟨ascii "berts.bert.embeddings.position_embeddings.weight", 2, [1, P], 16, P, 12⟩,
    ⟨ascii "berts.bert.embeddings.LayerNorm.weight", 1, [1], 0, 4, 16⟩,
    ⟨ascii "berts.bert.embeddings.LayerNorm.bias", 1, [lnb], 0, 4 * lnb, 20⟩,
    ⟨ascii "berts.bert.pooler.dense.weight", 2, [1, 1], 16, 1, 28⟩,
    ⟨ascii "berts.bert.pooler.dense.bias", 1, [1], 0, 4, 29⟩]

/-- The metadata. -/
def pipeKv (heads cls : Nat) : List (List Nat × Kv) :=
  [("general.file_type", 0), ("berts.bert_type", 0), ("berts.vocab_size", 3), ("berts.hidden_dim", 1),
    ("berts.n_layers", 0), ("berts.attn_heads", heads), ("berts.max_token", 4), ("berts.intermediate_dim", 1),
    ("berts.hidden_act", 0), ("berts.cls_id", cls), ("berts.mask_id", 0), ("berts.pad_id", 0), ("berts.sep_id", 1),
    ("berts.unk_id", 2)].map fun p => (ascii p.1, Kv.u32 p.2)

/-- Vocabulary `a`, `##`, `b`; then the weights. -/
def pipeBytes : List Nat :=
  [0, 0, 0, 1, 2, 1, 97, 35, 35, 98, 5, 6, 7, 1, 2, 1, 2, 3, 4, 2, 0, 0, 0, 3, 0, 0, 0, 4, 0, 0, 0, 9, 1, 0, 0, 0]

/-- Elements of a tensor (integers instead of floats). -/
def pipeConv (t : LT) : T Int :=
  ⟨t.ne.getD 0 1, t.ne.getD 1 1, t.ne.getD 2 1, t.ne.getD 3 1, if t.type = 0 then 4 else 1, true,
    fun i j _ _ => t.data.getD ((if t.type = 0 then 4 else 1) * (i + t.ne.getD 0 1 * j)) 0⟩

theorem pipeConv_ok : ConvOk pipeConv :=
  ⟨fun _ => rfl, fun _ => rfl, fun _ => rfl, fun _ => rfl, fun _ => rfl, fun t h => by simp [pipeConv, h]⟩

def pipeGguf (heads cls V P lnb : Nat) : Gguf := ⟨pipeKv heads cls, pipeDir V P lnb, 3⟩

def pipeWorld (heads cls V P lnb : Nat) : World Int :=
  ⟨some (pipeGguf heads cls V P lnb), fun _ => true, some pipeBytes, fun _ _ => 0, pipeConv, loadGg, true, id⟩

/-- The call on the tokens 0, 2, 1 of the file, with the last layer and average pooling. -/
def pipeEval (heads cls V P lnb : Nat) (tokens : List Nat) : Res (Bool × Option (List Int) × Option Nat) :=
  loadEval tinyA tinyG (pipeWorld heads cls V P lnb) tokens none (some (0, 2)) (some [0]) (some 1)

/-- What an evaluation of the small file with the given sizes does. -/
theorem pipe_eval : pipeEval 1 0 3 4 1 [0, 2, 1] = .ok (true, some [28], some 1) := by decide +kernel

theorem pipe_load : ∃ c l, load (pipeWorld 1 0 3 4 1) = .ok (some c, l) ∧ c.hp.arch = 0 ∧ c.hp.hp.nLayers = 0 ∧
    c.hp.hp.maxTokens = 4 ∧ c.hp.hp.hidden = 1 ∧ c.hp.hp.segments = 2 := by
  have h : (match load (pipeWorld 1 0 3 4 1) with
    | .ok (some c, _) => decide (c.hp.arch = 0 ∧ c.hp.hp.nLayers = 0 ∧ c.hp.hp.maxTokens = 4 ∧
        c.hp.hp.hidden = 1 ∧ c.hp.hp.segments = 2)
    | _ => false) = true := by decide +kernel
  split at h
  · rename_i c l e
    exact ⟨c, l, e, by simpa using h⟩
  · cases h

theorem pipe_names : NamesOk (pipeGguf 1 0 3 4 1) := by
  have h : ((pipeDir 3 4 1).map (·.name)).Nodup ∧ ∀ t ∈ pipeDir 3 4 1, t.name.length < 64 := by decide +kernel
  exact h

theorem pipe_offsets : ∀ t ∈ (pipeGguf 1 0 3 4 1).dir, (pipeGguf 1 0 3 4 1).dataOffset + t.offset < 2 ^ 64 := by
  have h : ∀ t ∈ pipeDir 3 4 1, 3 + t.offset < 2 ^ 64 := by decide +kernel
  exact h

theorem pipe_u32 {k : String} {n m : Nat} (h : HasU32 (pipeGguf 1 0 3 4 1) k n)
    (hk : u32 (pipeGguf 1 0 3 4 1) k = .ok m) : n = m := by
  have := (u32_iff _ _ _).2 h
  rw [hk] at this
  cases this
  rfl

theorem pipe_consistent : Consistent (pipeGguf 1 0 3 4 1) 3 4 2 := by
  refine ⟨?_, ?_, ?_, ?_, ?_, ?_⟩
  · intro h i n hh hi hn
    have hh := pipe_u32 (m := 1) hh (by decide +kernel)
    have hi := pipe_u32 (m := 1) hi (by decide +kernel)
    have hn := pipe_u32 (m := 0) hn (by decide +kernel)
    subst hh hi hn
    refine ⟨?_, ?_, ?_, ?_, ?_, ?_, ?_, fun i hi => by omega⟩
    · have : ∀ t ∈ pipeDir 3 4 1, t.name = ascii ("berts.bert." ++ "embeddings.word_embeddings.weight") → t.ne.getD 0 1 = 1 ∧ t.ne.getD 1 1 = 3 ∧ t.ne.getD 2 1 = 1 ∧ t.ne.getD 3 1 = 1 := by decide +kernel
      exact this
    · have : ∀ t ∈ pipeDir 3 4 1, t.name = ascii ("berts.bert." ++ "embeddings.position_embeddings.weight") → t.ne.getD 0 1 = 1 ∧ t.ne.getD 1 1 = 4 ∧ t.ne.getD 2 1 = 1 ∧ t.ne.getD 3 1 = 1 := by decide +kernel
      exact this
    · have : ∀ t ∈ pipeDir 3 4 1, t.name = ascii ("berts.bert." ++ "embeddings.token_type_embeddings.weight") → t.ne.getD 0 1 = 1 ∧ t.ne.getD 1 1 = 2 ∧ t.ne.getD 2 1 = 1 ∧ t.ne.getD 3 1 = 1 := by decide +kernel
      exact this
    · have : ∀ t ∈ pipeDir 3 4 1, t.name = ascii ("berts.bert." ++ "embeddings.LayerNorm.weight") → (t.ne.getD 0 1 = 1 ∧ t.ne.getD 1 1 = 1 ∧ t.ne.getD 2 1 = 1 ∧ t.ne.getD 3 1 = 1) ∧ t.type = 0 := by decide +kernel
      exact this
    · have : ∀ t ∈ pipeDir 3 4 1, t.name = ascii ("berts.bert." ++ "embeddings.LayerNorm.bias") → (t.ne.getD 0 1 = 1 ∧ t.ne.getD 1 1 = 1 ∧ t.ne.getD 2 1 = 1 ∧ t.ne.getD 3 1 = 1) ∧ t.type = 0 := by decide +kernel
      exact this
    · have : ∀ t ∈ pipeDir 3 4 1, t.name = ascii ("berts.bert." ++ "pooler.dense.weight") → t.ne.getD 0 1 = 1 ∧ t.ne.getD 1 1 = 1 ∧ t.ne.getD 2 1 = 1 ∧ t.ne.getD 3 1 = 1 := by decide +kernel
      exact this
    · have : ∀ t ∈ pipeDir 3 4 1, t.name = ascii ("berts.bert." ++ "pooler.dense.bias") → (t.ne.getD 0 1 = 1 ∧ t.ne.getD 1 1 = 1 ∧ t.ne.getD 2 1 = 1 ∧ t.ne.getD 3 1 = 1) ∧ t.type = 0 := by decide +kernel
      exact this
  · intro h
    have := pipe_u32 (m := 1) h (by decide +kernel)
    omega
  · intro h
    have := pipe_u32 (m := 1) h (by decide +kernel)
    omega
  · intro h a h1 h2
    have h1 := pipe_u32 (m := 1) h1 (by decide +kernel)
    have h2 := pipe_u32 (m := 1) h2 (by decide +kernel)
    subst h1 h2
    exact Nat.dvd_refl 1
  · intro n h
    rcases h with h | h
    · have h := (u32_iff _ _ _).2 h
      have : u32 (pipeGguf 1 0 3 4 1) "berts.segments" = .abort := by decide +kernel
      rw [this] at h
      cases h
    · omega
  · intro n h
    have := pipe_u32 (m := 0) h (by decide +kernel)
    omega

/-- The hypotheses of `C73_consistent_partial` can be met. -/
example : ∃ (c : Ctx Int) (l : Ledger), load (pipeWorld 1 0 3 4 1) = .ok (some c, l) ∧
    NamesOk (pipeGguf 1 0 3 4 1) ∧ Consistent (pipeGguf 1 0 3 4 1) 3 4 2 ∧ ConvOk pipeConv ∧
    Accepted (emodel c) [0, 2, 1] [0, 1, 0] 2 ∧ c.hp.arch = 0 ∧ c.hp.hp.maxTokens ≤ 4 := by
  obtain ⟨c, l, h, h1, h2, h3, h4, h5⟩ := pipe_load
  refine ⟨c, l, h, pipe_names, pipe_consistent, pipeConv_ok, ⟨?_, rfl, ?_, by decide⟩, h1, by omega⟩
  · show 3 ≤ c.hp.hp.maxTokens
    omega
  · show ∀ s ∈ [0, 1, 0], s < c.hp.hp.segments
    rw [h5]
    decide

/-- C73 fails without consistency: no attention heads; a token table that is smaller than the vocabulary;
a position table that is smaller than the number of tokens that the file allows; a bias of the wrong
length.  All four files are loaded, and the process runs into undefined behaviour or stops. -/
theorem C73_unchecked_counterexample :
    (∀ p ∈ [(0, 3, 4, 1), (1, 2, 4, 1), (1, 3, 2, 1), (1, 3, 4, 2)],
      match load (pipeWorld p.1 0 p.2.1 p.2.2.1 p.2.2.2) with | .ok (some _, _) => True | _ => False) ∧
    pipeEval 0 0 3 4 1 [0, 2, 1] = .ub ∧ pipeEval 1 0 2 4 1 [0, 2, 1] = .ub ∧
    pipeEval 1 0 3 2 1 [0, 2, 1] = .ub ∧ pipeEval 1 0 3 4 2 [0, 2, 1] = .abort := by
  refine ⟨?_, by decide +kernel, by decide +kernel, by decide +kernel, by decide +kernel⟩
  have h : ∀ p ∈ [(0, 3, 4, 1), (1, 2, 4, 1), (1, 3, 2, 1), (1, 3, 4, 2)],
      (match load (pipeWorld p.1 0 p.2.1 p.2.2.1 p.2.2.2) with | .ok (some _, _) => true | _ => false) = true := by
    decide +kernel
  intro p hp
  have := h p hp
  split at this
  · trivial
  · cases this

/-! ## C74 -/

/-- The keys of the ids of special tokens. -/
def specialKeys : List String :=
  ["berts.cls_id", "berts.mask_id", "berts.pad_id", "berts.sep_id", "berts.unk_id", "berts.bos_id", "berts.eos_id"]

theorem u32Opt_has {g : Gguf} {k : String} {i : Nat} (h : u32Opt g k = .ok (some i)) : HasU32 g k i := by
  unfold u32Opt at h
  split at h
  · cases h
  · rename_i hf
    cases h
    exact (find_some ..).1 hf
  · cases h

theorem cut_length (ls ds : List Nat) : (Spec.cut ls ds).length = ls.length := by
  induction ls generalizing ds with
  | nil => rfl
  | cons a l ih => simp [Spec.cut, ih]

theorem initBpe_keeps {merge : Option Roberta.MergeTensor}
    {order : List (Bpe.Str × Nat) → List (Bpe.Str × Nat)} {v : VocabT} {sp : Special} {r : Roberta.RVocab}
    (h : Roberta.initBpe merge order v sp = .ok (some r)) : r.v = v ∧ r.special = sp := by
  unfold Roberta.initBpe at h
  obtain ⟨_, _, h⟩ := Handle.res_inv h
  obtain ⟨_, _, h⟩ := Handle.res_inv h
  obtain ⟨_, _, h⟩ := Handle.res_inv h
  split at h
  · cases h
  · obtain ⟨x, _, h⟩ := Handle.res_inv h
    split at h
    · cases h; exact ⟨rfl, rfl⟩
    · cases h

/-- The vocabulary of a loaded model: as many entries as the file says, special ids in range if those
in the metadata are. -/
theorem loaded_vocab {w : World α} {c : Ctx α} {l : Ledger} {g : Gguf} {bytes : List Nat}
    (h : load w = .ok (some c, l)) (hg : w.gguf = some g) (hf : w.file = some bytes) (hn : NamesOk g)
    (ho : ∀ t ∈ g.dir, g.dataOffset + t.offset < 2 ^ 64) {N : Nat} (hN : N ≤ INVALID)
    (hsize : ∀ t ∈ g.dir, t.name = ascii "berts.vocab.size" → t.nbytes = N)
    (hm : ∀ k ∈ specialKeys, ∀ i, HasU32 g k i → i ≠ INVALID → i < N) :
    ∃ ts : List (List Nat), ts.length = N ∧
      ((∃ v sp cond, c.vocab = .bert v sp cond ∧ Holds v ts ∧ sp.cls < N ∧ sp.sep < N ∧ sp.unk < N) ∨
        (∃ r, c.vocab = .roberta r ∧ Holds r.v ts ∧ r.special.cls < N ∧ r.special.sep < N)) := by
  obtain ⟨g', bytes', n, hg', hf', _, _, _, _, _, _, _, _, hvi⟩ := C57_supported h
  rw [hg] at hg'
  cases hg'
  unfold vocabInit at hvi
  obtain ⟨o, hv, hvi⟩ := Handle.res_inv hvi
  cases o with
  | none => cases hvi
  | some v =>
  simp only at hvi
  have hlen : ∀ x, getTensor c.tensors (ascii "berts.vocab.size") = some x → x.data.length = N := by
    intro x hx
    obtain ⟨t, ht, hk, _, _, _, hl⟩ := tensor_of h hg hf hn ho hx
    rw [hl, hsize t ht hk]
  obtain ⟨ls, ds, hb1, _, _, _, v', hv', hh⟩ := Vocab.initVocab_holds _ _ _ v (by
    intro t ht
    rw [Option.map_eq_some_iff] at ht
    obtain ⟨x, hx, rfl⟩ := ht
    show x.data.length ≤ INVALID
    rw [hlen x hx]
    exact hN) hv
  cases hv'
  have hls : ls.length = N := by
    unfold Spec.IsBlob at hb1
    rw [Option.map_eq_some_iff] at hb1
    obtain ⟨x, hx, hb1⟩ := hb1
    have : x.data = ls := congrArg Vocab.BlobTensor.bytes hb1
    rw [← this, hlen x hx]
  refine ⟨Spec.cut ls ds, by rw [cut_length, hls], ?_⟩
  have hcl : (Spec.cut ls ds).length = N := by rw [cut_length, hls]
  have key : ∀ k ∈ specialKeys, ∀ i, u32Opt g k = .ok (some i) → i ≠ INVALID → i < (Spec.cut ls ds).length :=
    fun k hk i hi hne => by rw [hcl]; exact hm k hk i (u32Opt_has hi) hne
  split at hvi
  · unfold bertInit bertMeta at hvi
    obtain ⟨m, hmeta, hvi⟩ := Handle.res_inv hvi
    obtain ⟨cls, hcls, hmeta⟩ := Handle.res_inv hmeta
    obtain ⟨mask, hmask, hmeta⟩ := Handle.res_inv hmeta
    obtain ⟨pad, hpad, hmeta⟩ := Handle.res_inv hmeta
    obtain ⟨sep, hsep, hmeta⟩ := Handle.res_inv hmeta
    obtain ⟨unk, hunk, hmeta⟩ := Handle.res_inv hmeta
    cases hmeta
    split at hvi
    · cases hvi
    · obtain ⟨cond, _, hvi⟩ := Handle.res_inv hvi
      injection hvi with hvi
      rw [Option.map_eq_some_iff] at hvi
      obtain ⟨sp, hsp, hvi⟩ := hvi
      obtain ⟨a1, _, _, a4, a5⟩ := C38_bert_ids_valid_partial _ v _ sp hh hsp (by
        intro i hi
        rcases hi with rfl | rfl | rfl | rfl | rfl
        · exact key _ (by decide) i hcls
        · exact key _ (by decide) i hmask
        · exact key _ (by decide) i hpad
        · exact key _ (by decide) i hsep
        · exact key _ (by decide) i hunk)
      rw [hcl] at a1 a4 a5
      exact .inl ⟨v, sp, cond, hvi.symm, hh, a1, a4, a5⟩
  · unfold robertaInit robertaMeta at hvi
    obtain ⟨m, hmeta, hvi⟩ := Handle.res_inv hvi
    obtain ⟨bos, hbos, hmeta⟩ := Handle.res_inv hmeta
    obtain ⟨eos, heos, hmeta⟩ := Handle.res_inv hmeta
    obtain ⟨cls, hcls, hmeta⟩ := Handle.res_inv hmeta
    obtain ⟨mask, hmask, hmeta⟩ := Handle.res_inv hmeta
    obtain ⟨pad, hpad, hmeta⟩ := Handle.res_inv hmeta
    obtain ⟨sep, hsep, hmeta⟩ := Handle.res_inv hmeta
    obtain ⟨unk, hunk, hmeta⟩ := Handle.res_inv hmeta
    cases hmeta
    obtain ⟨r, hr, hvi2⟩ := Handle.res_inv hvi
    injection hvi2 with hvi2
    rw [Option.map_eq_some_iff] at hvi2
    obtain ⟨r, rfl, hvi2⟩ := hvi2
    unfold Roberta.init at hr
    split at hr
    · cases hr
    · rename_i sp hsp
      obtain ⟨rfl, rfl⟩ := initBpe_keeps hr
      obtain ⟨a1, _, _, a4, _⟩ := C38_roberta_ids_valid_partial w.signed _ r.v _ r.special hh hsp (by
        intro i hi
        rcases hi with rfl | rfl | rfl | rfl | rfl | rfl | rfl
        · exact key _ (by decide) i hcls
        · exact key _ (by decide) i hmask
        · exact key _ (by decide) i hpad
        · exact key _ (by decide) i hsep
        · exact key _ (by decide) i hunk
        · exact key _ (by decide) i hbos
        · exact key _ (by decide) i heos)
      rw [hcl] at a1 a4
      exact .inr ⟨r, hvi2.symm, hh, a1, a4⟩

theorem copyInto_length {β : Type} {buf src out : List β} {n : Nat} (h : Api.copyInto buf src n = .ok out)
    (hn : n ≤ src.length) : out.length = buf.length := by
  unfold Api.copyInto at h
  split at h
  · cases h
    simp
    omega
  · cases h

theorem tokenize_length {m : Option Api.Ctx} {text buf out : List Nat} {ret : Bool} {k n : Option Nat}
    (h : Api.bertsTokenize m text (some buf) k = .ok ⟨ret, some out, n⟩) : out.length = buf.length := by
  unfold Api.bertsTokenize at h
  split at h
  · cases h; rfl
  split at h
  · cases h; rfl
  split at h
  · cases h; rfl
  obtain ⟨⟨b, toks⟩, _, h⟩ := Handle.res_inv h
  simp only at h
  split at h
  · obtain ⟨⟨b', l'⟩, he, h⟩ := Handle.res_inv h
    cases h
    unfold Api.emit at he
    split at he
    · cases he; rfl
    · obtain ⟨b'', he', h'⟩ := Handle.res_inv he
      cases h'
      exact copyInto_length he' (Nat.min_le_right _ _)
  · cases h; rfl

/-- C74 (partial: the file must be consistent, the ids in the metadata valid, and there must be a row of
the token table for each entry of the vocabulary; loading checks none of this): the ids that tokenizing a
text with a loaded model delivers can be evaluated with the same model and null segments, if there are no
more of them than the model allows. -/
theorem C74_text_partial {w : World α} {c : Ctx α} {l : Ledger} {g : Gguf} {bytes : List Nat}
    (h : load w = .ok (some c, l)) (hg : w.gguf = some g) (hf : w.file = some bytes) (hn : NamesOk g)
    (ho : ∀ t ∈ g.dir, g.dataOffset + t.offset < 2 ^ 64) (hc : ConvOk w.conv) (V P S : Nat)
    (hcons : Consistent g V P S) (hV : V ≤ 2 ^ 31) (hP : P < 2 ^ 31) (hS : S ≤ 2 ^ 31) (N : Nat) (hNV : N ≤ V)
    (hsize : ∀ t ∈ g.dir, t.name = ascii "berts.vocab.size" → t.nbytes = N)
    (hm : ∀ k ∈ specialKeys, ∀ i, HasU32 g k i → i ≠ INVALID → i < N) (hseg : ¬ HasU32 g "berts.segments" 0)
    -- the call of the tokenizer
    (u : Bert.Icu) (e : Roberta.Env) (setOrder : List (List Nat) → List (List Nat)) (text buf out : List Nat)
    (n : Nat) (ht : Api.bertsTokenize (some (apiCtx u e setOrder c)) text (some buf) (some buf.length) =
      .ok ⟨true, some out, some n⟩) (hn1 : n ≤ buf.length) (hn2 : n ≤ c.hp.hp.maxTokens)
    (hpos : if c.hp.arch = 0 then c.hp.hp.maxTokens ≤ P else c.vocab.padId + n < P)
    -- the call of the evaluation
    (A : Arith α) (gg : Gg) (L : Int) (h1 : -(c.hp.hp.nLayers : Int) ≤ L) (h2 : L ≤ c.hp.hp.nLayers)
    (poolType : Nat) (hpool : poolType < 4) (ebuf : List α)
    (hb : ebuf.length = c.hp.hp.hidden * (if poolType = 0 then n else 1)) :
    bertsEval A gg (some ⟨some (emodel c)⟩) (out.take n) none (some (L, poolType)) (some ebuf)
        (some ebuf.length) =
      .ok (true, some (expected A (emodel c) (layersOf c.hp.hp.nLayers L) poolType (out.take n)
        ((out.take n).map fun _ => 0)), some ebuf.length) := by
  obtain ⟨ts, hts, hvoc⟩ := loaded_vocab h hg hf hn ho (N := N) (by unfold INVALID; omega) hsize hm
  have hids : (∀ i ∈ out.take n, i < N) ∧ 0 < (out.take n).length := by
    rcases hvoc with ⟨v, sp, cond, hv, hh, a1, a2, a3⟩ | ⟨r, hv, hh, a1, a2⟩
    · unfold apiCtx at ht
      rw [hv] at ht
      have hvt : v.tokenCount = N := by rw [← hts, ← hh.1]; rfl
      obtain ⟨mid, e1, e2⟩ := C16_valid_framed_partial u cond v sp (by rw [hvt]; unfold INVALID; omega)
        (by omega) (by omega) (by omega) text buf buf.length n out (Nat.le_refl _) ht hn1
      rw [hvt] at e2
      exact ⟨e2, by rw [e1]; simp⟩
    · unfold apiCtx at ht
      rw [hv] at ht
      obtain ⟨mid, e1, e2⟩ := C72_roberta_framed_partial e r ts hh setOrder (by omega) (by omega) text buf buf.length n out
        (Nat.le_refl _) ht hn1
      rw [hts] at e2
      exact ⟨e2, by rw [e1]; simp⟩
  have hlen : (out.take n).length = n := by
    rw [List.length_take, tokenize_length ht]
    omega
  obtain ⟨_, _, _, hg', _, _, _, _, _, _, _, ⟨_, _, _, _, _, _, _, _, hs, _, _⟩, _, _⟩ := C57_supported h
  rw [hg] at hg'
  cases hg'
  have hs0 : 0 < c.hp.hp.segments := by
    rcases hs with hs | hs
    · by_cases h0 : c.hp.hp.segments = 0
      · rw [h0] at hs; exact absurd hs hseg
      · omega
    · omega
  refine C73_consistent_partial h hg hf hn ho hc V P S hcons hV hP hS (out.take n) none poolType
    ⟨by rw [hlen]; exact hn2, by simp, ?_, hpool⟩ hids.2 (fun t ht => by have := hids.1 t ht; omega)
    (by rw [hlen]; exact hpos) L h1 h2 A gg ebuf (by rw [hlen]; exact hb)
  intro s hs'
  simp only [Option.getD_none, List.mem_map] at hs'
  obtain ⟨_, _, rfl⟩ := hs'
  exact hs0

/-- Tokenizing with the small file. -/
def pipeTok (cls V : Nat) (text : List Nat) : Res Api.Out :=
  (load (pipeWorld 1 cls V 4 1)).bind fun r =>
    Api.bertsTokenize (r.1.map (apiCtx asciiIcu (robEnv true) id)) text (some [9, 9, 9, 9]) (some 4)

theorem pipe_specials : ∀ k ∈ specialKeys, ∀ i, HasU32 (pipeGguf 1 0 3 4 1) k i → i ≠ INVALID → i < 3 := by
  have h : ∀ k ∈ specialKeys,
      (match u32 (pipeGguf 1 0 3 4 1) k with | .ok i => decide (i < 3) | _ => true) = true := by decide +kernel
  intro k hk i hi _
  have := h k hk
  rw [(u32_iff _ _ _).2 hi] at this
  simpa using this

/-- The hypotheses of `C74_text_partial` can be met: the text `b` gives CLS, `b`, SEP. -/
example : (∃ (c : Ctx Int) (l : Ledger), load (pipeWorld 1 0 3 4 1) = .ok (some c, l) ∧ 3 ≤ c.hp.hp.maxTokens ∧
      Api.bertsTokenize (some (apiCtx asciiIcu (robEnv true) id c)) [98] (some [9, 9, 9, 9]) (some 4) =
        .ok ⟨true, some [0, 2, 1, 9], some 3⟩) ∧
    (∀ k ∈ specialKeys, ∀ i, HasU32 (pipeGguf 1 0 3 4 1) k i → i ≠ INVALID → i < 3) ∧
    ¬ HasU32 (pipeGguf 1 0 3 4 1) "berts.segments" 0 ∧
    ∀ t ∈ (pipeGguf 1 0 3 4 1).dir, t.name = ascii "berts.vocab.size" → t.nbytes = 3 := by
  refine ⟨?_, pipe_specials, ?_, ?_⟩
  · obtain ⟨c, l, h, _, _, h3, _⟩ := pipe_load
    refine ⟨c, l, h, by omega, ?_⟩
    have ht : pipeTok 0 3 [98] = .ok ⟨true, some [0, 2, 1, 9], some 3⟩ := by decide +kernel
    unfold pipeTok at ht
    rw [h] at ht
    exact ht
  · intro h
    have h := (u32_iff _ _ _).2 h
    have : u32 (pipeGguf 1 0 3 4 1) "berts.segments" = .abort := by decide +kernel
    rw [this] at h
    cases h
  · have : ∀ t ∈ pipeDir 3 4 1, t.name = ascii "berts.vocab.size" → t.nbytes = 3 := by decide +kernel
    exact this

/-- C74 fails without these conditions.  In the first file the token table has two rows for a vocabulary of
three tokens; in the second the metadata give 7 as the id of CLS.  Both are loaded, the text `b` is
tokenized, and evaluating the ids reads outside the token table. -/
theorem C74_unchecked_counterexample :
    pipeTok 0 2 [98] = .ok ⟨true, some [0, 2, 1, 9], some 3⟩ ∧ pipeEval 1 0 2 4 1 [0, 2, 1] = .ub ∧
    pipeTok 7 3 [98] = .ok ⟨true, some [7, 2, 1, 9], some 3⟩ ∧ pipeEval 1 7 3 4 1 [7, 2, 1] = .ub := by
  decide +kernel

end Berts.Props
