import Verif.Proofs.Load

/-!
# Properties of loading and freeing
-/

namespace Berts.Props

open Berts.Load
open Berts.Handle (res_inv)
open Berts.Vocab (ascii decimal)
open Berts.Graph (T Gg)

variable {α : Type}

/-! ## A small model file

Nine tensors of one byte each, no encoder layers, a vocabulary of one token. -/

/-- The names of the tensors. -/
def loadNames : List (List Nat) :=
  ["berts.vocab.size", "berts.vocab.data", "berts.bert.embeddings.word_embeddings.weight",
    "berts.bert.embeddings.token_type_embeddings.weight", "berts.bert.embeddings.position_embeddings.weight",
    "berts.bert.embeddings.LayerNorm.weight", "berts.bert.embeddings.LayerNorm.bias",
    "berts.bert.pooler.dense.weight", "berts.bert.pooler.dense.bias"].map ascii

/-- The directory. -/
def loadDir : List TInfo := (List.range 9).zipWith (fun i n => ⟨n, 1, [1], 16, 1, i⟩) loadNames

/-- The metadata: all mandatory keys and the special tokens. -/
def loadKv (act arch : Nat) : List (List Nat × Kv) :=
  [("general.file_type", 0), ("berts.bert_type", arch), ("berts.vocab_size", 1), ("berts.hidden_dim", 1),
    ("berts.n_layers", 0), ("berts.attn_heads", 1), ("berts.max_token", 1), ("berts.intermediate_dim", 1),
    ("berts.hidden_act", act), ("berts.cls_id", 0), ("berts.mask_id", 0), ("berts.pad_id", 0), ("berts.sep_id", 0),
    ("berts.unk_id", 0)].map fun p => (ascii p.1, Kv.u32 p.2)

def loadGguf (act arch : Nat) : Gguf := ⟨loadKv act arch, loadDir, 3⟩

/-- Constants of ggml on a 64-bit machine. -/
def loadGg : Gg := ⟨368, 32, 16, 16⟩

def loadWorld (g : Gguf) (bytes : List Nat) : World Nat :=
  ⟨some g, fun _ => true, some bytes, fun _ _ => 0, fun t => ⟨1, 1, 1, 1, 4, true, fun _ _ _ _ => t.data.headD 0⟩,
    loadGg, true, id⟩

/-- The outcome of a load: a context, null, or neither. -/
def loads {α : Type} (w : World α) : Option Bool :=
  match load w with
  | .ok (some _, _) => some true
  | .ok (none, _) => some false
  | _ => none

theorem loads_some {w : World Nat} (h : loads w = some true) : ∃ c l, load w = .ok (some c, l) := by
  unfold loads at h
  split at h
  · rename_i c l e; exact ⟨c, l, e⟩
  · cases h
  · cases h

/-- The whole file: three bytes of header, then the data. -/
def loadBytes : List Nat := [0, 0, 0, 1, 97, 2, 3, 4, 5, 6, 7, 8]

theorem load_small : loads (loadWorld (loadGguf 0 0) loadBytes) = some true := by decide +kernel

theorem loadNamesOk (act arch : Nat) : NamesOk (loadGguf act arch) := by
  have h : (loadDir.map (·.name)).Nodup ∧ ∀ t ∈ loadDir, t.name.length < 64 := by decide +kernel
  exact h

/-! ## C48 -/

/-- C48: for a file with distinct tensor names that ggml can store, the computed size is exactly what the
tensors need, and all of them fit (the loop over the tensors never aborts), whatever the rest of the file
is.  Partial: the `size_t` sum must not wrap around; `tensorSize` a multiple of the alignment is asserted
by ggml. -/
theorem C48_sufficient_partial (gg : Gg) (g : Gguf) (hn : NamesOk g) (hgen : general g = .ok ())
    (ha : 0 < gg.align) (hts : gg.tensorSize % gg.align = 0) (hw : needed gg g.dir < 2 ^ 64) :
    initGg gg g = .ok (needed gg g.dir) ∧
    ∀ bytes junk, ∃ r, loadLoop gg g (poolSize gg (needed gg g.dir)) junk 0 g.dir 0 ⟨bytes, 0, false⟩ [] = .ok r := by
  constructor
  · unfold initGg
    rw [hgen]
    show sizeLoop gg g g.dir 0 = _
    rw [sizeLoop_eq gg g hn _ _ (fun _ h => h) (by omega), Nat.zero_add, Nat.mod_eq_of_lt hw]
  · intro bytes junk
    refine loop_defined gg g hn ha hts _ junk _ _ _ _ _ (fun _ h => h) ?_
    rw [Nat.zero_add]
    exact pool_enough gg ha _

example : NamesOk (loadGguf 0 0) ∧ general (loadGguf 0 0) = .ok () ∧ 0 < loadGg.align ∧
    loadGg.tensorSize % loadGg.align = 0 ∧ needed loadGg (loadGguf 0 0).dir < 2 ^ 64 :=
  ⟨loadNamesOk 0 0, by decide +kernel, by decide, by decide, by decide +kernel⟩

/-- C48: nothing is left over: with one byte less of memory the tensors would not fit (the estimate is
exact, not merely sufficient). -/
theorem C48_tight (gg : Gg) (g : Gguf) (hn : NamesOk g) (ha : 0 < gg.align) (hts : gg.tensorSize % gg.align = 0)
    (pool : Nat) (hp : pool < needed gg g.dir) (ho : ∀ t ∈ g.dir, g.dataOffset + t.offset < 2 ^ 63)
    (bytes : List Nat) (hc : ∀ t ∈ g.dir, Complete g bytes t) (junk) :
    loadLoop gg g pool junk 0 g.dir 0 ⟨bytes, 0, false⟩ [] = .abort := by
  suffices H : ∀ (ts : List TInfo) (i used : Nat) (s : Stream) (acc : List LT), (∀ t ∈ ts, t ∈ g.dir) →
      s.fail = false → s.bytes = bytes → used ≤ pool → pool < used + needed gg ts →
      loadLoop gg g pool junk i ts used s acc = .abort from
    H g.dir 0 0 _ [] (fun _ h => h) rfl rfl (by omega) (by omega)
  intro ts
  induction ts with
  | nil => intro i used s acc _ _ _ h1 h2; simp only [needed] at h2; omega
  | cons t ts ih =>
    intro i used s acc hm hs hb h1 h2
    unfold loadLoop
    rw [meta_of g hn t (hm t (by simp))]
    simp only
    have hpad : gg.objectSize + Graph.pad (gg.tensorSize + t.nbytes) gg.align + needed gg ts = needed gg (t :: ts) := by
      rw [pad_add _ _ _ ha hts]
      rw [show needed gg (t :: ts) = gg.objectSize + gg.tensorSize +
        (t.nbytes + gg.align - 1) / gg.align * gg.align + needed gg ts from rfl]
      unfold Graph.pad
      omega
    unfold allocT
    simp only
    by_cases hf : used + (gg.objectSize + Graph.pad (gg.tensorSize + t.nbytes) gg.align) ≤ pool
    · rw [if_pos hf]
      simp only [Res.bind]
      have ho' := ho t (hm t (by simp))
      have hc' := (complete_iff g bytes t).1 (hc t (hm t (by simp)))
      rw [Nat.mod_eq_of_lt (by omega)]
      have hk : s.seekg (g.dataOffset + t.offset) = { s with pos := g.dataOffset + t.offset } := by
        unfold Stream.seekg; rw [hs]; simp only [Bool.false_eq_true, if_false]; rw [if_pos ho']
      rw [hk, if_neg (by simp [hs])]
      refine ih _ _ _ _ (fun x hx => hm x (List.mem_cons_of_mem _ hx)) ?_ ?_ hf (by omega)
      · unfold Stream.read
        simp only [hs, hb, Bool.false_eq_true, if_false, decide_eq_false_iff_not]
        omega
      · unfold Stream.read
        simp [hs, hb]
    · rw [if_neg hf]
      rfl

example : Complete (loadGguf 0 0) loadBytes ⟨[], 1, [1], 16, 1, 8⟩ := by
  intro j hj
  have hj : j < 1 := hj
  simp only [loadGguf, loadBytes, List.length_cons, List.length_nil]
  omega

/-- C48 fails if the sum wraps around: two tensors with 2^63 bytes each. -/
theorem C48_wrap_counterexample :
    let g : Gguf := ⟨[(ascii "general.file_type", .u32 0)],
      [⟨[97], 1, [2 ^ 63], 16, 2 ^ 63, 0⟩, ⟨[98], 1, [2 ^ 63], 16, 2 ^ 63, 0⟩], 0⟩
    initGg loadGg g = .ok 800 ∧
    loadLoop loadGg g (poolSize loadGg 800) (fun _ _ => 0) 0 g.dir 0 ⟨[], 0, false⟩ [] = .abort := by
  decide +kernel

/-! ## C51 -/

/-- C51: what is released when loading returns.  Nothing is freed twice and only what was acquired is
freed.  If the `berts_context` was never created, everything has been freed.  If it was created and the
initialisation failed, all but the gguf and the weight context has been freed; if it is returned, the
metadata context has been freed. -/
theorem C51_load {w : World α} {r : Option (Ctx α)} {l : Ledger} (h : load w = .ok (r, l)) :
    l.h.freed.Nodup ∧ l.acq.Nodup ∧ (∀ x ∈ l.h.freed, x ∈ l.acq) ∧
    (.ctx ∉ l.acq → r = none ∧ ∀ x ∈ l.acq, l.h.freed.count x = 1) ∧
    (.ctx ∈ l.acq → ∀ x, x ∈ l.acq ∧ (l.h.freed.count x = 1 ↔
      x = .meta ∨ (r = none ∧ (x = .model ∨ x = .ctx)))) := by
  have o := load_cases h
  generalize l.acq = acq at o
  generalize l.h.freed = freed at o
  cases o with
  | noFile => simp
  | noPool => simp
  | noStream => simp
  | truncated => simp
  | finished g size bytes ts r acq freed _ _ _ _ _ f =>
    cases f with
    | act => simp
    | arch => simp
    | create hp type r _ _ _ _ _ _ =>
      cases r with
      | none => simp; intro x; cases x <;> simp
      | some c => simp; intro x; cases x <;> simp

/-- C51: after loading and `berts_free`, whatever happened, nothing was freed twice and everything but the
gguf context and the weight context was freed exactly once; these two are freed if and only if loading
failed before the `berts_context` was created.  Partial: they should always be freed, see
`C51_leak_counterexample`. -/
theorem C51_free_partial {w : World α} {r : Option (Ctx α)} {l : Ledger} (h : load w = .ok (r, l)) :
    (free r l).acq = l.acq ∧ (free r l).h.freed.Nodup ∧
    ∀ x ∈ l.acq, (free r l).h.freed.count x = if .ctx ∈ l.acq ∧ (x = .gguf ∨ x = .weights) then 0 else 1 := by
  have o := load_cases h
  unfold free deleteCtx freeRaw
  obtain ⟨⟨ob, freed⟩, acq⟩ := l
  simp only at o ⊢
  cases o with
  | noFile => simp
  | noPool => simp
  | noStream => simp
  | truncated => simp
  | finished g size bytes ts r acq freed _ _ _ _ _ f =>
    cases f with
    | act => simp
    | arch => simp
    | create hp type r _ _ _ _ _ _ =>
      cases r with
      | none => simp
      | some c => simp

/-- C51 fails: every successful load, followed by `berts_free`, leaves the gguf context and the weight
context (all the weights) unfreed. -/
theorem C51_leak_counterexample :
    (∀ (w : World α) (c : Ctx α) (l : Ledger), load w = .ok (some c, l) →
      .gguf ∈ l.acq ∧ .weights ∈ l.acq ∧ .gguf ∉ (free (some c) l).h.freed ∧ .weights ∉ (free (some c) l).h.freed) ∧
    ∃ (w : World Nat) (c : Ctx Nat) (l : Ledger), load w = .ok (some c, l) := by
  constructor
  · intro w c l h
    have o := load_cases h
    unfold free deleteCtx freeRaw
    obtain ⟨⟨ob, freed⟩, acq⟩ := l
    simp only at o ⊢
    generalize hr : some c = r at o
    cases o with
    | noFile => cases hr
    | noPool => cases hr
    | noStream => cases hr
    | truncated => cases hr
    | finished g size bytes ts r acq freed _ _ _ _ _ f =>
      cases f with
      | act => cases hr
      | arch => cases hr
      | create hp type r _ _ _ _ _ _ => subst hr; simp
  · exact ⟨_, loads_some load_small⟩

/-- What a load has not freed. -/
def unfreed (w : World Nat) : Option (List Rsrc) :=
  match load w with
  | .ok (none, l) => some (l.acq.filter fun x => !l.h.freed.contains x)
  | _ => none

/-- C51 fails also for loads that fail: without the pooler's bias the load returns null and the gguf and
weight contexts are lost, since the caller has no pointer to free. -/
theorem C51_failed_load_counterexample :
    unfreed (loadWorld ⟨loadKv 0 0, loadDir.dropLast, 3⟩ loadBytes) = some [.gguf, .weights] := by
  decide +kernel

/-- An unknown activation is found before: nothing is lost. -/
example : unfreed (loadWorld (loadGguf 1 0) loadBytes) = some [] := by decide +kernel

/-! ## C56 -/

/-- C56: a context is returned only if the data of every tensor but the last of the directory is
completely in the file; each complete tensor holds exactly its bytes of the file.  Partial: nothing is
known about the last tensor. -/
theorem C56_complete_partial {w : World α} {c : Ctx α} {l : Ledger} {g : Gguf} {bytes : List Nat}
    (h : load w = .ok (some c, l)) (hg : w.gguf = some g) (hf : w.file = some bytes) (hn : NamesOk g)
    (ho : ∀ t ∈ g.dir, g.dataOffset + t.offset < 2 ^ 64) :
    (∀ t ∈ g.dir.dropLast, Complete g bytes t) ∧ c.tensors.length = g.dir.length ∧
    ∀ (i : Nat) (t : TInfo), g.dir[i]? = some t → ∃ x : LT, c.tensors[i]? = some x ∧ x.name = t.name ∧ x.ndims = t.ndims ∧ x.ne = t.ne ∧
      x.type = t.type ∧ x.data.length = t.nbytes ∧
      (Complete g bytes t → x.data = (bytes.drop (g.dataOffset + t.offset)).take t.nbytes) := by
  have o := load_cases h
  generalize hr : some c = r at o
  generalize l.acq = acq at o
  generalize l.h.freed = freed at o
  cases o with
  | noFile => cases hr
  | noPool => cases hr
  | noStream => cases hr
  | truncated => cases hr
  | finished g' size bytes' ts r acq freed hg' _ _ hf' hl f =>
    rw [hg] at hg'; cases hg'
    rw [hf] at hf'; cases hf'
    obtain ⟨h1, h2⟩ := loop_sound _ g hn ho _ _ bytes _ _ _ _ _ _ (fun _ h => h) rfl rfl hl
    have hts : c.tensors = ts := by
      cases f with
      | act => cases hr
      | arch => cases hr
      | create hp type r _ _ _ _ _ cr =>
        cases cr with
        | fail => cases hr
        | noWeights => cases hr
        | ok => cases hr; rfl
    rw [List.nil_append] at h2
    rw [hts, h2]
    have hget := loadedFrom_get g bytes w.junk g.dir 0
    refine ⟨h1, ?_, ?_⟩
    · have : ∀ (ts : List TInfo) (i : Nat), (loadedFrom g bytes w.junk i ts).length = ts.length := by
        intro ts
        induction ts with
        | nil => intro i; rfl
        | cons t ts ih => intro i; simp [loadedFrom, ih]
      exact this _ _
    · intro i t hi
      rw [hget, hi]
      refine ⟨_, rfl, rfl, rfl, rfl, rfl, ?_, ?_⟩
      · simp only [loadedT, fill, List.length_append, List.length_map, List.length_range, List.length_take]
        omega
      · intro hc
        exact fill_complete _ _ _ ((complete_iff g bytes t).1 hc)

/-- C56: a file in which some tensor other than the last is incomplete is rejected with null, and a file
in which all are complete is not rejected for that reason. -/
theorem C56_exact_partial (gg : Gg) (g : Gguf) (bytes : List Nat) (junk) (hn : NamesOk g) (ho : OffsetsOk g)
    (ha : 0 < gg.align) (hts : gg.tensorSize % gg.align = 0) (pool : Nat) (hp : needed gg g.dir ≤ pool) :
    ∃ r, loadLoop gg g pool junk 0 g.dir 0 ⟨bytes, 0, false⟩ [] = .ok r ∧
      (r.isSome = true ↔ ∀ t ∈ g.dir.dropLast, Complete g bytes t) := by
  obtain ⟨r, e, h⟩ := loop_exact gg g hn ho ha hts pool junk bytes g.dir 0 0 ⟨bytes, 0, false⟩ [] (fun _ h => h) rfl
    (by omega)
  refine ⟨r, e, ?_, ?_⟩
  · intro hs
    obtain ⟨x, rfl⟩ := Option.isSome_iff_exists.1 hs
    exact (loop_sound gg g hn (fun t ht => by have := ho t ht; omega) pool junk bytes g.dir 0 0 _ [] x (fun _ h => h)
      rfl rfl e).1
  · intro hc
    rw [h rfl hc]
    rfl

example : OffsetsOk (loadGguf 0 0) := by
  have : ∀ t ∈ loadDir, 3 + t.offset < 2 ^ 63 := by decide +kernel
  exact this

/-- C56 fails: without its last byte the file is still loaded; the last tensor holds whatever was in
memory. -/
theorem C56_truncated_counterexample :
    loads (loadWorld (loadGguf 0 0) loadBytes.dropLast) = some true ∧
    ¬ Complete (loadGguf 0 0) loadBytes.dropLast ⟨ascii "berts.bert.pooler.dense.bias", 1, [1], 16, 1, 8⟩ := by
  refine ⟨by decide +kernel, ?_⟩
  intro h
  have := h 0 (by simp)
  simp [loadGguf, loadBytes] at this

/-- Without the last two bytes it is rejected. -/
example : loads (loadWorld (loadGguf 0 0) loadBytes.dropLast.dropLast) = some false := by decide +kernel

/-! ## C57 -/

/-- C57: a context is returned only for a BERT or RoBERTa model with the GELU activation, with all mandatory
metadata, all required tensors and a vocabulary; the context carries these values, and each weight is
the tensor of the corresponding name (no weight is missing). -/
theorem C57_supported {w : World α} {c : Ctx α} {l : Ledger} (h : load w = .ok (some c, l)) :
    ∃ g bytes n, w.gguf = some g ∧ w.file = some bytes ∧
      HasU32 g "berts.hidden_act" 0 ∧ (HasU32 g "berts.bert_type" 0 ∨ HasU32 g "berts.bert_type" 1) ∧
      (∀ k ∈ mandatory, ∃ v, HasU32 g k v) ∧ HasU32 g "general.file_type" c.type ∧ c.type < 19 ∧
      HasU32 g "berts.n_layers" n ∧
      (HasU32 g "berts.bert_type" c.hp.arch ∧ HasU32 g "berts.vocab_size" c.hp.hp.vocabSize ∧
        HasU32 g "berts.hidden_dim" c.hp.hp.hidden ∧ c.hp.hp.nLayers = n ∧
        HasU32 g "berts.attn_heads" c.hp.hp.heads ∧ HasU32 g "berts.max_token" c.hp.hp.maxTokens ∧
        HasU32 g "berts.intermediate_dim" c.hp.hp.interm ∧ HasU32 g "berts.hidden_act" c.hp.hp.act ∧
        HasSegments g c.hp.hp.segments ∧ OptF64 g "berts.layer_norm_eps" 1 (10 ^ 12) c.hp.hp.eps ∧
        OptF64 g "berts.initializer_range" 2 100 c.hp.initRange) ∧
      Named (fun k => (getTensor c.tensors k).map w.conv) n c.weights ∧
      vocabInit w.signed w.order c.hp.arch g c.tensors = .ok (some c.vocab) := by
  have o := load_cases h
  generalize hr : some c = r at o
  generalize l.acq = acq at o
  generalize l.h.freed = freed at o
  cases o with
  | noFile => cases hr
  | noPool => cases hr
  | noStream => cases hr
  | truncated => cases hr
  | finished g size bytes ts r acq freed hg hi hp hf hl f =>
    cases f with
    | act => cases hr
    | arch => cases hr
    | create hp type r hh ha hb ht hft cr =>
      cases cr with
      | fail => cases hr
      | noWeights => cases hr
      | ok v ws hv hw =>
        cases hr
        obtain ⟨k1, k2, k3, k4, k5, k6, k7, k8, k10⟩ := hparams_iff g hp hh
        have k9 := (u32_iff ..).1 ht
        refine ⟨g, bytes, hp.hp.nLayers, hg, hf, ha ▸ k8, ?_, ?_, k9, ?_, k4,
          ⟨k1, k2, k3, rfl, k5, k6, k7, k8, k10⟩, (initWeights_iff _ _ _).1 hw, hv⟩
        · rcases hb with hb | hb
          · exact .inl (hb ▸ k1)
          · exact .inr (hb ▸ k1)
        · intro k hk
          simp only [mandatory, List.mem_cons, List.not_mem_nil, or_false] at hk
          rcases hk with rfl | rfl | rfl | rfl | rfl | rfl | rfl | rfl | rfl
          · exact ⟨_, k9⟩
          · exact ⟨_, k1⟩
          · exact ⟨_, k2⟩
          · exact ⟨_, k3⟩
          · exact ⟨_, k4⟩
          · exact ⟨_, k5⟩
          · exact ⟨_, k6⟩
          · exact ⟨_, k7⟩
          · exact ⟨_, k8⟩
        · unfold ftype at hft
          split at hft
          · assumption
          · cases hft

/-- C57: for a complete file with all mandatory metadata, the exact condition: a context is returned if the
activation is GELU, the architecture BERT or RoBERTa, the vocabulary can be read and all required tensors
are in the directory; otherwise null is returned. -/
theorem C57_exact (w : World α) (g : Gguf) (bytes : List Nat) (hp : Hp) (v : Option VocabR)
    (hg : w.gguf = some g) (hf : w.file = some bytes) (hi : w.poolInit (needed w.gg g.dir) = true)
    (hn : NamesOk g) (ho : OffsetsOk g) (ha : 0 < w.gg.align) (hts : w.gg.tensorSize % w.gg.align = 0)
    (hw : needed w.gg g.dir < 2 ^ 64) (hgen : general g = .ok ()) (hc : ∀ t ∈ g.dir, Complete g bytes t)
    (hh : hparams g = .ok hp)
    (hv : vocabInit w.signed w.order hp.arch g (loadedFrom g bytes w.junk 0 g.dir) = .ok v) :
    ∃ r l, load w = .ok (r, l) ∧
      (r.isSome = true ↔ hp.hp.act = 0 ∧ (hp.arch = 0 ∨ hp.arch = 1) ∧ v.isSome = true ∧
        ∀ k ∈ requiredNames hp.hp.nLayers, k ∈ g.dir.map (·.name)) := by
  have hsize := (C48_sufficient_partial w.gg g hn hgen ha hts hw).1
  obtain ⟨rl, el, hl⟩ := loop_exact w.gg g hn ho ha hts (poolSize w.gg (needed w.gg g.dir)) w.junk bytes g.dir 0 0
    ⟨bytes, 0, false⟩ [] (fun _ h => h) rfl (by rw [Nat.zero_add]; exact pool_enough _ ha _)
  have hl := hl rfl (fun t ht => hc t (List.dropLast_subset _ ht))
  subst hl
  rw [List.nil_append] at el
  have htype : ∃ type, u32 g "general.file_type" = .ok type ∧ ftype type = .ok () := by
    unfold general at hgen
    obtain ⟨_, _, hgen⟩ := res_inv hgen
    obtain ⟨_, _, hgen⟩ := res_inv hgen
    obtain ⟨_, _, hgen⟩ := res_inv hgen
    obtain ⟨_, _, hgen⟩ := res_inv hgen
    obtain ⟨_, _, hgen⟩ := res_inv hgen
    obtain ⟨_, _, hgen⟩ := res_inv hgen
    obtain ⟨_, _, hgen⟩ := res_inv hgen
    obtain ⟨_, _, hgen⟩ := res_inv hgen
    obtain ⟨t, ht, hgen⟩ := res_inv hgen
    exact ⟨t, ht, hgen⟩
  obtain ⟨type, ht, hft⟩ := htype
  -- the call returns
  have hok : ∃ r l, load w = .ok (r, l) := by
    unfold load
    rw [hg]
    simp only
    obtain ⟨s, e, o⟩ := ggCtor_some
    rw [e]
    simp only [Res.bind]
    rw [hsize]
    simp only
    unfold loadWeights
    rw [if_pos hi]
    obtain ⟨h2, e2, f2, n2, k2⟩ := ctor_eq s (some .weights) o.o2
    rw [show (⟨s, [.gguf, .meta]⟩ : Ledger).h = s from rfl, e2]
    simp only [Res.bind]
    rw [hf]
    simp only
    rw [el]
    simp only
    have o0 : h2.obj 0 = some (some .meta) := by rw [k2 0 (by omega)]; exact o.o0
    have o1 : h2.obj 1 = some (some .gguf) := by rw [k2 1 (by omega)]; exact o.o1
    unfold finish
    rw [hh, ht]
    simp only [Res.bind]
    rw [hft]
    simp only
    by_cases hact : hp.hp.act ≠ 0
    · rw [if_pos hact]
      obtain ⟨l2, e, _⟩ := leave_eq (α := α) none (acquire ⟨h2, [.gguf, .meta]⟩ .weights) _ _ _ o0 o1 n2
      exact ⟨_, _, e⟩
    · rw [if_neg hact]
      by_cases harch : hp.arch ≠ 0 ∧ hp.arch ≠ 1
      · rw [if_pos harch]
        obtain ⟨l2, e, _⟩ := leave_eq (α := α) none (acquire ⟨h2, [.gguf, .meta]⟩ .weights) _ _ _ o0 o1 n2
        exact ⟨_, _, e⟩
      · rw [if_neg harch]
        obtain ⟨s1, e1, f1, n1, k1⟩ := release_eq (acquire (acquire ⟨h2, [.gguf, .meta]⟩ .weights) .model).h 1 _ o1
        rw [e1]
        simp only
        obtain ⟨s2, e2, f2', n2', k2'⟩ := release_eq s1 2 (some .weights) (by rw [k1 2 (by omega)]; exact n2)
        rw [e2]
        simp only
        have hcr : ∀ l : Ledger, ∃ r l', create w g hp type (loadedFrom g bytes w.junk 0 g.dir) l = .ok (r, l') := by
          intro l
          unfold create
          simp only
          rw [hv]
          simp only [Res.bind]
          cases v with
          | none => exact ⟨_, _, rfl⟩
          | some v =>
            simp only
            split
            · exact ⟨_, _, rfl⟩
            · exact ⟨_, _, rfl⟩
        obtain ⟨rc, lc, ec⟩ := hcr { acquire (acquire ⟨h2, [.gguf, .meta]⟩ .weights) .model with h := s2 }
        obtain ⟨_, _, _, c4⟩ := create_cases ec
        simp only at c4
        rw [ec]
        simp only
        obtain ⟨l2, e, _⟩ := leave_eq rc lc (some .meta) none none
          (by rw [c4, k2' 0 (by omega), k1 0 (by omega)]; exact o0)
          (by rw [c4, k2' 1 (by omega), n1]) (by rw [c4, n2'])
        exact ⟨_, _, e⟩
  obtain ⟨r, l, e⟩ := hok
  refine ⟨r, l, e, ?_⟩
  have hnames : (∃ ws, initWeights (fun k => (getTensor (loadedFrom g bytes w.junk 0 g.dir) k).map w.conv)
      hp.hp.nLayers = some ws) ↔ ∀ k ∈ requiredNames hp.hp.nLayers, k ∈ g.dir.map (·.name) := by
    simp only [initWeights_iff]
    rw [named_iff]
    simp only [Option.isSome_map, get_loaded]
  rw [← hnames]
  have o := load_cases e
  generalize l.acq = acq at o
  generalize l.h.freed = freed at o
  cases o with
  | noFile h' => rw [hg] at h'; cases h'
  | noPool g' size h1 h2 h3 =>
    rw [hg] at h1; cases h1
    rw [hsize] at h2; cases h2
    rw [hi] at h3; cases h3
  | noStream g' size h1 h2 h3 h4 => rw [hf] at h4; cases h4
  | truncated g' size bytes' h1 h2 h3 h4 h5 =>
    rw [hg] at h1; cases h1
    rw [hsize] at h2; cases h2
    rw [hf] at h4; cases h4
    rw [el] at h5; cases h5
  | finished g' size bytes' ts r acq freed h1 h2 h3 h4 h5 f =>
    rw [hg] at h1; cases h1
    rw [hsize] at h2; cases h2
    rw [hf] at h4; cases h4
    rw [el] at h5; cases h5
    cases f with
    | act hp' h6 h7 => rw [hh] at h6; cases h6; simp [h7]
    | arch hp' h6 h7 h8 =>
      rw [hh] at h6; cases h6
      constructor
      · intro hc; cases hc
      · rintro ⟨_, hb, _⟩; omega
    | create hp' type' r h6 h7 h8 h9 h10 cr =>
      rw [hh] at h6; cases h6
      cases cr with
      | fail h11 =>
        rw [hv] at h11; cases h11; simp
      | noWeights v' h11 h12 =>
        rw [hv] at h11; cases h11; simp [h12]
      | ok v' ws h11 h12 =>
        rw [hv] at h11; cases h11
        simp [h7, h8, h12]

/-- An unknown architecture, a different activation, a missing tensor. -/
example : loads (loadWorld (loadGguf 1 0) loadBytes) = some false ∧
    loads (loadWorld (loadGguf 0 2) loadBytes) = some false ∧
    loads (loadWorld ⟨loadKv 0 0, loadDir.dropLast, 3⟩ loadBytes) = some false ∧
    loads (loadWorld ⟨(loadKv 0 0).tail, loadDir, 3⟩ loadBytes) = none := by decide +kernel

/-- A RoBERTa model is loaded as well (with an empty merge table). -/
example : loads (loadWorld ⟨loadKv 0 1 ++ [(ascii "berts.bos_id", .u32 0), (ascii "berts.eos_id", .u32 0)],
    loadDir ++ [⟨ascii "berts.merge.data", 1, [0], 18, 0, 9⟩], 3⟩ loadBytes) = some true := by decide +kernel

/-- C57: a name that ggml has to shorten is not found again: undefined behaviour while sizes are computed,
for every file with a tensor name of more than 63 bytes. -/
theorem C57_long_name_counterexample (gg : Gg) (g : Gguf) (hgen : general g = .ok ()) (t : TInfo)
    (ts : List TInfo) (hd : g.dir = t :: ts) (ht : 63 < t.name.length) : initGg gg g = .ub := by
  unfold initGg
  rw [hgen, hd]
  show sizeLoop gg g (t :: ts) 0 = .ub
  unfold sizeLoop
  have : metaTensor g t.name = none := by
    unfold metaTensor
    rw [List.find?_eq_none]
    intro x _ hx
    have : setName x.name = t.name := by simpa using hx
    have h2 : (setName x.name).length ≤ 63 := by unfold setName; rw [List.length_take]; omega
    rw [this] at h2
    omega
  rw [this]

end Berts.Props
