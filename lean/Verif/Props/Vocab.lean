import Verif.Proofs.Vocab

/-! # Properties C35–C39: vocabularies -/

namespace Berts.Props

open Berts.Vocab Berts.Spec

/-! ## C35

Token ids are 32-bit with `0xFFFFFFFF` reserved, so histories of at most that many calls are
considered. -/

/-- C35: after any history of calls, the ids are `0 .. count-1` in order of first insertion. -/
theorem C35_ids_in_order (ops : List Op) (hlen : ops.length ≤ INVALID) (i : Nat) :
    (VocabT.new.run ops).tokenCount = (tokensAfter ops).length ∧
    (VocabT.new.run ops).idToToken i = ((tokensAfter ops)[i]?).getD [] := by
  have h := holds_run VocabT.new [] holds_new ops (by simpa using hlen)
  refine ⟨by rw [VocabT.tokenCount, h.1]; rfl, ?_⟩
  unfold VocabT.idToToken
  rw [h.1]
  split
  · rename_i hl
    have : (tokensAfter ops)[i]? = none := List.getElem?_eq_none hl
    rw [this]; rfl
  · rfl

/-- C35: `token_to_id` and `id_to_token` are mutually inverse. -/
theorem C35_inverse (ops : List Op) (hlen : ops.length ≤ INVALID) (i : Nat) (t : List Nat) :
    (i < (VocabT.new.run ops).tokenCount →
      (VocabT.new.run ops).tokenToId ((VocabT.new.run ops).idToToken i) = i) ∧
    ((VocabT.new.run ops).tokenToId t ≠ INVALID →
      (VocabT.new.run ops).tokenToId t < (VocabT.new.run ops).tokenCount ∧
      (VocabT.new.run ops).idToToken ((VocabT.new.run ops).tokenToId t) = t) := by
  have h := holds_run VocabT.new [] holds_new ops (by simpa using hlen)
  obtain ⟨hc, _⟩ := C35_ids_in_order ops hlen 0
  constructor
  · intro hi
    rw [hc] at hi
    rw [(C35_ids_in_order ops hlen i).2]
    have : (tokensAfter ops)[i]? = some (tokensAfter ops)[i] := by simp [hi]
    rw [this]
    exact tokenToId_mem h _ i this
  · intro ht
    obtain ⟨h1, h2⟩ := tokenToId_lt h t ht
    refine ⟨by rw [hc]; exact h1, ?_⟩
    rw [(C35_ids_in_order ops hlen _).2]
    have h2' : (tokensAfter ops)[(VocabT.new.run ops).tokenToId t]? = some t := h2
    rw [h2']
    rfl

/-- C35: a token is known (`has_token`, valid id) exactly if it was added since the last clear;
unknown tokens give the invalid id and unknown ids the empty string. -/
theorem C35_unknown (ops : List Op) (hlen : ops.length ≤ INVALID) (t : List Nat) (i : Nat) :
    ((VocabT.new.run ops).hasToken t = true ↔ t ∈ tokensAfter ops) ∧
    ((VocabT.new.run ops).tokenToId t = INVALID ↔ t ∉ tokensAfter ops) ∧
    ((VocabT.new.run ops).tokenCount ≤ i → (VocabT.new.run ops).idToToken i = []) := by
  have h := holds_run VocabT.new [] holds_new ops (by simpa using hlen)
  refine ⟨hasToken_iff h t, ⟨fun he hm => ?_, fun hn => tokenToId_not_mem h t hn⟩, ?_⟩
  · obtain ⟨j, hj⟩ := List.getElem?_of_mem hm
    have := tokenToId_mem h t j hj
    have hl := (List.getElem?_eq_some_iff.mp hj).1
    have hb : (tokensAfter ops).length ≤ INVALID := h.2.2.1
    omega
  · intro hi
    unfold VocabT.idToToken
    exact if_pos hi

/-- C35: adding a duplicate is rejected without any change, adding a new token succeeds. -/
theorem C35_add (ops : List Op) (hlen : ops.length < INVALID) (t : List Nat) :
    ((VocabT.new.run ops).addToken t).1 = !(decide (t ∈ tokensAfter ops)) ∧
    (t ∈ tokensAfter ops → ((VocabT.new.run ops).addToken t).2 = VocabT.new.run ops) := by
  have h := holds_run VocabT.new [] holds_new ops (by simp; omega)
  by_cases hm : t ∈ tokensAfter ops
  · rw [addToken_dup h t hm]
    simp [hm]
  · have hl : (tokensAfter ops).length < INVALID := by
      have : ∀ (ops : List Op) (l : List (List Nat)), (ops.foldl (fun l o => match o with
          | .add t => if t ∈ l then l else l ++ [t]
          | .clear => []) l).length ≤ l.length + ops.length := by
        intro ops
        induction ops with
        | nil => intro l; simp
        | cons o ops ih =>
          intro l
          rw [List.foldl_cons]
          refine Nat.le_trans (ih _) ?_
          simp only [List.length_cons]
          split
          · split
            · omega
            · simp; omega
          · simp; omega
      have := this ops []
      simp only [List.length_nil] at this
      exact Nat.lt_of_le_of_lt this (by omega)
    have := addToken_new h t hm hl
    rw [this.1]
    simp [hm]

example : tokensAfter [.add [1], .add [2], .add [1], .clear, .add [3], .add [3], .add [4]] =
    [[3], [4]] := by decide

/-! ## C36 -/

/-- C36, partial: for distinct non-empty tokens of at most 256 bytes the loader reads back exactly
what the converter wrote.  Missing: the empty token, for which it is false (next theorem). -/
theorem C36_vocab_round_trip_partial (ts : List (List Nat)) (hne : ∀ t ∈ ts, t ≠ [] ∧ t.length ≤ 256)
    (hd : ts.Nodup) (hlen : ts.length ≤ INVALID) :
    ∃ ls ds v, writeBlobs ts = some (ls, ds) ∧
      initVocab (some ⟨true, 1, ls⟩) (some ⟨true, 1, ds⟩) VocabT.new some = .ok (some v) ∧
      v.tokenCount = ts.length ∧ (∀ i, v.idToToken i = ts[i]?.getD []) ∧
      (∀ (i : Nat) t, ts[i]? = some t → v.tokenToId t = i) := by
  obtain ⟨ls, h1, h2, h3, h4⟩ := writeBlobs_spec ts hne []
  rw [List.append_nil] at h3
  obtain ⟨v, e1, e2⟩ := (readTokens_spec ts.flatten ls 0 VocabT.new [] holds_new
    (by simp [h4]; exact hlen) (by omega)).1 (by simpa [h3] using hd)
  simp only [List.nil_append, List.drop_zero, h3] at e2
  refine ⟨ls, ts.flatten, v, h1, ?_, by simp [VocabT.tokenCount, e2.1], ?_, ?_⟩
  · unfold initVocab
    simp only [ne_eq, not_true_eq_false, or_self, if_false, Bool.not_true, Bool.false_eq_true, e1,
      Res.bind_ok]
    simp [h2]
  · intro i
    unfold VocabT.idToToken
    rw [e2.1]
    split
    · rename_i hl; rw [List.getElem?_eq_none hl]; rfl
    · rfl
  · intro i t hi
    exact tokenToId_mem e2 t i hi

example : (∀ t ∈ ([[97], [97, 98], [120, 0, 10]] : List (List Nat)), t ≠ [] ∧ t.length ≤ 256) ∧
    ([[97], [97, 98], [120, 0, 10]] : List (List Nat)).Nodup := by
  decide

/-- C36 refuted for the empty token: its length byte 0 is read back as 256, so the loader reads
outside the data (or, with enough data behind it, swallows the following tokens). -/
theorem C36_empty_token_counterexample :
    writeBlobs [[]] = some ([0], []) ∧
    initVocab (some ⟨true, 1, [0]⟩) (some ⟨true, 1, []⟩) VocabT.new some = .ub := by
  refine ⟨rfl, rfl⟩

/-- C36, exactly: of the lists of distinct tokens of at most 256 bytes (the others are refused by the
converter), those can be loaded again that do not have the empty token. -/
theorem C36_iff (ts : List (List Nat)) (hne : ∀ t ∈ ts, t.length ≤ 256) (hd : ts.Nodup)
    (hlen : ts.length ≤ INVALID) :
    ∃ ls ds, writeBlobs ts = some (ls, ds) ∧
      ((∃ v, initVocab (some ⟨true, 1, ls⟩) (some ⟨true, 1, ds⟩) VocabT.new some = .ok (some v)) ↔
        [] ∉ ts) := by
  obtain ⟨ls, h1, h2, h3⟩ := writeBlobs_total ts hne
  refine ⟨ls, ts.flatten, h1, ?_, ?_⟩
  · rintro ⟨v, hv⟩
    obtain ⟨ls', ds', e1, e2, e3, -⟩ := initVocab_holds _ _ some v (by
      intro t ht; simp only [Option.some.injEq] at ht; subst ht; simpa [h3] using hlen) hv
    simp only [IsBlob, Option.some.injEq, BlobTensor.mk.injEq, true_and] at e1 e2
    subst e1 e2
    rw [h2] at e3
    rw [← List.count_eq_zero]
    omega
  · intro hn
    obtain ⟨ls', ds', v, e1, e2, -⟩ := C36_vocab_round_trip_partial ts
      (fun t ht => ⟨fun h => hn (h ▸ ht), hne t ht⟩) hd hlen
    rw [h1] at e1
    simp only [Option.some.injEq, Prod.mk.injEq] at e1
    obtain ⟨e1, e1'⟩ := e1
    subst e1 e1'
    exact ⟨v, e2⟩

/-- C36: longer tokens are refused when the file is made. -/
theorem C36_too_long (ts : List (List Nat)) : writeBlobs ts = none ↔ ∃ t ∈ ts, 256 < t.length := by
  induction ts with
  | nil => simp [writeBlobs]
  | cons t ts ih =>
    rw [writeBlobs]
    split
    · next h => simp [h]
    · next h => simp [ih, h]

example : (∀ t ∈ [[97], []], t.length ≤ 256) ∧ [[97], []].Nodup ∧ [] ∈ [[97], ([] : List Nat)] := by decide

/-! ## C37 -/

/-- C37: success means that both tensors are one-dimensional byte tensors, the lengths exactly cover the
data, the tokens are distinct and the vocabulary holds exactly the pieces. -/
theorem C37_strict (sizeT dataT : Option BlobTensor) (init : VocabT → Option VocabT) (w : VocabT)
    (hlen : ∀ t, sizeT = some t → t.bytes.length ≤ INVALID)
    (h : initVocab sizeT dataT VocabT.new init = .ok (some w)) :
    ∃ ls ds, IsBlob sizeT ls ∧ IsBlob dataT ds ∧ totalLen ls = ds.length ∧ (cut ls ds).Nodup ∧
      ∃ v, init v = some w ∧ Shows v (cut ls ds) := by
  obtain ⟨ls, ds, h1, h2, h3, h4, v, h5, h6⟩ := initVocab_holds sizeT dataT init w hlen h
  exact ⟨ls, ds, h1, h2, h3, h4, v, h5, holds_shows h6⟩

/-- C37: a tensor that is missing, not one-dimensional or not of bytes is rejected. -/
theorem C37_reject (sizeT dataT : Option BlobTensor) (v0 : VocabT) (init : VocabT → Option VocabT)
    (h : (∀ l, ¬ IsBlob sizeT l) ∨ ∀ l, ¬ IsBlob dataT l) : initVocab sizeT dataT v0 init = .ok none := by
  unfold initVocab
  split
  · rfl
  · rfl
  · rename_i st dt
    obtain ⟨i1, n1, ls⟩ := st
    obtain ⟨i2, n2, ds⟩ := dt
    simp only
    split
    · rfl
    split
    · rfl
    split
    · rfl
    rename_i hn hi1 hi2
    have hn1 : n1 = 1 := by omega
    have hn2 : n2 = 1 := by omega
    have hi1 : i1 = true := by simpa using hi1
    have hi2 : i2 = true := by simpa using hi2
    subst hn1 hn2 hi1 hi2
    rcases h with h | h
    · exact absurd rfl (h ls)
    · exact absurd rfl (h ds)

example : ∀ l, ¬ IsBlob (some ⟨true, 2, [1]⟩) l := by intro l h; cases h

/-- C37, partial: if the lengths do not exceed the data, nothing outside is read; if the tokens are
distinct and cover the data, the vocabulary of these tokens is handed to `vocab->init`, otherwise the
call fails.
Missing: blobs whose lengths exceed the data, which are read out of bounds (next theorem). -/
theorem C37_memory_safe_partial (ls ds : List Nat) (hlen : ls.length ≤ INVALID)
    (init : VocabT → Option VocabT) (hfit : totalLen ls ≤ ds.length) :
    ((cut ls ds).Nodup ∧ totalLen ls = ds.length →
      ∃ v, Shows v (cut ls ds) ∧
        initVocab (some ⟨true, 1, ls⟩) (some ⟨true, 1, ds⟩) VocabT.new init = .ok (init v)) ∧
    (¬ ((cut ls ds).Nodup ∧ totalLen ls = ds.length) →
      initVocab (some ⟨true, 1, ls⟩) (some ⟨true, 1, ds⟩) VocabT.new init = .ok none) := by
  have hspec := readTokens_spec ds ls 0 VocabT.new [] holds_new (by simpa using hlen) (by omega)
  simp only [List.nil_append, List.drop_zero, Nat.zero_add] at hspec
  unfold initVocab
  simp only [ne_eq, not_true_eq_false, or_self, if_false, Bool.not_true, Bool.false_eq_true]
  by_cases hnd : (cut ls ds).Nodup
  · obtain ⟨v, e1, e2⟩ := hspec.1 hnd
    rw [e1]
    simp only [Res.bind_ok]
    by_cases ht : totalLen ls = ds.length
    · refine ⟨fun _ => ⟨v, holds_shows e2, by simp [ht]⟩, fun h => absurd ⟨hnd, ht⟩ h⟩
    · exact ⟨fun h => absurd h.2 ht, fun _ => by simp [ht]⟩
  · obtain ⟨q, hq⟩ := hspec.2 hnd
    rw [hq]
    exact ⟨fun h => absurd h.1 hnd, fun _ => rfl⟩

example : totalLen [1, 2] ≤ [97, 98, 99].length ∧ cut [1, 2] [97, 98, 99] = [[97], [98, 99]] := by
  decide

/-- C37 refuted: a length blob that claims five bytes of a one-byte data tensor is read out of
bounds before any check. -/
theorem C37_counterexample (init : VocabT → Option VocabT) :
    initVocab (some ⟨true, 1, [5]⟩) (some ⟨true, 1, [97]⟩) VocabT.new init = .ub := rfl

/-- C37, exactly when it reads outside the data: some token is the first to end behind the data, and no two
tokens before it are equal. -/
theorem C37_ub_iff (ls ds : List Nat) (hlen : ls.length ≤ INVALID) (init : VocabT → Option VocabT) :
    initVocab (some ⟨true, 1, ls⟩) (some ⟨true, 1, ds⟩) VocabT.new init = .ub ↔
      ∃ k, k < ls.length ∧ totalLen (ls.take k) ≤ ds.length ∧ ds.length < totalLen (ls.take (k + 1)) ∧
        (cut (ls.take k) ds).Nodup := by
  have h := readTokens_ub ds ls 0 VocabT.new [] holds_new (by simpa using hlen) (by omega)
  simp only [List.nil_append, List.drop_zero, Nat.zero_add] at h
  rw [← h]
  unfold initVocab
  simp only [ne_eq, not_true_eq_false, or_self, if_false, Bool.not_true, Bool.false_eq_true]
  rcases readTokens_cases ds ls 0 VocabT.new with h | ⟨⟨r, p⟩, h⟩
  · rw [h]; simp
  · rw [h]
    simp only [Res.bind_ok, reduceCtorEq, iff_false]
    cases r with
    | none => simp [pure]
    | some v => dsimp only; split <;> simp [pure]

/-- C37: apart from that, blobs whose lengths exceed the data are rejected. -/
theorem C37_excess (ls ds : List Nat) (hlen : ls.length ≤ INVALID) (init : VocabT → Option VocabT)
    (h : ds.length < totalLen ls) :
    initVocab (some ⟨true, 1, ls⟩) (some ⟨true, 1, ds⟩) VocabT.new init = .ub ∨
    initVocab (some ⟨true, 1, ls⟩) (some ⟨true, 1, ds⟩) VocabT.new init = .ok none := by
  unfold initVocab
  simp only [ne_eq, not_true_eq_false, or_self, if_false, Bool.not_true, Bool.false_eq_true]
  rcases readTokens_cases ds ls 0 VocabT.new with h' | ⟨⟨r, p⟩, h'⟩
  · rw [h']; exact .inl rfl
  · rw [h']
    cases r with
    | none => exact .inr rfl
    | some v =>
      have := readTokens_fits ds ls 0 VocabT.new v p (by omega) h'
      omega

/-- Both happen. -/
example : initVocab (some ⟨true, 1, [1, 1, 5]⟩) (some ⟨true, 1, [97, 97]⟩) VocabT.new some = .ok none ∧
    initVocab (some ⟨true, 1, [1, 1, 5]⟩) (some ⟨true, 1, [97, 98]⟩) VocabT.new some = .ub := by
  constructor <;> rfl

/-! ## C38 -/

/-- C38: `get_token_id` is the metadata value if present, else the id of the first known fallback
token, else invalid. -/
theorem C38_get_token_id (m : Option Nat) (toId : List Nat → Nat) (a1 a2 : Option (List Nat)) :
    getTokenId m toId a1 a2 =
      (firstValid (match a1 with
        | none => [m]
        | some t1 => match a2 with
          | none => [m, some (toId t1)]
          | some t2 => [m, some (toId t1), some (toId t2)])).getD INVALID := by
  unfold getTokenId
  cases m with
  | none =>
    cases a1 with
    | none => simp [firstValid]
    | some t1 =>
      cases a2 with
      | none => simp [firstValid]; split <;> simp_all
      | some t2 =>
        simp [firstValid]
        split
        · split <;> simp_all
        · rfl
  | some i =>
    by_cases hi : i = INVALID
    · cases a1 with
      | none => simp [firstValid, hi]
      | some t1 =>
        cases a2 with
        | none => simp [firstValid, hi]; split <;> simp_all
        | some t2 =>
          simp [firstValid, hi]
          split
          · split <;> simp_all
          · rfl
    · cases a1 with
      | none => simp [firstValid, hi]
      | some t1 => cases a2 <;> simp [firstValid, hi]

/-- C38 for BERT: `vocab::init` succeeds exactly if the vocabulary is not empty and each of the
five special ids is determined by its key or one of its two fallback tokens. -/
theorem C38_bert_success_iff (m : Meta) (v : VocabT) :
    let r := fun (x : Option Nat) (t1 t2 : String) =>
      firstValid [x, some (v.tokenToId (ascii t1)), some (v.tokenToId (ascii t2))]
    (∃ s, bertSpecials m v = some s) ↔
      v.tokenCount ≠ 0 ∧ (r m.cls "[CLS]" "<s>").isSome ∧ (r m.mask "[MASK]" "<mask>").isSome ∧
      (r m.pad "[PAD]" "<pad>").isSome ∧ (r m.sep "[SEP]" "</s>").isSome ∧
      (r m.unk "[UNK]" "<unk>").isSome := by
  have key : ∀ l : List (Option Nat), (firstValid l).getD INVALID = INVALID ↔ ¬ (firstValid l).isSome := by
    intro l
    have : firstValid l ≠ some INVALID := by
      induction l with
      | nil => simp [firstValid]
      | cons o l ih =>
        cases o with
        | none => simpa [firstValid] using ih
        | some i => rw [firstValid]; split <;> simp_all
    cases h : firstValid l with
    | none => simp
    | some i => simp; rw [h] at this; simpa using this
  simp only [bertSpecials, C38_get_token_id, key]
  constructor
  · rintro ⟨s, hs⟩
    split at hs
    · cases hs
    · rename_i h
      split at hs
      · cases hs
      · rename_i h0
        simp only [not_or, Decidable.not_not] at h
        exact ⟨h0, h⟩
  · rintro ⟨h0, h1, h2, h3, h4, h5⟩
    rw [if_neg (by simp [h1, h2, h3, h4, h5]), if_neg h0]
    exact ⟨_, rfl⟩

/-- C38 for BERT: the ids chosen. -/
theorem C38_bert_values (m : Meta) (v : VocabT) (s : Special) (h : bertSpecials m v = some s) :
    let r := fun (x : Option Nat) (t1 t2 : String) =>
      firstValid [x, some (v.tokenToId (ascii t1)), some (v.tokenToId (ascii t2))]
    r m.cls "[CLS]" "<s>" = some s.cls ∧ r m.mask "[MASK]" "<mask>" = some s.mask ∧
    r m.pad "[PAD]" "<pad>" = some s.pad ∧ r m.sep "[SEP]" "</s>" = some s.sep ∧
    r m.unk "[UNK]" "<unk>" = some s.unk := by
  have key : ∀ l : List (Option Nat), (firstValid l).getD INVALID ≠ INVALID →
      firstValid l = some ((firstValid l).getD INVALID) := by
    intro l h
    cases hl : firstValid l with
    | none => rw [hl] at h; simp at h
    | some i => rfl
  simp only [bertSpecials, C38_get_token_id] at h
  split at h
  · cases h
  · rename_i hh
    split at h
    · cases h
    · simp only [not_or] at hh
      cases h
      exact ⟨key _ hh.1, key _ hh.2.1, key _ hh.2.2.1, key _ hh.2.2.2.1, key _ hh.2.2.2.2⟩

/-- C38 for RoBERTa: bos and cls (eos and sep) substitute each other. -/
theorem C38_roberta_values (m : Meta) (toId : List Nat → Nat) (s : Special)
    (h : robertaSpecials m toId = some s) :
    let t := fun (x : String) => some (toId (ascii x))
    firstValid [m.bos, t "<s>", m.cls] = some s.bos ∧
    firstValid [m.cls, t "<s>", m.bos] = some s.cls ∧
    firstValid [m.eos, t "</s>", m.sep] = some s.eos ∧
    firstValid [m.sep, t "</s>", m.eos] = some s.sep ∧
    firstValid [m.mask, t "<mask>"] = some s.mask ∧ firstValid [m.pad, t "<pad>"] = some s.pad ∧
    firstValid [m.unk, t "<unk>"] = some s.unk := by
  have fv : ∀ (x : Option Nat) l, firstValid (x :: l) =
      if x.getD INVALID = INVALID then firstValid l else some (x.getD INVALID) := by
    intro x l
    cases x with
    | none => simp [firstValid]
    | some i => simp [firstValid]
  have g : ∀ (x : Option Nat) (y : List Nat), getTokenId x toId (some y) none =
      if x.getD INVALID = INVALID then toId y else x.getD INVALID := by
    intro x y
    unfold getTokenId
    simp only []
    split
    · split <;> simp_all
    · rfl
  simp only [robertaSpecials, g] at h
  simp only [fv, firstValid]
  grind

/-- C38 for RoBERTa: the special tokens are accepted exactly if all seven are determined. -/
theorem C38_roberta_success_iff (m : Meta) (toId : List Nat → Nat) :
    let t := fun (x : String) => some (toId (ascii x))
    (∃ s, robertaSpecials m toId = some s) ↔
      (firstValid [m.bos, t "<s>", m.cls]).isSome ∧ (firstValid [m.eos, t "</s>", m.sep]).isSome ∧
      (firstValid [m.mask, t "<mask>"]).isSome ∧ (firstValid [m.pad, t "<pad>"]).isSome ∧
      (firstValid [m.unk, t "<unk>"]).isSome := by
  have fv : ∀ (x : Option Nat) l, firstValid (x :: l) =
      if x.getD INVALID = INVALID then firstValid l else some (x.getD INVALID) := by
    intro x l
    cases x with
    | none => simp [firstValid]
    | some i => simp [firstValid]
  have g : ∀ (x : Option Nat) (y : List Nat), getTokenId x toId (some y) none =
      if x.getD INVALID = INVALID then toId y else x.getD INVALID := by
    intro x y
    unfold getTokenId
    simp only []
    split
    · split <;> simp_all
    · rfl
  constructor
  · rintro ⟨s, hs⟩
    obtain ⟨h1, _, h2, _, h3, h4, h5⟩ := C38_roberta_values m toId s hs
    simp [h1, h2, h3, h4, h5]
  · intro h
    simp only [fv, firstValid] at h
    simp only [robertaSpecials, g]
    rw [if_neg]
    · exact ⟨_, rfl⟩
    · obtain ⟨h1, h2, h3, h4, h5⟩ := h
      generalize toId (ascii "<s>") = a at *
      generalize toId (ascii "</s>") = b at *
      simp only [not_or]
      refine ⟨?_, ?_, ?_, ?_, ?_, ?_, ?_⟩ <;> grind

/-- C38, partial: if the metadata ids that are present are smaller than the vocabulary size, all
special ids are valid vocabulary ids.  Missing: the loader does not check the range of metadata
ids (next theorem). -/
theorem C38_bert_ids_valid_partial (m : Meta) (v : VocabT) (l : List (List Nat)) (s : Special)
    (hv : Holds v l) (h : bertSpecials m v = some s)
    (hm : ∀ i, (m.cls = some i ∨ m.mask = some i ∨ m.pad = some i ∨ m.sep = some i ∨ m.unk = some i) →
      i ≠ INVALID → i < l.length) :
    s.cls < l.length ∧ s.mask < l.length ∧ s.pad < l.length ∧ s.sep < l.length ∧ s.unk < l.length := by
  have key : ∀ (x : Option Nat) (t1 t2 : List Nat) (i : Nat), (∀ j, x = some j → j ≠ INVALID → j < l.length) →
      firstValid [x, some (v.tokenToId t1), some (v.tokenToId t2)] = some i → i < l.length := by
    intro x t1 t2 i hx hi
    have h1 := tokenToId_lt hv t1
    have h2 := tokenToId_lt hv t2
    cases x with
    | none => simp only [firstValid] at hi; grind
    | some j => simp only [firstValid] at hi; have := hx j rfl; grind
  obtain ⟨h1, h2, h3, h4, h5⟩ := C38_bert_values m v s h
  exact ⟨key _ _ _ _ (fun j hj => hm j (by simp [hj])) h1, key _ _ _ _ (fun j hj => hm j (by simp [hj])) h2,
    key _ _ _ _ (fun j hj => hm j (by simp [hj])) h3, key _ _ _ _ (fun j hj => hm j (by simp [hj])) h4,
    key _ _ _ _ (fun j hj => hm j (by simp [hj])) h5⟩

/-- The vocabulary of the examples below: the five BERT specials. -/
def fiveSpecials : VocabT :=
  VocabT.new.run ((["[PAD]", "[UNK]", "[CLS]", "[SEP]", "[MASK]"].map ascii).map Op.add)

-- the fallback tokens resolve without any metadata
example : bertSpecials ⟨none, none, none, none, none, none, none⟩ fiveSpecials =
    some ⟨2, 4, 0, 3, 1, INVALID, INVALID⟩ := by decide

-- the hypotheses of the partial theorem are met by this vocabulary
example : Holds fiveSpecials (["[PAD]", "[UNK]", "[CLS]", "[SEP]", "[MASK]"].map ascii) := by
  have := holds_run VocabT.new [] holds_new
    ((["[PAD]", "[UNK]", "[CLS]", "[SEP]", "[MASK]"].map ascii).map Op.add) (by decide)
  exact this

/-- C38 refuted: a metadata id outside the vocabulary is accepted (here CLS id 1000 with five
tokens). -/
theorem C38_range_counterexample :
    bertSpecials ⟨some 1000, none, none, none, none, none, none⟩ fiveSpecials =
      some ⟨1000, 4, 0, 3, 1, INVALID, INVALID⟩ ∧ fiveSpecials.tokenCount = 5 := by decide

/-! ## C39 -/

/-- C39: when the dictionary has distinct tokens and distinct ids in range, the converter produces a
gap-free list of distinct tokens that agrees with the dictionary. -/
theorem C39_converter_tokens (n : Nat) (dict : List (List Nat × Nat)) (ts : List (List Nat))
    (htok : (dict.map (·.1)).Nodup) (h : converterTokens n dict = some ts) :
    ts.length = n ∧ ts.Nodup ∧ (∀ t i, (t, i) ∈ dict → ts[i]? = some t) ∧
    (∀ i, i < n → (∀ t, (t, i) ∉ dict) → ∃ k, ts[i]? = some (unusedName k) ∧
      unusedName k ∉ dict.map (·.1)) := by
  unfold converterTokens at h
  split at h
  · cases h
  · rename_i tokens hp
    obtain ⟨hl, hplace⟩ := placeTokens_spec _ _ _ hp
    obtain ⟨out, h1, h2, h3, h4, h5⟩ := fillLoop_spec tokens tokens 0
    rw [h1] at h
    cases h
    simp only [List.length_replicate] at hl
    have hrep : ∀ (i : Nat) t, ¬ (List.replicate n (none : Option (List Nat)))[i]? = some (some t) := by
      intro i t
      rw [List.getElem?_replicate]
      split <;> simp
    have hin : ∀ (i : Nat) t, tokens[i]? = some (some t) ↔ (t, i) ∈ dict := by
      intro i t
      rw [hplace i t]
      simp [hrep i t]
    have hmem : ∀ t, some t ∈ tokens ↔ t ∈ dict.map (·.1) := by
      intro t
      constructor
      · intro hm
        obtain ⟨i, hi⟩ := List.getElem?_of_mem hm
        exact List.mem_map.mpr ⟨(t, i), (hin i t).mp hi, rfl⟩
      · intro hm
        obtain ⟨⟨t', i⟩, hd, rfl⟩ := List.mem_map.mp hm
        exact List.mem_of_getElem? ((hin i t').mpr hd)
    -- each position is either a dictionary token or a filler
    have hpos : ∀ i : Nat, i < n → (∃ t, tokens[i]? = some (some t)) ∨ tokens[i]? = some none := by
      intro i hi
      have : tokens[i]? = some tokens[i] := by simp [hl, hi]
      rw [this]
      cases tokens[i] with
      | none => exact Or.inr rfl
      | some t => exact Or.inl ⟨t, rfl⟩
    have huniq : ∀ i j t, (t, i) ∈ dict → (t, j) ∈ dict → i = j := by
      intro i j t hi hj
      obtain ⟨a, ha, ea⟩ := List.getElem_of_mem hi
      obtain ⟨b, hb, eb⟩ := List.getElem_of_mem hj
      have := getElem?_inj_of_nodup htok (i := a) (j := b) (t := t) (by simp [ha, ea]) (by simp [hb, eb])
      subst this
      rw [ea] at eb
      exact (Prod.mk.inj eb).2
    refine ⟨by omega, ?_, ?_, ?_⟩
    · rw [List.nodup_iff_pairwise_ne, List.pairwise_iff_getElem]
      intro i j hi hj hij heq
      have hni : i < n := by omega
      have hnj : j < n := by omega
      have gi : ts[i]? = some ts[i] := by simp [hi]
      have gj : ts[j]? = some ts[i] := by rw [heq]; simp [hj]
      rcases hpos i hni with ⟨t, ht⟩ | ht <;> rcases hpos j hnj with ⟨u, hu⟩ | hu
      · have a := h3 i t ht
        have b := h3 j u hu
        rw [gi] at a
        rw [gj] at b
        have e : t = u := by rw [← Option.some.inj a, Option.some.inj b]
        subst e
        have := huniq i j t ((hin i t).mp ht) ((hin j t).mp hu)
        omega
      · have a := h3 i t ht
        obtain ⟨k, _, b, hk⟩ := h4 j hu
        rw [gi] at a
        rw [gj] at b
        have e : t = unusedName k := by rw [← Option.some.inj a, Option.some.inj b]
        subst e
        exact hk (List.mem_of_getElem? ht)
      · have a := h3 j u hu
        obtain ⟨k, _, b, hk⟩ := h4 i ht
        rw [gj] at a
        rw [gi] at b
        have e : u = unusedName k := by rw [← Option.some.inj a, Option.some.inj b]
        subst e
        exact hk (List.mem_of_getElem? hu)
      · obtain ⟨k, _, b, hk⟩ := h4 i ht
        refine h5 i j k (by omega) ht hu b ?_
        rw [gj, ← gi, b]
    · intro t i hd
      exact h3 i t ((hin i t).mpr hd)
    · intro i hi hnd
      rcases hpos i hi with ⟨t, ht⟩ | ht
      · exact absurd ((hin i t).mp ht) (hnd t)
      · obtain ⟨k, _, b, hk⟩ := h4 i ht
        exact ⟨k, b, fun hm => hk ((hmem _).mpr hm)⟩

/-- C39: the converter succeeds for every dictionary whose ids are distinct and in range. -/
theorem C39_converter_succeeds (n : Nat) (dict : List (List Nat × Nat))
    (hid : (dict.map (·.2)).Nodup) (hr : ∀ d ∈ dict, d.2 < n) : ∃ ts, converterTokens n dict = some ts := by
  have place : ∀ (dict : List (List Nat × Nat)) (tokens : List (Option (List Nat))),
      (dict.map (·.2)).Nodup → (∀ d ∈ dict, tokens[d.2]? = some none) →
      ∃ out, placeTokens tokens dict = some out := by
    intro dict
    induction dict with
    | nil => intro tokens _ _; exact ⟨tokens, rfl⟩
    | cons d dict ih =>
      intro tokens hnd hfree
      obtain ⟨t, i⟩ := d
      simp only [List.map_cons, List.nodup_cons] at hnd
      rw [placeTokens, hfree (t, i) (by simp)]
      refine ih _ hnd.2 ?_
      intro d hd
      rw [List.getElem?_set]
      have : i ≠ d.2 := fun e => hnd.1 (List.mem_map.mpr ⟨d, hd, e.symm⟩)
      rw [if_neg this]
      exact hfree d (by simp [hd])
  obtain ⟨out, ho⟩ := place dict (List.replicate n none) hid (fun d hd => by
    rw [List.getElem?_replicate, if_pos (hr d hd)])
  obtain ⟨ts, ht, _⟩ := fillLoop_spec out out 0
  exact ⟨ts, by rw [converterTokens, ho]; exact ht⟩

-- a dictionary with holes that already uses the first placeholder name
example : (([(unusedName 0, 1), ([97], 3)] : List (List Nat × Nat)).map (·.2)).Nodup ∧
    (∀ d ∈ ([(unusedName 0, 1), ([97], 3)] : List (List Nat × Nat)), d.2 < 5) ∧
    (([(unusedName 0, 1), ([97], 3)] : List (List Nat × Nat)).map (·.1)).Nodup := by
  refine ⟨by decide, by simp, ?_⟩
  simp [unusedName, ascii]

end Berts.Props
