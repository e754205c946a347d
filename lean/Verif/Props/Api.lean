import Verif.Model.Api

/-! # Properties C49 and C50: the C interface -/

namespace Berts.Props

open Berts.Api

/-! ## C49 -/

/-- C49: without a model (null context, or a context without model) every id accessor gives the
invalid id, the vocabulary size is 0, boolean calls return false and outputs are untouched. -/
theorem C49_no_model_partial (ctx : Option Ctx) (h : ctx = none ∨ ∃ c, ctx = some c ∧ c.model = none)
    (text : List Nat) (id : Nat) (buf : Option (List Nat)) (len : Option Nat) :
    bertsClsId ctx = INVALID ∧ bertsMaskId ctx = INVALID ∧ bertsPadId ctx = INVALID ∧
    bertsSepId ctx = INVALID ∧ bertsUnkId ctx = INVALID ∧ bertsBosId ctx = INVALID ∧
    bertsEosId ctx = INVALID ∧ bertsVocabSize ctx = 0 ∧ (ctx = none → bertsArch ctx = .unknown) ∧
    bertsIdToToken ctx id buf len = .ok ⟨false, buf, len⟩ ∧
    bertsTokenize ctx text buf len = .ok ⟨false, buf, len⟩ := by
  rcases h with rfl | ⟨c, rfl, hc⟩
  · exact ⟨rfl, rfl, rfl, rfl, rfl, rfl, rfl, rfl, fun _ => rfl, rfl, rfl⟩
  · simp [bertsClsId, bertsMaskId, bertsPadId, bertsSepId, bertsUnkId, bertsBosId, bertsEosId,
      bertsVocabSize, bertsIdToToken, bertsTokenize, idOr, getModel, hc]

example : ∃ ctx : Option Ctx, ctx = none ∨ ∃ c, ctx = some c ∧ c.model = none := ⟨none, Or.inl rfl⟩

/-- C49 refuted for `berts_token_to_id`: with a null context it returns 0, a valid id, instead of
the invalid id. -/
theorem C49_token_to_id_counterexample (token : List Nat) :
    bertsTokenToId none token = .ok 0 ∧ (0 : Nat) ≠ INVALID := by
  exact ⟨rfl, by decide⟩

/-! ## C50 -/

/-- C50: the complete result of `berts_id_to_token` for a buffer that really has `*out_len`
elements: the first `min c n` bytes are written, the rest of the buffer is untouched, the length is
the full length and the return value says whether the token is non-empty. -/
theorem C50_id_to_token (c : Ctx) (m : ModelI) (hm : c.model = some m) (id : Nat) (token : List Nat)
    (ht : m.idToToken id = .ok token) (buf : List Nat) (cap : Nat) (hcap : cap ≤ buf.length) :
    bertsIdToToken (some c) id (some buf) (some cap) =
      .ok ⟨decide (token ≠ []), some (token.take cap ++ buf.drop (min cap token.length)),
        some token.length⟩ := by
  unfold bertsIdToToken
  simp only [getModel, hm, ht, Res.bind_ok, emit, copyInto]
  rw [if_pos (by omega)]
  simp only [Res.bind_ok, Res.pure_eq, Res.ok.injEq, Out.mk.injEq, and_true]
  refine ⟨by cases token <;> simp, ?_⟩
  rw [Option.some.injEq]
  congr 1
  rcases Nat.le_total cap token.length with h | h
  · rw [Nat.min_eq_left h]
  · rw [Nat.min_eq_right h, List.take_length, List.take_of_length_le h]

/-- C50: the complete result of `berts_tokenize`, with ids framed by CLS and SEP. -/
theorem C50_tokenize (c : Ctx) (m : ModelI) (hm : c.model = some m) (text toks : List Nat)
    (ht : m.tokenize text = .ok (true, toks)) (hc : m.clsId ≠ INVALID) (hs : m.sepId ≠ INVALID)
    (buf : List Nat) (cap : Nat) (hcap : cap ≤ buf.length) :
    let ids := m.clsId :: toks ++ [m.sepId]
    bertsTokenize (some c) text (some buf) (some cap) =
      .ok ⟨true, some (ids.take cap ++ buf.drop (min cap ids.length)), some ids.length⟩ := by
  intro ids
  unfold bertsTokenize
  simp only [getModel, hm, hc, hs, if_false, ht, Res.bind_ok, if_true, emit, copyInto]
  have hids : [m.clsId] ++ toks ++ [m.sepId] = ids := rfl
  rw [hids, if_pos (by omega)]
  simp only [Res.bind_ok, Res.pure_eq, Res.ok.injEq, Out.mk.injEq, and_true, true_and]
  rw [Option.some.injEq]
  congr 1
  rcases Nat.le_total cap ids.length with h | h
  · rw [Nat.min_eq_left h]
  · rw [Nat.min_eq_right h, List.take_length, List.take_of_length_le h]

/-- C50: with a null buffer only the length is reported; with a null length pointer nothing is
written. -/
theorem C50_tokenize_dry_run (c : Ctx) (m : ModelI) (hm : c.model = some m) (text toks : List Nat)
    (ht : m.tokenize text = .ok (true, toks)) (hc : m.clsId ≠ INVALID) (hs : m.sepId ≠ INVALID)
    (cap : Nat) (buf : Option (List Nat)) :
    bertsTokenize (some c) text none (some cap) = .ok ⟨true, none, some (toks.length + 2)⟩ ∧
    bertsTokenize (some c) text buf none = .ok ⟨true, buf, none⟩ := by
  unfold bertsTokenize
  simp [getModel, hm, hc, hs, ht, emit]

/-- C50: the same for `berts_id_to_token`. -/
theorem C50_id_to_token_dry_run (c : Ctx) (m : ModelI) (hm : c.model = some m) (id : Nat)
    (token : List Nat) (ht : m.idToToken id = .ok token) (cap : Nat) (buf : Option (List Nat)) :
    bertsIdToToken (some c) id none (some cap) = .ok ⟨decide (token ≠ []), none, some token.length⟩ ∧
    bertsIdToToken (some c) id buf none = .ok ⟨decide (token ≠ []), buf, none⟩ := by
  unfold bertsIdToToken
  cases token <;> simp [getModel, hm, ht, emit]

/-- C50: the two-call protocol: calling again with a buffer of the reported size gives the whole id
list. -/
theorem C50_tokenize_second_call (c : Ctx) (m : ModelI) (hm : c.model = some m) (text toks : List Nat)
    (ht : m.tokenize text = .ok (true, toks)) (hc : m.clsId ≠ INVALID) (hs : m.sepId ≠ INVALID)
    (n : Nat) (hn : bertsTokenize (some c) text none (some 0) = .ok ⟨true, none, some n⟩)
    (buf : List Nat) (hb : buf.length = n) :
    bertsTokenize (some c) text (some buf) (some n) =
      .ok ⟨true, some (m.clsId :: toks ++ [m.sepId]), some n⟩ := by
  rw [(C50_tokenize_dry_run c m hm text toks ht hc hs 0 none).1] at hn
  have hn' : toks.length + 2 = n := by simpa using hn
  rw [C50_tokenize c m hm text toks ht hc hs buf n (by omega)]
  have hl : (m.clsId :: toks ++ [m.sepId]).length = n := by simp; omega
  rw [hl, Nat.min_self, ← hb, List.drop_length, hb, ← hl, List.take_length]
  simp

/-- C50: if the model's tokenizer fails, the outputs are untouched. -/
theorem C50_tokenize_failure (c : Ctx) (m : ModelI) (hm : c.model = some m) (text toks : List Nat)
    (ht : m.tokenize text = .ok (false, toks)) (buf : Option (List Nat)) (len : Option Nat) :
    bertsTokenize (some c) text buf len = .ok ⟨false, buf, len⟩ := by
  unfold bertsTokenize
  simp only [getModel, hm]
  split
  · rfl
  · split
    · rfl
    · simp [ht]

/-- C50: if the model has no CLS or no SEP token, tokenizing fails and the outputs are untouched. -/
theorem C50_tokenize_no_special (c : Ctx) (m : ModelI) (hm : c.model = some m)
    (h : m.clsId = INVALID ∨ m.sepId = INVALID) (text : List Nat) (buf : Option (List Nat))
    (len : Option Nat) : bertsTokenize (some c) text buf len = .ok ⟨false, buf, len⟩ := by
  unfold bertsTokenize
  simp only [getModel, hm]
  rcases h with h | h
  · rw [if_pos h]
  · split
    · rfl
    · simp only [h, if_true]

-- a model that meets the hypotheses
example : ∃ (c : Ctx) (m : ModelI), c.model = some m ∧ m.tokenize [97] = .ok (true, [7]) ∧
    m.clsId ≠ INVALID ∧ m.sepId ≠ INVALID ∧ m.idToToken 7 = .ok [97] :=
  ⟨⟨.bert, some ⟨1, 2, 3, 4, 5, INVALID, INVALID, 10, fun _ => .ok [97], fun _ => .ok 7,
    fun _ => .ok (true, [7])⟩⟩, _, rfl, rfl, by decide, by decide, rfl⟩

-- and one without CLS
example : ∃ (c : Ctx) (m : ModelI), c.model = some m ∧ (m.clsId = INVALID ∨ m.sepId = INVALID) :=
  ⟨⟨.bert, some ⟨INVALID, 2, 3, 4, 5, INVALID, INVALID, 10, fun _ => .ok [97], fun _ => .ok 7,
    fun _ => .ok (true, [7])⟩⟩, _, rfl, Or.inl rfl⟩

end Berts.Props
