import Verif.Spec.Count
import Verif.Proofs.Count
import Verif.Props.Pipeline
import Verif.Props.Api

/-! # Property C108: how many tokens a text has -/

namespace Berts.Props

open Berts.Unicode Berts.Vocab Berts.Spec
open Berts.Api (bertsTokenize ModelI)
open Berts.Bert (Icu TokInfo bertModel)
open Berts.Roberta (RVocab robertaModel)
open Berts.Load (load apiCtx emodel Ledger World Gguf ConvOk NamesOk Consistent HasU32)
open Berts.Eval (expected layersOf bertsEval)
open Berts.Graph (Gg)

/-- C108: byte pair encoding never gives more tokens than the text has characters. -/
theorem C108_bpe (b : Bpe.Bpe) (v : Bpe.Env) (text : Bpe.Str) (toks : List Bpe.Str)
    (h : Bpe.tokenize b v text [] none = .ok (toks, none)) : toks.length ≤ (decodeUnits text).length := by
  have := (Count.bpeTokenize_length (by simp) h).1
  rw [Count.codepoints_dl] at this
  simpa using this

/-- C108: a RoBERTa text never has more tokens than bytes, whatever the vocabulary and the merges and whether
or not the bytes are UTF-8. -/
theorem C108_roberta (e : Roberta.Env) (hf : RegexContract e.matches_) (r : RVocab)
    (setOrder : List (List Nat) → List (List Nat)) (text ids : List Nat)
    (h : Roberta.tokenize e r setOrder text = .ok (some ids)) : ids.length ≤ text.length :=
  Count.roberta_length hf h

/-- C108: a BERT text never has more tokens than its composed form has characters. -/
theorem C108_bert (u : Icu) (cond : TokInfo) (v : VocabT) (hV : v.tokenCount ≤ INVALID) (sp : Special)
    (cs ds : List Nat) (hcs : ∀ c ∈ cs, IsScalar c) (hds : ∀ c ∈ ds, IsScalar c)
    (hn : u.nfc (utf16Encode cs) = utf16Encode ds)
    (hlow : cond.lowerCase = true → (∀ w, w ≠ [] → u.lower w ≠ []) ∧ u.nfc [] = [] ∧ u.nfd [] = [])
    (hstrip : cond.lowerCase = false → cond.stripAcc = true → BasicMode cond ∧ AccentsShrink u ds)
    (ids : List Nat) (h : Bert.tokenize u cond v sp (utf8Encode cs) = .ok ids) : ids.length ≤ ds.length := by
  refine Count.bert_length u cond v hV sp cs ds hcs hds hn hlow (fun h1 h2 => ?_) ids h
  obtain ⟨g1, g2⟩ := hstrip h1 h2
  refine ⟨g1, fun ws hws => ⟨(g2 ws hws).1, ?_⟩⟩
  have h3 := (g2 ws hws).2
  have h4 : ∀ l : List Nat, (eachCp true l).map (·.c) = (decodeUnits l).filterMap id := by
    intro l
    rw [eachCp_spec]
    generalize decodeUnits l = x
    induction x with
    | nil => rfl
    | cons a x ih => cases a <;> simp_all
  rw [h4]
  exact h3

/-- A successful call reports the number of ids, and delivers them if the array is large enough. -/
theorem call_ids (c : Api.Ctx) (m : ModelI) (hm : c.model = some m) (text buf out : List Nat) (n : Nat)
    (h : bertsTokenize (some c) text (some buf) (some buf.length) = .ok ⟨true, some out, some n⟩) :
    ∃ toks, m.tokenize text = .ok (true, toks) ∧ n = toks.length + 2 ∧
      (n ≤ buf.length → out.take n = m.clsId :: toks ++ [m.sepId]) := by
  have h0 := h
  unfold bertsTokenize at h
  simp only [Api.getModel, hm] at h
  split at h
  · cases h
  · rename_i hc
    split at h
    · cases h
    · rename_i hs
      cases ht : m.tokenize text with
      | ub => rw [ht] at h; cases h
      | abort => rw [ht] at h; cases h
      | hang => rw [ht] at h; cases h
      | ok q =>
        obtain ⟨ok, toks⟩ := q
        cases ok with
        | false => rw [ht] at h; cases h
        | true =>
          rw [C50_tokenize c m hm text toks ht hc hs buf buf.length (Nat.le_refl _)] at h0
          simp only [Res.ok.injEq, Api.Out.mk.injEq, Option.some.injEq, true_and] at h0
          obtain ⟨h1, h2⟩ := h0
          refine ⟨toks, rfl, by simpa using h2.symm, fun hn => ?_⟩
          rw [← h1, List.take_of_length_le (l := m.clsId :: toks ++ [m.sepId]) (by omega), ← h2,
            List.take_append_of_le_length (Nat.le_refl _), List.take_length]

/-- C108: an array with two elements more than the text has bytes is large enough for every RoBERTa text: a
successful call delivers all ids. -/
theorem C108_roberta_buffer (e : Roberta.Env) (hf : RegexContract e.matches_) (r : RVocab)
    (setOrder : List (List Nat) → List (List Nat)) (a : Api.Arch) (text buf out : List Nat) (n : Nat)
    (hb : text.length + 2 ≤ buf.length)
    (h : bertsTokenize (some ⟨a, some (robertaModel e r setOrder)⟩) text (some buf) (some buf.length) =
      .ok ⟨true, some out, some n⟩) :
    n ≤ text.length + 2 ∧ ∃ ids, Roberta.tokenize e r setOrder text = .ok (some ids) ∧
      out.take n = r.special.cls :: ids ++ [r.special.sep] := by
  obtain ⟨toks, h1, h2, h3⟩ := call_ids _ (robertaModel e r setOrder) rfl text buf out n h
  simp only [robertaModel] at h1
  cases ht : Roberta.tokenize e r setOrder text with
  | ub => rw [ht] at h1; cases h1
  | abort => rw [ht] at h1; cases h1
  | hang => rw [ht] at h1; cases h1
  | ok o =>
    rw [ht] at h1
    cases o with
    | none => cases h1
    | some ids =>
      obtain rfl : ids = toks := by injection h1 with h1; injection h1
      have := C108_roberta e hf r setOrder text ids ht
      exact ⟨by omega, ids, rfl, h3 (by omega)⟩

/-- C108: the same for BERT, if the composed form does not have more characters than the text has bytes. -/
theorem C108_bert_buffer (u : Icu) (cond : TokInfo) (v : VocabT) (hV : v.tokenCount ≤ INVALID) (sp : Special)
    (cs ds : List Nat) (hcs : ∀ c ∈ cs, IsScalar c) (hds : ∀ c ∈ ds, IsScalar c)
    (hn : u.nfc (utf16Encode cs) = utf16Encode ds) (hlen : ds.length ≤ (utf8Encode cs).length)
    (hlow : cond.lowerCase = true → (∀ w, w ≠ [] → u.lower w ≠ []) ∧ u.nfc [] = [] ∧ u.nfd [] = [])
    (hstrip : cond.lowerCase = false → cond.stripAcc = true → BasicMode cond ∧ AccentsShrink u ds)
    (a : Api.Arch) (buf out : List Nat) (n : Nat) (hb : (utf8Encode cs).length + 2 ≤ buf.length)
    (h : bertsTokenize (some ⟨a, some (bertModel u cond v sp)⟩) (utf8Encode cs) (some buf) (some buf.length) =
      .ok ⟨true, some out, some n⟩) :
    n ≤ (utf8Encode cs).length + 2 ∧ ∃ ids, Bert.tokenize u cond v sp (utf8Encode cs) = .ok ids ∧
      out.take n = sp.cls :: ids ++ [sp.sep] := by
  obtain ⟨toks, h1, h2, h3⟩ := call_ids _ (bertModel u cond v sp) rfl (utf8Encode cs) buf out n h
  simp only [bertModel] at h1
  cases ht : Bert.tokenize u cond v sp (utf8Encode cs) with
  | ub => rw [ht] at h1; cases h1
  | abort => rw [ht] at h1; cases h1
  | hang => rw [ht] at h1; cases h1
  | ok ids =>
    rw [ht] at h1
    simp only [Res.bind_ok, Res.pure_eq, Res.ok.injEq, Prod.mk.injEq, true_and] at h1
    subst h1
    have := C108_bert u cond v hV sp cs ds hcs hds hn hlow hstrip ids ht
    exact ⟨by omega, ids, rfl, h3 (by omega)⟩

/-- C108, for a consistent file (see C74): a text with at most two bytes less than the model
takes tokens can be evaluated: tokenizing it into an array of two elements more than bytes and evaluating the
result gives the reference value.  Nothing is assumed of the number of tokens. -/
theorem C108_evaluate {α : Type} {w : World α} {c : Load.Ctx α} {l : Ledger} {g : Gguf} {bytes : List Nat}
    (h : load w = .ok (some c, l)) (hg : w.gguf = some g) (hf : w.file = some bytes) (hn : NamesOk g)
    (ho : ∀ t ∈ g.dir, g.dataOffset + t.offset < 2 ^ 64) (hc : ConvOk w.conv) (V P S : Nat)
    (hcons : Consistent g V P S) (hV : V ≤ 2 ^ 31) (hP : P < 2 ^ 31) (hS : S ≤ 2 ^ 31) (N : Nat) (hNV : N ≤ V)
    (hsize : ∀ t ∈ g.dir, t.name = ascii "berts.vocab.size" → t.nbytes = N)
    (hm : ∀ k ∈ specialKeys, ∀ i, HasU32 g k i → i ≠ INVALID → i < N) (hseg : ¬ HasU32 g "berts.segments" 0)
    (u : Icu) (e : Roberta.Env) (setOrder : List (List Nat) → List (List Nat)) (text buf out : List Nat) (n : Nat)
    -- the normaliser does not make the text longer, the regular expression matches whole characters
    (hbert : ∀ v sp cond, c.vocab = .bert v sp cond → ∃ cs ds, text = utf8Encode cs ∧ (∀ c ∈ cs, IsScalar c) ∧
      (∀ c ∈ ds, IsScalar c) ∧ u.nfc (utf16Encode cs) = utf16Encode ds ∧ ds.length ≤ text.length ∧
      (cond.lowerCase = true → (∀ w, w ≠ [] → u.lower w ≠ []) ∧ u.nfc [] = [] ∧ u.nfd [] = []) ∧
      (cond.lowerCase = false → cond.stripAcc = true → BasicMode cond ∧ AccentsShrink u ds))
    (hrob : ∀ r, c.vocab = .roberta r → RegexContract e.matches_)
    (hb : text.length + 2 ≤ buf.length) (hmax : text.length + 2 ≤ c.hp.hp.maxTokens)
    (hpos : if c.hp.arch = 0 then c.hp.hp.maxTokens ≤ P else c.vocab.padId + text.length + 2 < P)
    (ht : bertsTokenize (some (apiCtx u e setOrder c)) text (some buf) (some buf.length) =
      .ok ⟨true, some out, some n⟩)
    (A : Arith α) (gg : Gg) (L : Int) (h1 : -(c.hp.hp.nLayers : Int) ≤ L) (h2 : L ≤ c.hp.hp.nLayers)
    (poolType : Nat) (hpool : poolType < 4) (ebuf : List α)
    (hb' : ebuf.length = c.hp.hp.hidden * (if poolType = 0 then n else 1)) :
    n ≤ text.length + 2 ∧
    bertsEval A gg (some ⟨some (emodel c)⟩) (out.take n) none (some (L, poolType)) (some ebuf)
        (some ebuf.length) =
      .ok (true, some (expected A (emodel c) (layersOf c.hp.hp.nLayers L) poolType (out.take n)
        ((out.take n).map fun _ => 0)), some ebuf.length) := by
  have hn0 : n ≤ text.length + 2 := by
    have ht' := ht
    unfold apiCtx at ht'
    obtain ⟨ts, hts, hvoc⟩ := loaded_vocab h hg hf hn ho (N := N) (by unfold INVALID; omega) hsize hm
    rcases hvoc with ⟨v, sp, cond, hv, hh, _, _, _⟩ | ⟨r, hv, _⟩
    · rw [hv] at ht'
      obtain ⟨cs, ds, rfl, g1, g2, g3, g4, g5, g6⟩ := hbert v sp cond hv
      have hvt : v.tokenCount = N := by rw [← hts, ← hh.1]; rfl
      exact (C108_bert_buffer u cond v (by rw [hvt]; unfold INVALID; omega) sp cs ds g1 g2 g3 g4 g5 g6 _ buf out n hb
        ht').1
    · rw [hv] at ht'
      exact (C108_roberta_buffer e (hrob r hv) r setOrder _ text buf out n hb ht').1
  refine ⟨hn0, C74_text_partial h hg hf hn ho hc V P S hcons hV hP hS N hNV hsize hm hseg u e setOrder text buf out
    n ht (by omega) (by omega) ?_ A gg L h1 h2 poolType hpool ebuf hb'⟩
  by_cases ha : c.hp.arch = 0
  · rw [if_pos ha] at hpos ⊢; omega
  · rw [if_neg ha] at hpos ⊢; omega

/-! ## Examples -/

theorem asciiIcu_shrinks (ds : List Nat) (hds : ∀ c ∈ ds, IsScalar c) : AccentsShrink asciiIcu ds := by
  intro ws hws
  have hs : ∀ c ∈ ws, IsScalar c := fun c hc => hds c (hws c hc)
  have hd : decodeUnits (utf16Encode ws) = ws.map some := decodeUnits_encode ws hs
  refine ⟨Roberta.utf16_units ws hs, ?_⟩
  show (decodeUnits (utf16Encode (((decodeUnits (utf16Encode ws)).filterMap id).filter fun _ => true))).length ≤ _
  rw [hd]
  have e : ((ws.map some).filterMap id).filter (fun _ => true) = ws := by
    rw [List.filter_eq_self.2 (fun _ _ => rfl)]
    simp [List.filterMap_map]
  rw [e, hd]
  simp

/-- The small file of C74 meets the hypotheses of `C108_evaluate` on the text `b` (the others are those
of `C74_text_partial`). -/
example : ∃ (c : Load.Ctx Int) (l : Ledger), load (pipeWorld 1 0 3 4 1) = .ok (some c, l) ∧
    (∀ v sp cond, c.vocab = .bert v sp cond → ∃ cs ds, [98] = utf8Encode cs ∧ (∀ c ∈ cs, IsScalar c) ∧
      (∀ c ∈ ds, IsScalar c) ∧ asciiIcu.nfc (utf16Encode cs) = utf16Encode ds ∧ ds.length ≤ [98].length ∧
      (cond.lowerCase = true → (∀ w, w ≠ [] → asciiIcu.lower w ≠ []) ∧ asciiIcu.nfc [] = [] ∧ asciiIcu.nfd [] = []) ∧
      (cond.lowerCase = false → cond.stripAcc = true → BasicMode cond ∧ AccentsShrink asciiIcu ds)) ∧
    [98].length + 2 ≤ c.hp.hp.maxTokens ∧
    bertsTokenize (some (apiCtx asciiIcu (robEnv true) id c)) [98] (some [9, 9, 9, 9]) (some 4) =
      .ok ⟨true, some [0, 2, 1, 9], some 3⟩ := by
  obtain ⟨c, l, h, h1, _, h3, _⟩ := pipe_load
  refine ⟨c, l, h, ?_, by rw [h3]; decide, ?_⟩
  · intro v sp cond hv
    have hcond : (match load (pipeWorld 1 0 3 4 1) with
      | .ok (some c, _) => (match c.vocab with
        | .bert _ _ cond => cond.removeNull && cond.removeRepl && cond.removeCtrl && cond.normWs
        | _ => true)
      | _ => false) = true := by decide +kernel
    rw [h] at hcond
    simp only [hv] at hcond
    refine ⟨[98], [98], by decide, by decide, by decide, by decide, by decide, fun _ => ⟨?_, rfl, rfl⟩,
      fun _ _ => ⟨by simpa [BasicMode, and_assoc] using hcond, asciiIcu_shrinks _ (by decide)⟩⟩
    intro w hw
    simpa [asciiIcu] using hw
  · have ht : pipeTok 0 3 [98] = .ok ⟨true, some [0, 2, 1, 9], some 3⟩ := by decide +kernel
    unfold pipeTok at ht
    rw [h] at ht
    exact ht

/-- The hypotheses of the RoBERTa theorems can be met, and the bound is reached: a vocabulary without merges for
the text has one id for each byte. -/
example : RegexContract (robEnv true).matches_ ∧
    (match Roberta.init true robMeta (some robMerge) id robV with
    | .ok (some r) => bertsTokenize (some ⟨.roberta, some (robertaModel (robEnv true) r id)⟩) (ascii "bba") (some (List.replicate 5 9)) (some 5)
    | _ => .ub) = .ok ⟨true, some [0, 6, 6, 5, 1], some 5⟩ := ⟨(robEnv_ok true).1, by decide +kernel⟩

/-- The hypotheses of the BERT theorems can be met. -/
example : exVocab.tokenCount ≤ INVALID ∧ asciiIcu.nfc (utf16Encode (ascii "hi a")) = utf16Encode (ascii "hi a") ∧
    casedInfo.lowerCase = false ∧ AccentsShrink asciiIcu (ascii "hi a") ∧
    bertsTokenize (some ⟨.bert, some (bertModel asciiIcu casedInfo exVocab exSpecial)⟩) (ascii "hi a")
      (some (List.replicate 6 9)) (some 6) = .ok ⟨true, some [0, 6, 7, 1, 9, 9], some 4⟩ :=
  ⟨by decide, by decide, by decide, asciiIcu_shrinks _ (by decide), by decide +kernel⟩

/-- C108: two elements less are not enough: into an array with as many elements as the text has bytes (as in the
repository's tests and in fill-mask) the call still succeeds, but the ids are cut off and the reported number is
larger than the array. -/
theorem C108_sharp :
    bertsTokenize (some ⟨.bert, some (bertModel asciiIcu casedInfo exVocab exSpecial)⟩) (ascii "a")
      (some [9]) (some 1) = .ok ⟨true, some [0], some 3⟩ ∧
    bertsTokenize (some ⟨.bert, some (bertModel asciiIcu casedInfo exVocab exSpecial)⟩) (ascii "hi")
      (some [9, 9]) (some 2) = .ok ⟨true, some [0, 6], some 3⟩ := by decide +kernel

end Berts.Props
