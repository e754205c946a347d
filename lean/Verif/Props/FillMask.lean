import Verif.Proofs.FillMask
import Verif.Proofs.ConvertHead
import Verif.Model.Main
import Verif.Props.Examples
import Verif.Props.Convert

/-! # The fill-mask program with the two tokenizers (C59) and with converted models (C78) -/

namespace Berts.Props

open Berts.Examples
open Berts.Unicode Berts.Vocab Berts.Bpe Berts.Spec Berts.Roberta
open Berts.Bert (Icu TokInfo bertModel)
open Berts.Trie (unitsOfUtf8 buildTrie)

theorem units_ascii (x : List Nat) (h : ∀ c ∈ x, c < 0x80) : unitsOfUtf8 x = x := by
  have hs : ∀ c ∈ x, IsScalar c := fun c hc => .inl (by have := h c hc; omega)
  have h1 : utf8Decode x = some x := by
    have := utf8Decode_encode x hs
    rwa [utf8_ascii x h] at this
  unfold unitsOfUtf8
  rw [h1]
  show utf16Encode x = x
  unfold utf16Encode
  have : ∀ c ∈ x, utf16Of c = [c] := by
    intro c hc
    have := h c hc
    simp [utf16Of]; omega
  clear h1 hs h
  induction x with
  | nil => rfl
  | cons c cs ih =>
    rw [List.flatMap_cons, this c (by simp), ih (fun d hd => this d (by simp [hd]))]; rfl

/-- The number of ids of a BERT text, in terms of its composed form. -/
theorem bert_count (u : Icu) (hlow : ∀ w, w ≠ [] → u.lower w ≠ []) (hc : u.nfc [] = []) (hd : u.nfd [] = [])
    (cond : TokInfo) (hb : BasicMode cond) (hfold : cond.lowerCase = true ∨ cond.stripAcc = false)
    (v : VocabT) (l : List (List Nat)) (hv : Holds v l) (sp : Special) (cs ds : List Nat)
    (hcs : ∀ c ∈ cs, IsScalar c) (hds : ∀ d ∈ ds, IsScalar d) (hn : u.nfc (utf16Encode cs) = utf16Encode ds) :
    ∃ ids, Bert.tokenize u cond v sp (utf8Encode cs) = .ok ids ∧ ids.length ≤ (utf16Encode ds).length ∧
      ∀ m x, m ∈ ids → m ≠ sp.unk → l[m]? = some x → 3 ≤ x.length → (∀ c ∈ x, c < 0x80) → ¬ marker <+: x →
        ids.length + 2 ≤ (utf16Encode ds).length := by
  have main : ∃ ws, Bert.tokenize u cond v sp (utf8Encode cs) =
      .ok ((Bert.wordpiece (buildTrie v.idToTok) sp.unk ws).getD []) ∧ ws.flatten.length ≤ (utf16Encode ds).length := by
    by_cases hl : cond.lowerCase = true
    · refine ⟨_, C17_words_lost_counterexample u hlow hc hd cond hl v sp cs hcs, ?_⟩
      refine Nat.le_trans (FillMask.flatten_filter_length _ _) ?_
      rw [hn, (C12_words u cond hb ds hds).2]
      exact FillMask.utf16_filter_length _ _
    · have ha : cond.stripAcc = false := hfold.resolve_left hl
      obtain ⟨ws, h1, h2⟩ := C17_text_kept_partial u cond hb (by simpa using hl) ha
        ([sp.cls, sp.mask, sp.pad, sp.sep, sp.unk].map (fun i => unitsOfUtf8 (v.idToToken i))) cs ds hcs hds hn
      refine ⟨ws, ?_, ?_⟩
      · unfold Bert.tokenize
        simp only [h1]
        rfl
      · rw [h2]
        exact FillMask.utf16_filter_length _ _
  obtain ⟨ws, h1, h2⟩ := main
  refine ⟨_, h1, ?_⟩
  obtain ⟨hvl, hnd, hV, _⟩ := hv
  rw [hvl]
  by_cases hh : ∃ e ∈ l.map unitsOfUtf8, marker <+: e
  · cases hw : Bert.wordpiece (buildTrie l) sp.unk ws with
    | none => simp
    | some out =>
      rw [Option.getD_some]
      obtain ⟨a1, a2⟩ := FillMask.scanAll_length (.inl rfl) ((C14_code_exact l hV hh sp.unk ws out).1 hw)
      refine ⟨by omega, ?_⟩
      intro m x hm hu hx hlen hasc hmk
      have := a2 m x hm hu (by rw [List.getElem?_map, hx, Option.map_some, units_ascii x hasc]) hlen hmk
      omega
  · rw [C14_no_hashes l sp.unk ws (by simpa using hh)]
    simp

/-- C59 for BERT (partial: the composed form of the prompt has at most as many UTF-16 units as the prompt has
bytes, which fails only for a few characters such as musical symbols; accents are not stripped without
lower-casing; the mask is an ASCII token of at least three bytes): whenever the mask is among the tokens, the
array is large enough. -/
theorem C59_bert_partial (u : Icu) (hlow : ∀ w, w ≠ [] → u.lower w ≠ []) (hc : u.nfc [] = []) (hd : u.nfd [] = [])
    (cond : TokInfo) (hb : BasicMode cond) (hfold : cond.lowerCase = true ∨ cond.stripAcc = false)
    (v : VocabT) (l : List (List Nat)) (hv : Holds v l) (sp : Special) (hcls : sp.cls ≠ INVALID)
    (hsep : sp.sep ≠ INVALID) (hunk : sp.mask ≠ sp.unk) (mask : List Nat) (hmask : l[sp.mask]? = some mask)
    (hm3 : 3 ≤ mask.length) (hasc : ∀ c ∈ mask, c < 0x80) (hmk : ¬ marker <+: mask) (cs ds : List Nat)
    (hcs : ∀ c ∈ cs, IsScalar c) (hds : ∀ d ∈ ds, IsScalar d) (hn : u.nfc (utf16Encode cs) = utf16Encode ds)
    (hlen : (utf16Encode ds).length ≤ (utf8Encode cs).length) :
    ∃ ids, Bert.tokenize u cond v sp (utf8Encode cs) = .ok ids ∧
      (sp.mask ∈ ids → ∀ junk, promptTokens (some ⟨.bert, some (bertModel u cond v sp)⟩) (utf8Encode cs) junk =
        .ok (some (sp.cls :: ids ++ [sp.sep]))) := by
  obtain ⟨ids, h1, _, h3⟩ := bert_count u hlow hc hd cond hb hfold v l hv sp cs ds hcs hds hn
  refine ⟨ids, h1, fun hm junk => ?_⟩
  have := h3 sp.mask mask hm hunk hmask hm3 hasc hmk
  exact C59_reads_partial ⟨.bert, some (bertModel u cond v sp)⟩ _ rfl _ ids (by simp [bertModel, h1]) hcls hsep (by omega) junk

/-- The hypotheses of `C59_bert_partial` can be met, and the mask is found. -/
example (junk) :
    promptTokens (some ⟨.bert, some (bertModel asciiIcu casedInfo exVocab exSpecial)⟩) (utf8Encode (ascii "[MASK]")) junk =
      .ok (some [0, 4, 1]) := by
  have hv := holds_run VocabT.new [] holds_new ([ascii "[CLS]", ascii "[SEP]", ascii "[UNK]", ascii "[PAD]",
    ascii "[MASK]", ascii "##", ascii "hi", ascii "a"].map Op.add) (by decide)
  rw [hv.1.symm] at hv
  have hs : ∀ c ∈ ascii "[MASK]", IsScalar c := by decide +kernel
  have hmk : ¬ marker <+: ascii "[MASK]" := by
    rw [← List.isPrefixOf_iff_prefix]
    decide
  obtain ⟨ids, h1, h2⟩ := C59_bert_partial asciiIcu (by simp [asciiIcu]) rfl rfl casedInfo (by unfold BasicMode; decide) (.inr rfl) exVocab _ hv
    exSpecial (by decide) (by decide) (by decide) (ascii "[MASK]") (by decide +kernel) (by decide) (by decide) hmk
    (ascii "[MASK]") (ascii "[MASK]") hs hs rfl (by decide +kernel)
  have h3 : Bert.tokenize asciiIcu casedInfo exVocab exSpecial (utf8Encode (ascii "[MASK]")) = .ok [4] := by decide +kernel
  rw [h3] at h1
  cases h1
  exact h2 (by decide) junk

/-- The number of ids of a RoBERTa text. -/
theorem roberta_count (m : Meta) (merge : Option MergeTensor)
    (order : List (Str × Nat) → List (Str × Nat)) (hord : ∀ m, (order m).Perm m) (v : VocabT)
    (l tcs : List (List Nat)) (hv : Holds v l) (hu : Utf8Vocab l tcs) (e : Roberta.Env) (r : RVocab)
    (hinit : init e.signed m merge order v = .ok (some r)) (hsp : AsciiSpecials l r.special)
    (setOrder : List (List Nat) → List (List Nat)) (ho : SetOrder setOrder)
    (hne : [] ∉ l) (hm3 : ∀ mask, l[r.special.mask]? = some mask → 3 ≤ mask.length)
    (cs : List Nat) (hcs : ∀ c ∈ cs, IsScalar c) (he : EnvOK e (utf8Encode cs).length)
    (hf : (utf8Encode cs).length ≤ e.fuel) (hs : e.signed = true → ∀ c ∈ cs, c < 0x80)
    (hb : ByteComplete l (utf8Encode cs)) :
    ∃ ids, Roberta.tokenize e r setOrder (utf8Encode cs) = .ok (some ids) ∧
      (r.special.mask ∈ ids → ids.length + 2 ≤ (utf8Encode cs).length) := by
  obtain ⟨pieces, idss, h1, h2, h3⟩ := C65_special_ids_partial m merge order hord v l tcs hv hu e r hinit hsp setOrder ho
    cs hcs he hf hs hb
  refine ⟨_, h1, fun hm => ?_⟩
  obtain ⟨mask, k1, k2, k3⟩ := hsp r.special.mask (by simp [specialIds])
  have h4 := (FillMask.pieceIds_length hne _ h3).2 r.special.mask mask hm k1 (hm3 mask k1) k3
  have h5 := FillMask.keptPieces_length e.ws (l[r.special.mask]?.getD []) pieces
  rw [h2.concat] at h5
  omega

/-- C59 for RoBERTa (partial: the hypotheses of C65, and a mask of at least three bytes): whenever the mask is
among the tokens, the array is large enough. -/
theorem C59_roberta_partial (m : Meta) (merge : Option MergeTensor)
    (order : List (Str × Nat) → List (Str × Nat)) (hord : ∀ m, (order m).Perm m) (v : VocabT)
    (l tcs : List (List Nat)) (hv : Holds v l) (hu : Utf8Vocab l tcs) (e : Roberta.Env) (r : RVocab)
    (hinit : init e.signed m merge order v = .ok (some r)) (hsp : AsciiSpecials l r.special)
    (setOrder : List (List Nat) → List (List Nat)) (ho : SetOrder setOrder)
    (hne : [] ∉ l) (hm3 : ∀ mask, l[r.special.mask]? = some mask → 3 ≤ mask.length)
    (cs : List Nat) (hcs : ∀ c ∈ cs, IsScalar c) (he : EnvOK e (utf8Encode cs).length)
    (hf : (utf8Encode cs).length ≤ e.fuel) (hs : e.signed = true → ∀ c ∈ cs, c < 0x80)
    (hb : ByteComplete l (utf8Encode cs)) :
    ∃ ids, Roberta.tokenize e r setOrder (utf8Encode cs) = .ok (some ids) ∧
      (r.special.mask ∈ ids → ∀ junk, promptTokens (some ⟨.roberta, some (robertaModel e r setOrder)⟩) (utf8Encode cs) junk =
        .ok (some (r.special.cls :: ids ++ [r.special.sep]))) := by
  obtain ⟨ids, h1, h2⟩ := roberta_count m merge order hord v l tcs hv hu e r hinit hsp setOrder ho hne hm3 cs hcs he hf hs hb
  refine ⟨_, h1, fun hm junk => ?_⟩
  have hin : ∀ id ∈ specialIds r.special, id ≠ INVALID := by
    intro id hid
    obtain ⟨s, hs, _⟩ := hsp id hid
    have := (List.getElem?_eq_some_iff.1 hs).1
    have := hv.2.2.1
    omega
  exact C59_reads_partial ⟨.roberta, some (robertaModel e r setOrder)⟩ _ rfl _ ids
    (by simp [robertaModel, h1, Res.bind]) (hin _ (by simp [robertaModel, specialIds]))
    (hin _ (by simp [robertaModel, specialIds])) (h2 hm) junk

/-! ## C78 -/

open Berts.Convert Berts.Load Berts.Graph Berts.Eval
open Berts.Examples.Spec (Number Best)

variable {α : Type}

/-- The program, given what loading the model gives. -/
theorem fill_loaded {s : Source α} (hc : ConfigOk s.config) (hlay : 1 ≤ s.config.layers ∧ s.config.layers ≤ 44) {arch pad : Nat} {W : Weights α}
    {lm : LmWeights α} (hl : W.lm = some lm) (hok : LmOK lm s.config.hidden s.config.vocabSize)
    {world : List Nat → World α} {path : List Nat} {g : Gguf} {bytes : List Nat} {dec : Nat → List Nat → List α} {dflt : α}
    (ho : Opens (world path) g bytes dec dflt) (hr : Ready g s.config) {k : Load.Ctx α} {l : Ledger}
    (hload : load (world path) = .ok (some k, l)) (hp : k.hp = hpOf arch s.config)
    (hm : emodel k = ⟨arch == 0, (hpOf arch s.config).hp, W, s.config.vocabSize, pad⟩)
    (u : Icu) (e : Roberta.Env) (setOrder : List (List Nat) → List (List Nat)) {am : Api.ModelI}
    (ham : (apiCtx u e setOrder k).model = some am) (hvoc : am.vocabCount = s.config.vocabSize)
    {text toks : List Nat} (ht : am.tokenize text = .ok (true, toks)) (hcls : am.clsId < s.config.vocabSize)
    (hsep : am.sepId < s.config.vocabSize) (hids : ∀ i ∈ toks, i < s.config.vocabSize)
    (hlen : toks.length + 2 ≤ text.length) (hmc : am.maskId ≠ am.clsId) (hms : am.maskId ≠ am.sepId) {q : Nat}
    (hq : toks[q]? = some am.maskId) (huniq : ∀ q' : Nat, toks[q']? = some am.maskId → q' = q)
    (hmax : if arch = 0 then toks.length + 2 ≤ s.config.maxPos else pad + (toks.length + 2) < s.config.maxPos)
    {name : Nat → List Nat} (hname : ∀ v, v < s.config.vocabSize → am.idToToken v = .ok (name v) ∧ (name v).length ≤ 256)
    (A : Arith α) (ge : α → α → Prop) (hA : ArgsortSpec A ge) (gg : Gg) (kStr : List Nat) (n : Nat) (hk : Number kStr n)
    (hn0 : 0 < n) (hn : n ≤ s.config.vocabSize) (hn31 : n < 2 ^ 31) (junkI : Nat → Nat) (junk : Nat → α) :
    let m : EModel α := ⟨arch == 0, (hpOf arch s.config).hp, W, s.config.vocabSize, pad⟩
    let tokens := am.clsId :: toks ++ [am.sepId]
    let p := fun v => refProbs A m lm (expected A m s.config.layers 0 tokens (tokens.map fun _ => 0)) dflt v (q + 1)
    ∃ best, fillMaskMain A gg u e setOrder world dflt junkI junk [path, kStr, text] =
      .ok (0, (List.range n).map fun i => (best i, name (best i), p (best i))) ∧ Best ge p s.config.vocabSize n best := by
  intro m tokens p
  have hV := hc.vocab
  have hP := hc.maxPos
  have hmax' : toks.length + 2 ≤ s.config.maxPos := by split at hmax <;> omega
  have htl : tokens.length = toks.length + 2 := by simp [tokens]
  have hpad : k.vocab.padId = pad := congrArg EModel.padId hm
  have hfits := loaded_fits hload ho.gguf ho.file hr.names hr.offsets (by rw [ho.conv]; exact decoded_ok dec dflt)
    (hr.consistent hlay.2) hV hP hc.types.2 (tokens := tokens) (by
      intro t ht'
      simp only [tokens, List.cons_append, List.mem_cons, List.mem_append, List.not_mem_nil, or_false] at ht'
      rcases ht' with rfl | h | rfl
      · exact hcls
      · exact hids _ h
      · exact hsep) (by
      rw [hp, hpad, htl]
      show if arch = 0 then s.config.maxPos ≤ s.config.maxPos else _
      split
      · exact Nat.le_refl _
      · rename_i h; rwa [if_neg h] at hmax) (by rw [hp, htl]; exact hmax')
  rw [hm] at hfits
  have hin : ∀ x, x < s.config.vocabSize → x ≠ INVALID := by
    intro x hx
    unfold INVALID
    omega
  have hpos : tokens[q + 1]? = some am.maskId := by
    show (am.clsId :: (toks ++ [am.sepId]))[q + 1]? = _
    rw [List.getElem?_cons_succ, List.getElem?_append_left (List.getElem?_eq_some_iff.1 hq).1, hq]
  have huniq' : ∀ q' : Nat, tokens[q']? = some am.maskId → q' = q + 1 := by
    intro q' h
    cases q' with
    | zero =>
      have h : am.clsId = am.maskId := by simpa [tokens] using h
      exact absurd h.symm hmc
    | succ q' =>
      rw [show tokens[q' + 1]? = (toks ++ [am.sepId])[q']? from rfl] at h
      by_cases hlt : q' < toks.length
      · rw [List.getElem?_append_left hlt] at h
        rw [huniq q' h]
      · rw [List.getElem?_append_right (by omega)] at h
        have hz := (List.getElem?_eq_some_iff.1 h).1
        rw [List.length_singleton] at hz
        rw [show q' - toks.length = 0 by omega] at h
        have h : am.sepId = am.maskId := by simpa using h
        exact absurd h.symm hms
  obtain ⟨best, b1, b2, b3, b4, b5⟩ := C66_best_tokens_partial A ge hA gg (apiCtx u e setOrder k) am ham m lm
    ⟨hl, hok, by have := hc.hidden.1; show 0 < s.config.hidden; omega, by show 0 < s.config.vocabSize; omega,
      fun _ => by show 0 < 3; omega⟩
    hvoc text toks ht (hin _ hcls) (hin _ hsep) hlen (q + 1) hpos huniq' _ _ _ hfits.1 hmax'
    (by have := hc.types.1; show 0 < s.config.typeVocab; omega) hfits.2 hlay.1 name hname n hn0 hn dflt junkI junk
  refine ⟨best, ?_, b2, b3, b4, b5⟩
  unfold fillMaskMain
  simp only
  rw [C67_numbers_partial kStr n hk (by omega), if_pos (by omega)]
  simp only [Eval.res_ok, hload]
  rw [hm]
  exact b1

/-- The fill-mask program with the model `k`, a BERT model with the configuration of the source: for texts with one
mask it prints the tokens with the highest reference probabilities for the weights `W`. -/
def FillsBert (s : Source α) (dflt : α) (W : Weights α) (lm : LmWeights α) (cls mask pad sep : Nat)
    (world : List Nat → World α) (path : List Nat) (k : Load.Ctx α) (ts : List (List Nat)) : Prop :=
  ∀ (u : Icu), (∀ w, w ≠ [] → u.lower w ≠ []) → u.nfc [] = [] → u.nfd [] = [] →
  ∀ (e : Roberta.Env) (setOrder : List (List Nat) → List (List Nat)) (cs ds : List Nat), (∀ c ∈ cs, IsScalar c) →
    (∀ d ∈ ds, IsScalar d) → u.nfc (utf16Encode cs) = utf16Encode ds →
    (utf16Encode ds).length ≤ (utf8Encode cs).length →
  ∃ toks : List Nat, Api.bertsTokenize (some (apiCtx u e setOrder k)) (utf8Encode cs) none (some 0) =
      .ok ⟨true, none, some (toks.length + 2)⟩ ∧ (∀ buf : List Nat, buf.length = toks.length + 2 →
      Api.bertsTokenize (some (apiCtx u e setOrder k)) (utf8Encode cs) (some buf) (some buf.length) =
        .ok ⟨true, some (cls :: toks ++ [sep]), some (toks.length + 2)⟩) ∧
  ∀ q : Nat, toks[q]? = some mask → (∀ q' : Nat, toks[q']? = some mask → q' = q) →
    toks.length + 2 ≤ s.config.maxPos →
  ∀ (A : Arith α) (ge : α → α → Prop), ArgsortSpec A ge → ∀ (gg : Gg) (kStr : List Nat) (n : Nat), Number kStr n →
    0 < n → n ≤ s.config.vocabSize → n < 2 ^ 31 → ∀ (junkI : Nat → Nat) (junk : Nat → α),
  let m : EModel α := ⟨true, (hpOf 0 s.config).hp, W, s.config.vocabSize, pad⟩
  let tokens := cls :: toks ++ [sep]
  let p := fun v => refProbs A m lm (expected A m s.config.layers 0 tokens (tokens.map fun _ => 0)) dflt v (q + 1)
  ∃ best, fillMaskMain A gg u e setOrder world dflt junkI junk [path, kStr, utf8Encode cs] =
    .ok (0, (List.range n).map fun i => (best i, ts.getD (best i) [], p (best i))) ∧
    Best ge p s.config.vocabSize n best

theorem bert_fills {s : Source α} (hc : ConfigOk s.config) (hlay : 1 ≤ s.config.layers ∧ s.config.layers ≤ 44)
    (hbasic : s.tok.basic.getD true = true)
    (hfold : s.tok.lowerCase.getD true = true ∨ s.tok.strip.getD (s.tok.lowerCase.getD true) = false)
    {cls mask pad sep unk : Nat} (hne : mask ≠ cls ∧ mask ≠ sep ∧ mask ≠ unk)
    {maskTok : List Nat} (hmask : (maskTok, mask) ∈ s.tok.dict) (hm3 : 3 ≤ maskTok.length)
    (hasc : ∀ c ∈ maskTok, c < 0x80) (hmk : ¬ marker <+: maskTok) {dec : Nat → List Nat → List α} {dflt : α}
    {W : Weights α} {lm : LmWeights α} (hl : W.lm = some lm) (lm2 : LmOK lm s.config.hidden s.config.vocabSize)
    {world : List Nat → World α} {path : List Nat} {g : Gguf} {bytes : List Nat}
    (ho : Opens (world path) g bytes dec dflt) (hr : Ready g s.config) {k : Load.Ctx α} {l : Ledger}
    (e1 : load (world path) = .ok (some k, l)) (e2 : k.hp = hpOf 0 s.config) {v : VocabT} {cond : TokInfo}
    (e4 : k.vocab = .bert v ⟨cls, mask, pad, sep, unk, INVALID, INVALID⟩ cond) {ts : List (List Nat)}
    (e5 : Tokens s.config s.tok.dict ts) (e6 : Holds v ts) (e7 : OptionsOk s.tok cond) (hw : k.weights = W)
    (j1 : cls < s.config.vocabSize) (j4 : sep < s.config.vocabSize) (j5 : unk < s.config.vocabSize) :
    FillsBert s dflt W lm cls mask pad sep world path k ts := by
  intro u hlow hnc hnd e setOrder cs ds hcs hds hn hlen
  have hV := hc.vocab
  have hb : BasicMode cond := by
    obtain ⟨b1, b2, b3, _, b5⟩ := e7.basic
    rw [hbasic] at b1 b2 b3
    exact ⟨b1, b2, b3, b5⟩
  obtain ⟨toks, t1, t2, t3⟩ := bert_count u hlow hnc hnd cond hb (by rw [e7.lower, e7.strip]; exact hfold) v ts e6
    ⟨cls, mask, pad, sep, unk, INVALID, INVALID⟩ cs ds hcs hds hn
  have hcount : v.tokenCount = s.config.vocabSize := by rw [VocabT.tokenCount, e6.1, e5.length]
  have ham : (apiCtx u e setOrder k).model = some (bertModel u cond v ⟨cls, mask, pad, sep, unk, INVALID, INVALID⟩) := by
    unfold apiCtx
    rw [e4]
  have hm : emodel k = ⟨true, (hpOf 0 s.config).hp, W, s.config.vocabSize, pad⟩ := by
    refine emodel_eq e2 hw ?_ ?_
    · rw [e4]; exact hcount
    · rw [e4]; rfl
  have htok : (bertModel u cond v ⟨cls, mask, pad, sep, unk, INVALID, INVALID⟩).tokenize (utf8Encode cs) =
      .ok (true, toks) := by simp [bertModel, t1]
  have k1 : cls ≠ INVALID := by unfold INVALID; omega
  have k2 : sep ≠ INVALID := by unfold INVALID; omega
  have hdry := (C50_tokenize_dry_run _ _ ham (utf8Encode cs) toks htok k1 k2 0 none).1
  refine ⟨toks, hdry, ?_, ?_⟩
  · intro buf hbuf
    rw [hbuf]
    exact C50_tokenize_second_call _ _ ham (utf8Encode cs) toks htok k1 k2 _ hdry buf hbuf
  · intro q hq huniq hmax A ge hA gg kStr n hk hn0 hn' hn31 junkI junk
    have hlen2 := t3 mask maskTok (List.mem_of_getElem? hq) hne.2.2 (e5.given _ _ hmask) hm3 hasc hmk
    have hfin := fill_loaded hc hlay hl lm2 ho hr e1 e2 hm u e setOrder ham hcount htok j1 j4
      (by rw [← hcount]; exact bert_ids_valid u cond v _ (by rw [hcount]; unfold INVALID; omega)
            (by rw [hcount]; exact j5) _ _ t1)
      (by omega) hne.1 hne.2.1 hq huniq hmax (name := fun v => ts.getD v []) (by
        intro x hx
        have hx' : x < ts.length := by rw [e5.length]; exact hx
        have hmem : ts.getD x [] ∈ ts := by
          rw [List.getD_eq_getElem?_getD, List.getElem?_eq_getElem hx', Option.getD_some]
          exact List.getElem_mem hx'
        refine ⟨?_, (e5.sizes _ hmem).2⟩
        show Res.ok (v.idToToken x) = _
        rw [VocabT.idToToken, e6.1, if_neg (by omega), List.getD_eq_getElem?_getD])
      A ge hA gg kStr n hk hn0 hn' hn31 junkI junk
    exact hfin

/-- C78, BERT (partial: as C75 and C59): convert a masked language model, give the file to the fill-mask program
together with a number and a text with one mask: it prints the tokens with the highest reference probabilities for the
configuration and the weights of the source, in descending order. -/
theorem C78_bert_partial {s : Source α} (hcls : s.cls = .bert) (hc : ConfigOk s.config) (hst : StateOk s.config s.state)
    (hlm : HeadOk s.cls s.lm) (hh : HasHead s.cls s.config s.lm) (ht : BertTok s.config s.tok) (hlay : 1 ≤ s.config.layers ∧ s.config.layers ≤ 44)
    (hbasic : s.tok.basic.getD true = true)
    (hfold : s.tok.lowerCase.getD true = true ∨ s.tok.strip.getD (s.tok.lowerCase.getD true) = false)
    {cls mask pad sep unk : Nat} (hi : s.tok.cls = some cls ∧ s.tok.mask = some mask ∧ s.tok.pad = some pad ∧
      s.tok.sep = some sep ∧ s.tok.unk = some unk) (hne : mask ≠ cls ∧ mask ≠ sep ∧ mask ≠ unk)
    {maskTok : List Nat} (hmask : (maskTok, mask) ∈ s.tok.dict) (hm3 : 3 ≤ maskTok.length)
    (hasc : ∀ c ∈ maskTok, c < 0x80) (hmk : ¬ marker <+: maskTok) {enc : Bool → List α → List Nat}
    {dec : Nat → List Nat → List α} {rnd : Bool → α → α} (hd : Codec enc dec rnd) (dflt : α) (f16 : Bool)
    (header : List Nat) (W : Weights α) (hW : Load.Named (sourceAt rnd dflt f16 s) s.config.layers W) :
    ∃ g bytes lm, convert enc f16 header s = some (g, bytes) ∧ W.lm = some lm ∧
      ∀ (world : List Nat → World α) (path : List Nat), Opens (world path) g bytes dec dflt →
      ∃ k l ts, load (world path) = .ok (some k, l) ∧ Tokens s.config s.tok.dict ts ∧
      ∀ (u : Icu), (∀ w, w ≠ [] → u.lower w ≠ []) → u.nfc [] = [] → u.nfd [] = [] →
      ∀ (e : Roberta.Env) (setOrder : List (List Nat) → List (List Nat)) (cs ds : List Nat), (∀ c ∈ cs, IsScalar c) →
        (∀ d ∈ ds, IsScalar d) → u.nfc (utf16Encode cs) = utf16Encode ds →
        (utf16Encode ds).length ≤ (utf8Encode cs).length →
      ∃ toks : List Nat, Api.bertsTokenize (some (apiCtx u e setOrder k)) (utf8Encode cs) none (some 0) =
          .ok ⟨true, none, some (toks.length + 2)⟩ ∧ (∀ buf : List Nat, buf.length = toks.length + 2 →
          Api.bertsTokenize (some (apiCtx u e setOrder k)) (utf8Encode cs) (some buf) (some buf.length) =
            .ok ⟨true, some (cls :: toks ++ [sep]), some (toks.length + 2)⟩) ∧
      ∀ q : Nat, toks[q]? = some mask → (∀ q' : Nat, toks[q']? = some mask → q' = q) →
        toks.length + 2 ≤ s.config.maxPos →
      ∀ (A : Arith α) (ge : α → α → Prop), ArgsortSpec A ge → ∀ (gg : Gg) (kStr : List Nat) (n : Nat), Number kStr n →
        0 < n → n ≤ s.config.vocabSize → n < 2 ^ 31 → ∀ (junkI : Nat → Nat) (junk : Nat → α),
      let m : EModel α := ⟨true, (hpOf 0 s.config).hp, W, s.config.vocabSize, pad⟩
      let tokens := cls :: toks ++ [sep]
      let p := fun v => refProbs A m lm (expected A m s.config.layers 0 tokens (tokens.map fun _ => 0)) dflt v (q + 1)
      ∃ best, fillMaskMain A gg u e setOrder world dflt junkI junk [path, kStr, utf8Encode cs] =
        .ok (0, (List.range n).map fun i => (best i, ts.getD (best i) [], p (best i))) ∧
        Best ge p s.config.vocabSize n best := by
  obtain ⟨g, bytes, h1, h2, h3⟩ := bert_file hcls hc hst hlm ht hd dflt f16 header
  obtain ⟨lm, lm1, lm2⟩ := head_ok (by rw [hcls]; decide) hst hlm hh rnd dflt f16
  have hl : W.lm = some lm := (hW.2.2.2.2.2.2.2.2.2 lm).2 lm1
  refine ⟨g, bytes, lm, h1, hl, fun world path ho => ?_⟩
  obtain ⟨k, l, v, cls', mask', pad', sep', unk', cond, ts, e1, e2, e3, e4, e5, e6, e7, e8, e9⟩ := h3 _ ho
  obtain ⟨i1, i2, i3, i4, i5⟩ := hi
  have j1 := e8.cls; have j2 := e8.mask; have j3 := e8.pad; have j4 := e8.sep; have j5 := e8.unk
  rw [i1] at j1; rw [i2] at j2; rw [i3] at j3; rw [i4] at j4; rw [i5] at j5
  obtain ⟨⟨⟩, j1⟩ := j1
  obtain ⟨⟨⟩, j2⟩ := j2
  obtain ⟨⟨⟩, j3⟩ := j3
  obtain ⟨⟨⟩, j4⟩ := j4
  obtain ⟨⟨⟩, j5⟩ := j5
  exact ⟨k, l, ts, e1, e5, bert_fills hc hlay hbasic hfold hne hmask hm3 hasc hmk hl lm2 ho (h2 ho.fits.2) e1 e2 e4 e5 e6 e7
    (named_unique e9 hW) j1 j4 j5⟩

/-- The ASCII special tokens of a source tokenizer are those of the converted vocabulary. -/
theorem ascii_specials {c : Config} {t : Tokenizer} {sp : Special} {ts : List (List Nat)} (hd : DictOk c t.dict)
    (hasc : ∀ o ∈ [t.cls, t.mask, t.pad, t.sep, t.unk, t.bos, t.eos], ∃ d ∈ t.dict, o = some d.2 ∧ ∀ b ∈ d.1, b < 0x80)
    (hts : Tokens c t.dict ts) (hi : RobertaIds c t sp) : AsciiSpecials ts sp := by
  have key : ∀ o ∈ [t.cls, t.mask, t.pad, t.sep, t.unk, t.bos, t.eos], ∀ i, o = some i →
      ∃ x, ts[i]? = some x ∧ x ≠ [] ∧ ∀ c ∈ x, c < 0x80 := by
    intro o hmem i hi
    obtain ⟨d, d1, d2, d3⟩ := hasc o hmem
    rw [hi] at d2
    injection d2 with d2
    subst d2
    exact ⟨d.1, hts.given d.1 d.2 d1, (hd.sizes d d1).1, d3⟩
  intro id hid
  simp only [specialIds, List.mem_cons, List.not_mem_nil, or_false] at hid
  rcases hid with rfl | rfl | rfl | rfl | rfl | rfl | rfl
  all_goals first
    | exact key _ (by simp) _ hi.base.cls.1
    | exact key _ (by simp) _ hi.base.mask.1
    | exact key _ (by simp) _ hi.base.pad.1
    | exact key _ (by simp) _ hi.base.sep.1
    | exact key _ (by simp) _ hi.base.unk.1
    | exact key _ (by simp) _ hi.bos.1
    | exact key _ (by simp) _ hi.eos.1

theorem utf8_length_ge (cs : List Nat) : cs.length ≤ (utf8Encode cs).length := by
  unfold utf8Encode
  induction cs with
  | nil => simp
  | cons c cs ih =>
    rw [List.flatMap_cons, List.length_append, List.length_cons]
    have : 1 ≤ (utf8Of c).length := by
      unfold utf8Of
      repeat' split
      all_goals simp
    omega

/-- The fill-mask program with the model `k`, a RoBERTa model with the configuration of the source. -/
def FillsRoberta (s : Source α) (dflt : α) (W : Weights α) (lm : LmWeights α) (cls mask pad sep : Nat)
    (world : List Nat → World α) (path : List Nat) (k : Load.Ctx α) (tcs : List (List Nat)) : Prop :=
  ∀ (u : Icu) (e : Roberta.Env) (setOrder : List (List Nat) → List (List Nat)), e.signed = (world path).signed →
    SetOrder setOrder →
  ∀ cs : List Nat, (∀ c ∈ cs, IsScalar c) → EnvOK e (utf8Encode cs).length → (utf8Encode cs).length ≤ e.fuel →
    (e.signed = true → ∀ c ∈ cs, c < 0x80) → (∀ b ∈ utf8Encode cs, utf8Of (byteChar b) ∈ s.tok.dict.map (·.1)) →
  ∃ toks : List Nat, Api.bertsTokenize (some (apiCtx u e setOrder k)) (utf8Encode cs) none (some 0) =
      .ok ⟨true, none, some (toks.length + 2)⟩ ∧ (∀ buf : List Nat, buf.length = toks.length + 2 →
      Api.bertsTokenize (some (apiCtx u e setOrder k)) (utf8Encode cs) (some buf) (some buf.length) =
        .ok ⟨true, some (cls :: toks ++ [sep]), some (toks.length + 2)⟩) ∧
  ∀ q : Nat, toks[q]? = some mask → (∀ q' : Nat, toks[q']? = some mask → q' = q) →
    pad + (toks.length + 2) < s.config.maxPos →
  ∀ (A : Arith α) (ge : α → α → Prop), ArgsortSpec A ge → ∀ (gg : Gg) (kStr : List Nat) (n : Nat), Number kStr n →
    0 < n → n ≤ s.config.vocabSize → n < 2 ^ 31 → ∀ (junkI : Nat → Nat) (junk : Nat → α),
  let m : EModel α := ⟨false, (hpOf 1 s.config).hp, W, s.config.vocabSize, pad⟩
  let tokens := cls :: toks ++ [sep]
  let p := fun v => refProbs A m lm (expected A m s.config.layers 0 tokens (tokens.map fun _ => 0)) dflt v (q + 1)
  ∃ best, fillMaskMain A gg u e setOrder world dflt junkI junk [path, kStr, utf8Encode cs] =
    .ok (0, (List.range n).map fun i => (best i, (tcs.getD (best i) []).map (· % 256), p (best i))) ∧
    Best ge p s.config.vocabSize n best

theorem roberta_fills {s : Source α} (hc : ConfigOk s.config) (hlay : 1 ≤ s.config.layers ∧ s.config.layers ≤ 44)
    {r : RVocab} (hne : r.special.mask ≠ r.special.cls ∧ r.special.mask ≠ r.special.sep)
    {maskTok : List Nat} (hmask : (maskTok, r.special.mask) ∈ s.tok.dict) (hm3 : 3 ≤ maskTok.length)
    {dec : Nat → List Nat → List α} {dflt : α}
    {W : Weights α} {lm : LmWeights α} (hl : W.lm = some lm) (lm2 : LmOK lm s.config.hidden s.config.vocabSize)
    {world : List Nat → World α} {path : List Nat} {g : Gguf} {bytes : List Nat}
    (ho : Opens (world path) g bytes dec dflt) (hr : Ready g s.config) {k : Load.Ctx α} {l : Ledger}
    (e1 : load (world path) = .ok (some k, l)) (e2 : k.hp = hpOf 1 s.config)
    (e4 : k.vocab = .roberta r) {ts tcs : List (List Nat)}
    (e5 : Tokens s.config s.tok.dict ts) (e6 : Holds r.v ts) (e7 : Utf8Vocab ts tcs) (hw : k.weights = W)
    (hsp : AsciiSpecials ts r.special) {m : Meta} {merge : Option MergeTensor}
    {order : List (Str × Nat) → List (Str × Nat)} (hord : ∀ m, (order m).Perm m)
    (e12 : init (world path).signed m merge order r.v = .ok (some r))
    (j1 : r.special.cls < s.config.vocabSize) (j4 : r.special.sep < s.config.vocabSize) :
    FillsRoberta s dflt W lm r.special.cls r.special.mask r.special.pad r.special.sep world path k tcs := by
  intro u e setOrder hsig hso cs hcs henv hfuel hsgn hbytes
  have hV := hc.vocab
  obtain ⟨toks, t1, t2⟩ := roberta_count m merge order hord r.v ts tcs e6 e7 e r
    (by rw [hsig]; exact e12) hsp setOrder hso (fun h => (e5.sizes _ h).1 rfl) (by
      intro x hx
      rw [e5.given _ _ hmask] at hx
      injection hx with hx
      rw [← hx]; exact hm3) cs hcs henv hfuel hsgn (by
      intro b hb'
      have := hbytes b hb'
      rw [List.mem_map] at this
      obtain ⟨d, d1, d2⟩ := this
      rw [← d2]
      exact List.mem_of_getElem? (e5.given d.1 d.2 d1))
  have hcount : r.v.tokenCount = s.config.vocabSize := by rw [VocabT.tokenCount, e6.1, e5.length]
  have ham : (apiCtx u e setOrder k).model = some (robertaModel e r setOrder) := by
    unfold apiCtx
    rw [e4]
  have hm : emodel k = ⟨false, (hpOf 1 s.config).hp, W, s.config.vocabSize, r.special.pad⟩ := by
    refine emodel_eq e2 hw ?_ ?_
    · rw [e4]; exact hcount
    · rw [e4]; rfl
  have htok : (robertaModel e r setOrder).tokenize (utf8Encode cs) = .ok (true, toks) := by
    simp [robertaModel, t1, Res.bind]
  have k1 : r.special.cls ≠ INVALID := by unfold INVALID; omega
  have k2 : r.special.sep ≠ INVALID := by unfold INVALID; omega
  have hdry := (C50_tokenize_dry_run _ _ ham (utf8Encode cs) toks htok k1 k2 0 none).1
  refine ⟨toks, hdry, ?_, ?_⟩
  · intro buf hbuf
    rw [hbuf]
    exact C50_tokenize_second_call _ _ ham (utf8Encode cs) toks htok k1 k2 _ hdry buf hbuf
  · intro q hq huniq hmax A ge hA gg kStr n hk hn0 hn' hn31 junkI junk
    have hfin := fill_loaded hc hlay hl lm2 ho hr e1 e2 hm u e setOrder ham hcount htok j1 j4
      (by rw [← e5.length]; exact C63_ids_valid e r ts e6 setOrder _ toks t1)
      (t2 (List.mem_of_getElem? hq)) hne.1 hne.2 hq huniq hmax (name := fun v => (tcs.getD v []).map (· % 256)) (by
        intro x hx
        have hx' : x < tcs.length := by
          have := e5.length
          rw [e7.enc, List.length_map] at this
          omega
        have hmem : tcs.getD x [] ∈ tcs := by
          rw [List.getD_eq_getElem?_getD, List.getElem?_eq_getElem hx', Option.getD_some]
          exact List.getElem_mem hx'
        have hin : utf8Encode (tcs.getD x []) ∈ ts := by rw [e7.enc]; exact List.mem_map_of_mem hmem
        refine ⟨?_, ?_⟩
        · show Roberta.idToToken r.v x = _
          refine idToToken_cps (e7.scalar _ hmem) ?_
          rw [VocabT.idToToken, e6.1, if_neg (by rw [e5.length]; omega), e7.enc, List.getElem?_map,
            List.getD_eq_getElem?_getD, List.getElem?_eq_getElem hx']
          rfl
        · rw [List.length_map]
          exact Nat.le_trans (utf8_length_ge _) (e5.sizes _ hin).2)
      A ge hA gg kStr n hk hn0 hn' hn31 junkI junk
    exact hfin

/-- C78, RoBERTa (partial: as C76 and C59; names of tokens are their code points modulo 256, see C32). -/
theorem C78_roberta_partial {s : Source α} (hcls : s.cls = .roberta) (hc : ConfigOk s.config)
    (hst : StateOk s.config s.state) (hlm : HeadOk s.cls s.lm) (hh : HasHead s.cls s.config s.lm)
    {rs : List ((List Nat × List Nat) × Nat)} (ht : RobertaTok s.config s.tok rs) (hlay : 1 ≤ s.config.layers ∧ s.config.layers ≤ 44)
    (hasc : ∀ o ∈ [s.tok.cls, s.tok.mask, s.tok.pad, s.tok.sep, s.tok.unk, s.tok.bos, s.tok.eos],
      ∃ d ∈ s.tok.dict, o = some d.2 ∧ ∀ b ∈ d.1, b < 0x80)
    {cls mask pad sep : Nat} (hi : s.tok.cls = some cls ∧ s.tok.mask = some mask ∧ s.tok.pad = some pad ∧
      s.tok.sep = some sep) (hne : mask ≠ cls ∧ mask ≠ sep) {maskTok : List Nat} (hmask : (maskTok, mask) ∈ s.tok.dict)
    (hm3 : 3 ≤ maskTok.length) {enc : Bool → List α → List Nat}
    {dec : Nat → List Nat → List α} {rnd : Bool → α → α} (hd : Codec enc dec rnd) (dflt : α) (f16 : Bool)
    (header : List Nat) (W : Weights α) (hW : Load.Named (sourceAt rnd dflt f16 s) s.config.layers W) :
    ∃ g bytes lm, convert enc f16 header s = some (g, bytes) ∧ W.lm = some lm ∧
      ∀ (world : List Nat → World α) (path : List Nat), Opens (world path) g bytes dec dflt →
        (∀ m, ((world path).order m).Perm m) →
      ∃ (k : Load.Ctx α) (l : Ledger) (tcs : List (List Nat)), load (world path) = .ok (some k, l) ∧
        Tokens s.config s.tok.dict (tcs.map utf8Encode) ∧ (∀ t ∈ tcs, ∀ c ∈ t, IsScalar c) ∧
      ∀ (u : Icu) (e : Roberta.Env) (setOrder : List (List Nat) → List (List Nat)), e.signed = (world path).signed →
        SetOrder setOrder →
      ∀ cs : List Nat, (∀ c ∈ cs, IsScalar c) → EnvOK e (utf8Encode cs).length → (utf8Encode cs).length ≤ e.fuel →
        (e.signed = true → ∀ c ∈ cs, c < 0x80) → (∀ b ∈ utf8Encode cs, utf8Of (byteChar b) ∈ s.tok.dict.map (·.1)) →
      ∃ toks : List Nat, Api.bertsTokenize (some (apiCtx u e setOrder k)) (utf8Encode cs) none (some 0) =
          .ok ⟨true, none, some (toks.length + 2)⟩ ∧ (∀ buf : List Nat, buf.length = toks.length + 2 →
          Api.bertsTokenize (some (apiCtx u e setOrder k)) (utf8Encode cs) (some buf) (some buf.length) =
            .ok ⟨true, some (cls :: toks ++ [sep]), some (toks.length + 2)⟩) ∧
      ∀ q : Nat, toks[q]? = some mask → (∀ q' : Nat, toks[q']? = some mask → q' = q) →
        pad + (toks.length + 2) < s.config.maxPos →
      ∀ (A : Arith α) (ge : α → α → Prop), ArgsortSpec A ge → ∀ (gg : Gg) (kStr : List Nat) (n : Nat), Number kStr n →
        0 < n → n ≤ s.config.vocabSize → n < 2 ^ 31 → ∀ (junkI : Nat → Nat) (junk : Nat → α),
      let m : EModel α := ⟨false, (hpOf 1 s.config).hp, W, s.config.vocabSize, pad⟩
      let tokens := cls :: toks ++ [sep]
      let p := fun v => refProbs A m lm (expected A m s.config.layers 0 tokens (tokens.map fun _ => 0)) dflt v (q + 1)
      ∃ best, fillMaskMain A gg u e setOrder world dflt junkI junk [path, kStr, utf8Encode cs] =
        .ok (0, (List.range n).map fun i => (best i, (tcs.getD (best i) []).map (· % 256), p (best i))) ∧
        Best ge p s.config.vocabSize n best := by
  obtain ⟨g, bytes, h1, h2, h3⟩ := roberta_file hcls hc hst hlm ht hd dflt f16 header
  obtain ⟨lm, lm1, lm2⟩ := head_ok (by rw [hcls]; decide) hst hlm hh rnd dflt f16
  have hl : W.lm = some lm := (hW.2.2.2.2.2.2.2.2.2 lm).2 lm1
  refine ⟨g, bytes, lm, h1, hl, fun world path ho hord => ?_⟩
  obtain ⟨k, l, r, ts, tcs, data, e1, e2, e3, e4, e5, e6, e7, e8, e9, _, _, m, e12⟩ := h3 _ ho hord
  obtain ⟨i1, i2, i3, i4⟩ := hi
  have hsp := ascii_specials ht.dict hasc e5 e8
  have j1 := e8.base.cls; have j2 := e8.base.mask; have j3 := e8.base.pad; have j4 := e8.base.sep
  rw [i1] at j1; rw [i2] at j2; rw [i3] at j3; rw [i4] at j4
  obtain ⟨j1', j1⟩ := j1
  obtain ⟨j2', j2⟩ := j2
  obtain ⟨j3', j3⟩ := j3
  obtain ⟨j4', j4⟩ := j4
  injection j1' with j1'; injection j2' with j2'; injection j3' with j3'; injection j4' with j4'
  subst j1' j2' j3' j4'
  exact ⟨k, l, tcs, e1, by rw [← e7.enc]; exact e5, e7.scalar, roberta_fills hc hlay hne hmask hm3 hl lm2 ho (h2 ho.fits.2)
    e1 e2 e4 e5 e6 e7 (named_unique e9 hW) hsp hord e12 j1 j4⟩

/-! ### Examples -/

/-- A complete head. -/
def exHead (cls : Cls) (c : Config) : List (Param Int) :=
  (headNames cls).flatMap fun k => ((headShapes c).filter (·.1 == k.2)).map fun x =>
    ⟨ascii k.1, x.2, (List.range x.2.prod).map Int.ofNat⟩

def exBertLm : Source Int := { exBert with lm := exHead .bert (exConfig 8) }

/-- More positions and tokens than `exRob` has. -/
def exRobConfig : Config := { exConfig 15 with maxPos := 6 }

def exLmDict : List (List Nat × Nat) :=
  exRobDict ++ [(ascii "<", 10), (ascii "m", 11), (ascii "s", 12), (ascii "k", 13), (ascii ">", 14)]

def exLmTok : Tokenizer := { exRobTok exRanks with dict := exLmDict }

def exRobLm : Source Int := ⟨.roberta, ascii "x", exRobConfig, exLmTok, exParams exRobConfig, exHead .roberta exRobConfig⟩

theorem exLmTok_ok : RobertaTok exRobConfig exLmTok exRanks := by
  refine ⟨⟨?_, ?_, ?_, ?_⟩, ?_, ?_, ?_, rfl, ?_, ?_⟩
  · show (exLmDict.map (·.1)).Nodup
    decide +kernel
  · show (exLmDict.map (·.2)).Nodup
    decide +kernel
  · show ∀ d ∈ exLmDict, d.2 < 15
    decide +kernel
  · show ∀ d ∈ exLmDict, d.1 ≠ [] ∧ d.1.length ≤ 256
    decide +kernel
  · intro o ho
    simp only [exLmTok, exRobTok, List.mem_cons, List.not_mem_nil, or_false] at ho
    rcases ho with rfl | rfl | rfl | rfl | rfl | rfl | rfl <;> exact ⟨_, rfl, by decide⟩
  · have : ∀ d ∈ exLmDict, ∀ x ∈ d.1, x < 0x80 := by decide +kernel
    intro d hd
    exact ⟨d.1, fun x hx => .inl (by have := this d hd x hx; omega), (Roberta.utf8_ascii _ (this d hd)).symm⟩
  · exact ⟨(ascii "<unk>", 3), by simp [exLmTok, exLmDict, exRobDict], rfl, by decide +kernel⟩
  · show ∀ r ∈ exRanks, ∀ tok ∈ [r.1.1, r.1.2, r.1.1 ++ r.1.2], tok ∈ exLmDict.map (·.1)
    decide +kernel
  · decide +kernel

theorem tame_of {shape : List Nat} (h : (match shape with
    | [n] => decide (2 ≤ n)
    | [a, b] => decide (1 ≤ a) && decide (2 ≤ b)
    | _ => false) = true) : Tame shape := by
  split at h
  · exact .inl ⟨_, by simpa using h, rfl⟩
  · simp only [Bool.and_eq_true, decide_eq_true_eq] at h
    exact .inr ⟨_, _, h.1, h.2, rfl⟩
  · cases h

theorem exHead_ok (cls : Cls) (c : Config) (h : (cls = .bert ∧ c = exConfig 8) ∨ (cls = .roberta ∧ c = exRobConfig)) :
    HeadOk cls (exHead cls c) ∧ HasHead cls c (exHead cls c) := by
  refine ⟨⟨?_, ?_, ?_⟩, ?_⟩
  · rcases h with ⟨rfl, rfl⟩ | ⟨rfl, rfl⟩ <;> decide +kernel
  · intro p hp
    unfold exHead at hp
    rw [List.mem_flatMap] at hp
    obtain ⟨k, hk, hp⟩ := hp
    rw [List.mem_map] at hp
    obtain ⟨x, _, rfl⟩ := hp
    exact .inr ⟨k, hk, rfl⟩
  · have h1 : ∀ p ∈ exHead cls c, (match p.shape with
        | [n] => decide (2 ≤ n)
        | [a, b] => decide (1 ≤ a) && decide (2 ≤ b)
        | _ => false) = true := by
      rcases h with ⟨rfl, rfl⟩ | ⟨rfl, rfl⟩ <;> decide +kernel
    exact fun p hp => tame_of (h1 p hp)
  · intro k hk shape hs
    refine ⟨⟨ascii k.1, shape, (List.range shape.prod).map Int.ofNat⟩, ?_, rfl, rfl⟩
    unfold exHead
    exact List.mem_flatMap.2 ⟨k, hk, List.mem_map.2 ⟨(k.2, shape), List.mem_filter.2 ⟨hs, by simp⟩, rfl⟩⟩

theorem exRobParams_ok : StateOk exRobConfig (exParams exRobConfig) := by
  refine ⟨by decide +kernel, ?_, ?_, by decide +kernel, ?_, ?_⟩
  · intro p hp
    exact ⟨⟨ascii p.1, p.2, _⟩, List.mem_append_left _ (List.mem_map_of_mem hp), rfl, rfl⟩
  · intro i hi p hp
    refine ⟨⟨_, p.2, _⟩, List.mem_append_right _ (List.mem_flatMap.2 ⟨i, List.mem_range.2 hi, List.mem_map_of_mem hp⟩), rfl, rfl⟩
  · have h1 : ∀ p ∈ exParams exRobConfig, (["embeddings.", "encoder.", "pooler."].any fun r => (ascii r).isPrefixOf p.key) = true := by
      decide +kernel
    intro p hp
    have := h1 p hp
    rw [List.any_eq_true] at this
    obtain ⟨r, h2, h3⟩ := this
    exact ⟨r, h2, List.isPrefixOf_iff_prefix.1 h3⟩
  · have h1 : ∀ p ∈ exParams exRobConfig, (match p.shape with
        | [n] => decide (2 ≤ n)
        | [a, b] => decide (1 ≤ a) && decide (2 ≤ b)
        | _ => false) = true := by decide +kernel
    exact fun p hp => tame_of (h1 p hp)

theorem exRobConfig_ok : ConfigOk exRobConfig := by
  obtain ⟨h1, h2, h3, h4, h5, h6, h7, h8⟩ := exConfig_ok 15 (by decide)
  have : 6 < 2 ^ 31 := by decide
  exact ⟨h1, h2, h3, h4, this, h6, h7, h8⟩

theorem ex_opens {s : Source Int} {g : Gguf} {bytes : List Nat} (h : convert exEnc true [1, 2, 3] s = some (g, bytes))
    (h2 : (match convert exEnc true [1, 2, 3] s with
      | some (g, bytes) => decide (needed loadGg g.dir < 2 ^ 64 ∧ bytes.length < 2 ^ 63)
      | none => false) = true) : Opens (exWorld (g, bytes)) g bytes exDec 0 := by
  have h1 : 0 < loadGg.align ∧ loadGg.tensorSize % loadGg.align = 0 := by decide
  rw [h] at h2
  exact ⟨rfl, rfl, rfl, rfl, h1, of_decide_eq_true h2⟩

theorem ex_load {s : Source Int} {g : Gguf} {bytes : List Nat} (h : convert exEnc true [1, 2, 3] s = some (g, bytes))
    {k : Load.Ctx Int} {l : Ledger} (hl : load (exWorld (g, bytes)) = .ok (some k, l)) : exLoad s = .ok (some k) := by
  unfold exLoad
  rw [h]
  simp only
  rw [hl]
  rfl

/-- The tokens of a text, by the two-call protocol. -/
def exTokens (s : Source Int) (text : List Nat) (n : Nat) : Res Api.Out × Res Api.Out :=
  ((exLoad s).bind fun k => Api.bertsTokenize (k.map (apiCtx asciiIcu (robEnv false) id)) text none (some 0),
    (exLoad s).bind fun k =>
      Api.bertsTokenize (k.map (apiCtx asciiIcu (robEnv false) id)) text (some (List.replicate n 99)) (some n))

/-- The hypotheses of `C78_bert_partial` can be met: a source, a file, a text with one mask. -/
theorem fill_example : ∃ world r, fillMaskMain tinyA tinyG asciiIcu (robEnv false) id world 0 (fun _ => 7) (fun _ => 7)
    [ascii "m", ascii "2", utf8Encode (ascii "[MASK]")] = .ok (0, r) := by
  obtain ⟨hh1, hh2⟩ := exHead_ok .bert (exConfig 8) (.inl ⟨rfl, rfl⟩)
  have hst := exParams_ok 8 (.inl rfl)
  have hc := exConfig_ok 8 (by decide)
  have hw : ∃ W, Load.Named (sourceAt exRnd 0 true exBertLm) exBertLm.config.layers W := by
    obtain ⟨g, bytes, h, h2⟩ := C75_bert_partial (s := exBertLm) rfl hc hst hh1 exBertTok_ok ex_codec 0 true [1, 2, 3]
    obtain ⟨k, _, _, _, _, _, _, _, _, _, _, _, _, _, _, _, _, _, _, _, hk⟩ := h2 _ (ex_opens h (by decide +kernel))
    exact ⟨_, hk⟩
  obtain ⟨W, hW⟩ := hw
  have hmk : ¬ marker <+: ascii "[MASK]" := by
    rw [← List.isPrefixOf_iff_prefix]
    decide
  obtain ⟨g, bytes, lm, h1, h2, h3⟩ := C78_bert_partial (s := exBertLm) rfl hc hst hh1 hh2 exBertTok_ok (by decide) rfl
    (.inr rfl) (cls := 0) (mask := 4) (pad := 3) (sep := 1) (unk := 2) ⟨rfl, rfl, rfl, rfl, rfl⟩ (by decide)
    (maskTok := ascii "[MASK]") (by decide +kernel) (by decide) (by decide) hmk ex_codec 0 true [1, 2, 3] W hW
  obtain ⟨k, l, ts, k1, k2, k3⟩ := h3 (fun _ => exWorld (g, bytes)) (ascii "m") (ex_opens h1 (by decide +kernel))
  have hs : ∀ c ∈ ascii "[MASK]", IsScalar c := by decide +kernel
  obtain ⟨toks, t1, t2, t3⟩ := k3 asciiIcu (by simp [asciiIcu]) rfl rfl (robEnv false) id (ascii "[MASK]") (ascii "[MASK]")
    hs hs rfl (by decide +kernel)
  have hx : exTokens exBertLm (utf8Encode (ascii "[MASK]")) 3 =
      (.ok ⟨true, none, some 3⟩, .ok ⟨true, some [0, 4, 1], some 3⟩) := by decide +kernel
  unfold exTokens at hx
  rw [ex_load h1 k1] at hx
  obtain ⟨x1, x2⟩ := Prod.mk.injEq .. ▸ hx
  have e1 := t1.symm.trans x1
  have hlen : toks.length = 1 := by
    injection e1 with e1
    injection e1 with _ _ e1
    injection e1 with e1
    omega
  have e2 := (t2 (List.replicate 3 99) (by simp [hlen])).symm.trans x2
  have ht : toks = [4] := by
    injection e2 with e2
    injection e2 with _ e2 _
    injection e2 with e2
    match toks, hlen with
    | [a], _ => simpa using e2
  subst ht
  obtain ⟨best, b, _⟩ := t3 0 rfl (by
    intro q' h
    match q' with
    | 0 => rfl
    | q' + 1 => simp at h) (by decide) tinyA _ tiny_argsort tinyG (ascii "2") 2 (.nonneg _ 2 (.one 2 (by decide)))
    (by decide) (by decide) (by decide) (fun _ => 7) (fun _ => 7)
  exact ⟨_, _, b⟩

theorem exRobLm_ascii : ∀ o ∈ [exRobLm.tok.cls, exRobLm.tok.mask, exRobLm.tok.pad, exRobLm.tok.sep, exRobLm.tok.unk,
    exRobLm.tok.bos, exRobLm.tok.eos], ∃ d ∈ exRobLm.tok.dict, o = some d.2 ∧ ∀ b ∈ d.1, b < 0x80 := by
  have hs : ∀ o ∈ [exRobLm.tok.cls, exRobLm.tok.mask, exRobLm.tok.pad, exRobLm.tok.sep, exRobLm.tok.unk,
      exRobLm.tok.bos, exRobLm.tok.eos], (exRobLm.tok.dict.any fun d => o == some d.2 && d.1.all (· < 0x80)) = true := by
    decide +kernel
  intro o ho
  have := hs o ho
  rw [List.any_eq_true] at this
  obtain ⟨d, d1, d2⟩ := this
  rw [Bool.and_eq_true, beq_iff_eq, List.all_eq_true] at d2
  exact ⟨d, d1, d2.1, fun b hb => by simpa using d2.2 b hb⟩

/-- The hypotheses of `C78_roberta_partial` can be met. -/
example : ∃ world r, fillMaskMain tinyA tinyG asciiIcu (robEnv false) id world 0 (fun _ => 7) (fun _ => 7)
    [ascii "m", ascii "2", utf8Encode (ascii "<mask>")] = .ok (0, r) := by
  obtain ⟨hh1, hh2⟩ := exHead_ok .roberta exRobConfig (.inr ⟨rfl, rfl⟩)
  have hst := exRobParams_ok
  have hc := exRobConfig_ok
  have ht0 := exLmTok_ok
  have hw : ∃ W, Load.Named (sourceAt exRnd 0 true exRobLm) exRobLm.config.layers W := by
    obtain ⟨g, bytes, h, h2⟩ := C75_roberta_partial (s := exRobLm) rfl hc hst hh1 ht0 ex_codec 0 true [1, 2, 3]
    obtain ⟨k, l, r, ts, k1, k2, k3, k4, k5, k6, k7, _, _, _, _, _, _, k8⟩ := h2 _ (ex_opens h (by decide +kernel)) (fun m => List.Perm.refl m)
    exact ⟨_, k8⟩
  obtain ⟨W, hW⟩ := hw
  obtain ⟨g, bytes, lm, h1, h2, h3⟩ := C78_roberta_partial (s := exRobLm) rfl hc hst hh1 hh2 ht0 (by decide) exRobLm_ascii
    (cls := 0) (mask := 4) (pad := 1) (sep := 2) ⟨rfl, rfl, rfl, rfl⟩ (by decide)
    (maskTok := ascii "<mask>") (by decide +kernel) (by decide) ex_codec 0 true [1, 2, 3] W hW
  obtain ⟨k, l, tcs, k1, k2, _, k3⟩ := h3 (fun _ => exWorld (g, bytes)) (ascii "m") (ex_opens h1 (by decide +kernel))
    (fun m => List.Perm.refl m)
  have hs : ∀ c ∈ ascii "<mask>", IsScalar c := by decide +kernel
  obtain ⟨toks, t1, t2, t3⟩ := k3 asciiIcu (robEnv false) id rfl (fun _ _ => Iff.rfl) (ascii "<mask>") hs
    ⟨(robEnv_ok false).1, (robEnv_ok false).2, by decide +kernel⟩ (by decide +kernel) (fun h => by cases h) (by decide +kernel)
  have hx : exTokens exRobLm (utf8Encode (ascii "<mask>")) 3 =
      (.ok ⟨true, none, some 3⟩, .ok ⟨true, some [0, 4, 2], some 3⟩) := by decide +kernel
  unfold exTokens at hx
  rw [ex_load h1 k1] at hx
  obtain ⟨x1, x2⟩ := Prod.mk.injEq .. ▸ hx
  have e1 := t1.symm.trans x1
  have hlen : toks.length = 1 := by
    injection e1 with e1
    injection e1 with _ _ e1
    injection e1 with e1
    omega
  have e2 := (t2 (List.replicate 3 99) (by simp [hlen])).symm.trans x2
  have ht : toks = [4] := by
    injection e2 with e2
    injection e2 with _ e2 _
    injection e2 with e2
    match toks, hlen with
    | [a], _ => simpa using e2
  subst ht
  obtain ⟨best, b, _⟩ := t3 0 rfl (by
    intro q' h
    match q' with
    | 0 => rfl
    | q' + 1 => simp at h) (by decide) tinyA _ tiny_argsort tinyG (ascii "2") 2 (.nonneg _ 2 (.one 2 (by decide)))
    (by decide) (by decide) (by decide) (fun _ => 7) (fun _ => 7)
  exact ⟨_, _, b⟩

end Berts.Props
