import Verif.Model.Main
import Verif.Props.Examples
import Verif.Props.FillMask

/-!
# C83, C84: exit status and output of the fill-mask program
-/

namespace Berts.Props

open Berts.Spec (Arith)
open Berts.Graph (Gg)
open Berts.Load (World load emodel apiCtx Ledger)
open Berts.Examples
open Berts.Vocab (ascii decimal)
open Berts.Eval
open Berts.Graph

variable {α : Type}

/-- The loop over the results gives one result for each round. -/
theorem results_length (ctx : Option Api.Ctx) (ids : List Nat) (probs : List α) (k pos : Nat) (is : List Nat)
    (r : List (Nat × List Nat × α)) (h : results ctx ids probs k pos is = .ok r) : r.length = is.length := by
  induction is generalizing r with
  | nil => unfold results at h; cases h; rfl
  | cons i is ih =>
    unfold results at h
    split at h
    · cases hn : tokenName ctx ‹_› with
      | ok name =>
        rw [hn] at h
        simp only [Res.bind] at h
        cases hr : results ctx ids probs k pos is with
        | ok r' =>
          rw [hr] at h
          cases h
          simp [ih _ hr]
        | ub => rw [hr] at h; cases h
        | abort => rw [hr] at h; cases h
        | hang => rw [hr] at h; cases h
      | ub => rw [hn] at h; cases h
      | abort => rw [hn] at h; cases h
      | hang => rw [hn] at h; cases h
    · cases h

theorem bind_ok {β γ : Type} {x : Res β} {f : β → Res γ} {y : γ} (h : x.bind f = .ok y) :
    ∃ a, x = .ok a ∧ f a = .ok y := by
  cases x with
  | ok a => exact ⟨a, rfl, h⟩
  | ub => cases h
  | abort => cases h
  | hang => cases h

/-- The part after loading: either status 0 and `k` results, or status 1 and none. -/
theorem fillMask_status (A : Arith α) (g : Gg) (actx : Option Api.Ctx) (ectx : Option (Eval.ECtx α)) (dflt : α) (k : Nat)
    (text : List Nat) (junkI : Nat → Nat) (junk : Nat → α) (s : Nat) (r : List (Nat × List Nat × α))
    (h : fillMask A g actx ectx dflt k text junkI junk = .ok (s, r)) :
    (s = 0 ∧ r.length = k ∧ k ≤ Api.bertsVocabSize actx ∧ ∃ tokens pos, promptTokens actx text junkI = .ok (some tokens) ∧
      findMask (Api.bertsMaskId actx) tokens = some pos) ∨ (s = 1 ∧ r = []) := by
  unfold fillMask at h
  split at h
  · cases h; exact .inr ⟨rfl, rfl⟩
  · rename_i hk
    obtain ⟨t, ht, h⟩ := bind_ok h
    split at h
    · cases h; exact .inr ⟨rfl, rfl⟩
    · split at h
      · cases h; exact .inr ⟨rfl, rfl⟩
      · rename_i tokens _ pos hpos
        obtain ⟨hd, _, h⟩ := bind_ok h
        split at h
        · cases h; exact .inr ⟨rfl, rfl⟩
        · obtain ⟨l, _, h⟩ := bind_ok h
          split at h
          · cases h; exact .inr ⟨rfl, rfl⟩
          · obtain ⟨r', hr, h⟩ := bind_ok h
            cases h
            exact .inl ⟨rfl, by simpa using results_length _ _ _ _ _ _ _ hr, by omega, tokens, pos, ht, hpos⟩

/-! ## C83: the exit status -/

/-- C83: whenever the program ends by itself, either its status is 0, it was given three arguments with a positive
number, a model that loads and has at least that many tokens and a text with exactly one mask, and printed that many
results; or its status is 1 and it printed no result. -/
theorem C83_status (A : Arith α) (g : Gg) (u : Bert.Icu) (e : Roberta.Env) (setOrder : List (List Nat) → List (List Nat))
    (world : List Nat → World α) (dflt : α) (junkI : Nat → Nat) (junk : Nat → α) (args : List (List Nat)) (s : Nat)
    (r : List (Nat × List Nat × α))
    (h : fillMaskMain A g u e setOrder world dflt junkI junk args = .ok (s, r)) :
    (s = 0 ∧ ∃ model kStr text k c l tokens pos, args = [model, kStr, text] ∧ stoi kStr = some k ∧ 0 < k ∧
      load (world model) = .ok (some c, l) ∧ k ≤ Api.bertsVocabSize (some (apiCtx u e setOrder c)) ∧
      promptTokens (some (apiCtx u e setOrder c)) text junkI = .ok (some tokens) ∧
      tokens[pos]? = some (Api.bertsMaskId (some (apiCtx u e setOrder c))) ∧
      (∀ q : Nat, tokens[q]? = some (Api.bertsMaskId (some (apiCtx u e setOrder c))) → q = pos) ∧ r.length = k) ∨
    (s = 1 ∧ r = []) := by
  unfold fillMaskMain at h
  split at h
  · rename_i model kStr text
    obtain ⟨k, hk, h⟩ := bind_ok h
    split at h
    · cases h; exact .inr ⟨rfl, rfl⟩
    · rename_i k
      obtain ⟨⟨c, l⟩, hl, h⟩ := bind_ok h
      split at h
      · cases h; exact .inr ⟨rfl, rfl⟩
      · rename_i c' hc
        simp only at hc
        subst hc
        have hk := ((C67_k kStr).2.2 k).1 hk
        rcases fillMask_status _ _ _ _ _ _ _ _ _ _ _ h with ⟨h1, h2, h3, tokens, pos, h4, h5⟩ | h
        · refine .inl ⟨h1, model, kStr, text, k, c', l, tokens, pos, rfl, hk.1, hk.2, hl, by omega, h4, ?_⟩
          have := (C59_mask _ _ _).1 h5
          exact ⟨this.1, this.2, by omega⟩
        · exact .inr h
  · cases h; exact .inr ⟨rfl, rfl⟩

/-- C83: the failures that are reported with status 1: a wrong number of arguments; a number that is not positive; a model
that cannot be loaded; a number larger than the vocabulary; a text that cannot be tokenized; a text with no mask or
several. -/
theorem C83_failures (A : Arith α) (g : Gg) (u : Bert.Icu) (e : Roberta.Env)
    (setOrder : List (List Nat) → List (List Nat)) (world : List Nat → World α) (dflt : α) (junkI : Nat → Nat)
    (junk : Nat → α) (args : List (List Nat)) :
    let main := fillMaskMain A g u e setOrder world dflt junkI junk
    (args.length ≠ 3 → main args = .ok (1, [])) ∧
    (∀ model kStr text, args = [model, kStr, text] → ∀ v, Examples.Spec.Number kStr v → -2 ^ 31 ≤ v → v < 2 ^ 31 →
      (v ≤ 0 → main args = .ok (1, [])) ∧
      (∀ l, 0 < v → load (world model) = .ok (none, l) → main args = .ok (1, [])) ∧
      (∀ c l, 0 < v → load (world model) = .ok (some c, l) →
        let ctx := some (apiCtx u e setOrder c)
        (Api.bertsVocabSize ctx < v → main args = .ok (1, [])) ∧
        (promptTokens ctx text junkI = .ok none → main args = .ok (1, [])) ∧
        (∀ tokens, promptTokens ctx text junkI = .ok (some tokens) →
          (¬ ∃ pos : Nat, tokens[pos]? = some (Api.bertsMaskId ctx) ∧
            ∀ q : Nat, tokens[q]? = some (Api.bertsMaskId ctx) → q = pos) → main args = .ok (1, [])))) := by
  intro main
  constructor
  · intro h
    show fillMaskMain A g u e setOrder world dflt junkI junk args = _
    unfold fillMaskMain
    split
    · exact absurd rfl h
    · rfl
  · rintro model kStr text rfl v hv h1 h2
    have hp := C67_numbers_partial kStr v hv ⟨h1, h2⟩
    refine ⟨?_, ?_, ?_⟩
    · intro h0
      rw [if_neg (by omega)] at hp
      show fillMaskMain A g u e setOrder world dflt junkI junk [model, kStr, text] = _
      simp only [fillMaskMain, hp, Eval.res_ok]
    · intro l h0 hl
      rw [if_pos h0] at hp
      show fillMaskMain A g u e setOrder world dflt junkI junk [model, kStr, text] = _
      simp only [fillMaskMain, hp, Eval.res_ok, hl]
    · intro c l h0 hl ctx
      rw [if_pos h0] at hp
      have hm : main [model, kStr, text] =
          fillMask A g ctx (some ⟨some (emodel c)⟩) dflt v.toNat text junkI junk := by
        show fillMaskMain A g u e setOrder world dflt junkI junk [model, kStr, text] = _
        simp only [fillMaskMain, hp, Eval.res_ok, hl, ctx]
      rw [hm]
      unfold fillMask
      refine ⟨fun h => if_pos (by omega), fun h => ?_, fun tokens h hno => ?_⟩
      · split
        · rfl
        · rw [h]; rfl
      · split
        · rfl
        · rw [h, Eval.res_ok]
          simp only
          have hf : findMask (Api.bertsMaskId ctx) tokens = none := by
            cases hf : findMask (Api.bertsMaskId ctx) tokens with
            | none => rfl
            | some p => exact absurd ⟨p, (C59_mask _ _ _).1 hf⟩ hno
          rw [hf]

/-- C83: a model without language model head is reported with status 1, after its hidden states were computed. -/
theorem C83_no_head (A : Arith α) (g : Gg) (c : Api.Ctx) (am : Api.ModelI) (hm : c.model = some am) (m : Eval.EModel α)
    (hlm : m.w.lm = none) (hact : m.hp.act ≤ 3) (hh : 0 < m.hp.hidden) (text toks : List Nat)
    (ht : am.tokenize text = .ok (true, toks)) (hc : am.clsId ≠ INVALID) (hs : am.sepId ≠ INVALID)
    (hlen : toks.length + 2 ≤ text.length) (V P S : Nat) (hf : Fits m V P S (am.clsId :: toks ++ [am.sepId]))
    (hmax : toks.length + 2 ≤ m.hp.maxTokens) (hseg : 0 < m.hp.segments)
    (hr : RowsExist m V P (am.clsId :: toks ++ [am.sepId])) (hl : 1 ≤ m.hp.nLayers)
    (k : Nat) (dflt : α) (junkI : Nat → Nat) (junk : Nat → α) :
    fillMask A g (some c) (some ⟨some m⟩) dflt k text junkI junk = .ok (1, []) := by
  have hn : (am.clsId :: toks ++ [am.sepId]).length = toks.length + 2 := by simp
  unfold fillMask
  split
  · rfl
  rw [C59_reads_partial c am hm text toks ht hc hs hlen, Eval.res_ok]
  simp only
  split
  · rfl
  generalize htok : am.clsId :: toks ++ [am.sepId] = tokens at *
  have ha : Accepted m tokens (tokens.map fun _ => 0) 0 :=
    ⟨by omega, by simp, by intro s hs; simp at hs; omega, by omega⟩
  have hel : (expected A m m.hp.nLayers 0 tokens (tokens.map fun _ => 0)).length = m.hp.hidden * tokens.length := by
    simp [expected, flatten, outRows]
  rw [hiddenOf_value A g m V P S tokens hf ha (by omega) hr hl, Eval.res_ok]
  simp only
  have hlm' : lmOf A g (some ⟨some m⟩) (expected A m m.hp.nLayers 0 tokens (tokens.map fun _ => 0))
      (m.hp.hidden * tokens.length) dflt k junkI junk = .ok none := by
    unfold lmOf
    rw [if_pos (by omega), List.take_of_length_le (by omega)]
    have hrej := fun given => ((C43_reject A g m hh (expected A m m.hp.nLayers 0 tokens (tokens.map fun _ => 0)) dflt
      (k : Int) given).2 tokens.length hel).2.2 hlm hact
    simp only [bertsEvalLm, Option.bind_some, C43_dry A g m hh _ dflt tokens.length hel, Eval.res_ok, if_true,
      Option.getD_some, hrej]
    rfl
  rw [hlm', Eval.res_ok]

/-- The hypotheses of `C83_status` can be met, with both statuses. -/
example : ∃ world r, fillMaskMain tinyA tinyG asciiIcu (robEnv false) id world 0 (fun _ => 7) (fun _ => 7)
    [ascii "m", ascii "2", Berts.Unicode.utf8Encode (ascii "[MASK]")] = .ok (0, r) ∧ r.length = 2 := by
  obtain ⟨world, r, h⟩ := fill_example
  refine ⟨world, r, h, ?_⟩
  rcases C83_status _ _ _ _ _ _ _ _ _ _ _ _ h with ⟨_, model, kStr, text, k, c, l, tokens, pos, h1, h2, _, _, _, _, _, _, h3⟩ | ⟨h, _⟩
  · simp only [List.cons.injEq] at h1
    rw [← h1.2.1] at h2
    have : stoi (ascii "2") = some 2 := by decide +kernel
    rw [this] at h2
    cases h2
    exact Int.ofNat.inj h3
  · cases h

example (world) : fillMaskMain tinyA tinyG asciiIcu (robEnv false) id world 0 (fun _ => 7) (fun _ => 7)
    [ascii "m", ascii "0", ascii "hi"] = .ok (1, []) :=
  ((C83_failures tinyA tinyG asciiIcu (robEnv false) id world 0 (fun _ => 7) (fun _ => 7) _).2 (ascii "m") (ascii "0")
    (ascii "hi") rfl 0 (by
      have h : Examples.Spec.Number (decimal 0) 0 := .nonneg _ 0 (decimal_digits 0)
      rwa [show decimal 0 = ascii "0" by decide +kernel] at h) (by decide)
    (by decide)).1 (by decide)

/-- A model without head. -/
def tinyBare : EModel Int where
  isBert := true
  hp := ⟨3, 2, 1, 2, 4, 3, 2, 0, 0⟩
  w := ⟨tinyT 2 3, tinyT 2 2, tinyT 2 4, tinyT 2 1, tinyT 2 1, [tinyL], tinyT 2 2, tinyT 2 1, none⟩
  vocabCount := 3
  padId := 1

theorem tinyBare_ok : ModelOK tinyBare 3 4 2 :=
  let h := tiny_ok true 4
  ⟨⟨tinyT_w 2 3, tinyT_w 2 4, tinyT_w 2 2, tinyT_v 2, tinyT_v 2, h.weights.layers, rfl, tinyT_w 2 2, tinyT_v 2⟩,
    h.2, h.3, h.4, rfl⟩

/-- The hypotheses of `C83_no_head` can be met. -/
example : fillMask tinyA tinyG (some ⟨.bert, some tinyTok⟩) (some ⟨some tinyBare⟩) 0 2 [60, 60, 60] (fun _ => 7)
    (fun _ => 7) = .ok (1, []) :=
  C83_no_head tinyA tinyG ⟨.bert, some tinyTok⟩ tinyTok rfl tinyBare rfl (by decide) (by decide) [60, 60, 60] [1] rfl
    (by decide) (by decide) (by decide) 3 4 2
    ⟨⟨tinyBare_ok, by decide, by decide, by decide, by decide, by decide, by decide, by decide⟩, by decide⟩ (by decide) (by decide)
    (by refine ⟨by decide, ?_⟩
        intro t ht
        match t, ht with
        | 0, _ => decide
        | 1, _ => decide
        | 2, _ => decide) (by decide) 2 0 (fun _ => 7) (fun _ => 7)

/-! ## C84: the table of results -/

theorem padLoop_eq (w n : Nat) (t : List Nat) (h : w ≤ t.length + n) :
    padLoop w n t = t ++ List.replicate (w - t.length) 32 := by
  induction n generalizing t with
  | zero =>
    unfold padLoop
    rw [show w - t.length = 0 by omega]
    simp
  | succ n ih =>
    unfold padLoop
    split
    · rw [ih _ (by simp; omega), show w - t.length = (w - (t ++ [32]).length) + 1 by simp; omega]
      simp [List.replicate_succ]
    · rw [show w - t.length = 0 by omega]
      simp

theorem maxLen_spec (rs : List (Nat × List Nat × α)) (m : Nat) :
    let w := rs.foldl (fun m r => if m < r.2.1.length then r.2.1.length else m) m
    m ≤ w ∧ (∀ r ∈ rs, r.2.1.length ≤ w) ∧ (w = m ∨ ∃ r ∈ rs, r.2.1.length = w) := by
  induction rs generalizing m with
  | nil => simp
  | cons r rs ih =>
    obtain ⟨h1, h2, h3⟩ := ih (if m < r.2.1.length then r.2.1.length else m)
    simp only [List.foldl_cons]
    have hm : m ≤ (if m < r.2.1.length then r.2.1.length else m) ∧
        r.2.1.length ≤ (if m < r.2.1.length then r.2.1.length else m) := by split <;> omega
    refine ⟨?_, ?_, ?_⟩
    · exact Nat.le_trans hm.1 h1
    · intro x hx
      rcases List.mem_cons.1 hx with rfl | hx
      · exact Nat.le_trans hm.2 h1
      · exact h2 x hx
    · rcases h3 with h3 | ⟨x, hx, h3⟩
      · rw [h3]
        split
        · exact .inr ⟨r, by simp, rfl⟩
        · exact .inl rfl
      · exact .inr ⟨x, by simp [hx], h3⟩

theorem tableFrom_get (fmt : α → List Nat) (w : Nat) (rs : List (Nat × List Nat × α)) (j : Nat)
    (hw : ∀ r ∈ rs, r.2.1.length ≤ w) :
    (tableFrom fmt w j rs).length = rs.length ∧
    ∀ i id name p, rs[i]? = some (id, name, p) → (tableFrom fmt w j rs)[i]? = some (decimal (j + i) ++ ascii ": " ++
      (name ++ List.replicate (w - name.length) 32) ++ ascii " (" ++ decimal id ++ ascii "); p = " ++ fmt p ++ [10]) := by
  induction rs generalizing j with
  | nil => simp [tableFrom]
  | cons r rs ih =>
    obtain ⟨id, name, p⟩ := r
    obtain ⟨h1, h2⟩ := ih (j + 1) (fun r hr => hw r (by simp [hr]))
    refine ⟨by simp [tableFrom, h1], ?_⟩
    intro i id' name' p' hi
    cases i with
    | zero =>
      simp only [List.getElem?_cons_zero, Option.some.injEq, Prod.mk.injEq] at hi
      obtain ⟨rfl, rfl, rfl⟩ := hi
      simp [tableFrom, padLoop_eq w w _ (Nat.le_add_left w _)]
    | succ i =>
      rw [List.getElem?_cons_succ] at hi
      have := h2 i _ _ _ hi
      rw [tableFrom, List.getElem?_cons_succ, this, show j + 1 + i = j + (i + 1) by omega]

/-- C84: the table has a line for each result, in the same order, numbered from 0, with the name filled up with blanks to
a common width, the id and the score; the width is the length of the longest name. -/
theorem C84_table (fmt : α → List Nat) (rs : List (Nat × List Nat × α)) :
    ∃ w, (∀ r ∈ rs, r.2.1.length ≤ w) ∧ (rs ≠ [] → ∃ r ∈ rs, r.2.1.length = w) ∧
      (resultTable fmt rs).length = rs.length ∧
      ∀ (i : Nat) id name p, rs[i]? = some (id, name, p) → ∃ field, field.length = w ∧ name <+: field ∧
        (∀ b ∈ field.drop name.length, b = 32) ∧
        (resultTable fmt rs)[i]? = some (decimal i ++ ascii ": " ++ field ++ ascii " (" ++ decimal id ++ ascii "); p = " ++
          fmt p ++ [10]) := by
  obtain ⟨_, h1, h2⟩ := maxLen_spec rs 0
  obtain ⟨h3, h4⟩ := tableFrom_get fmt _ rs 0 h1
  refine ⟨_, h1, ?_, h3, ?_⟩
  · intro hne
    rcases h2 with h2 | h2
    · cases rs with
      | nil => exact absurd rfl hne
      | cons r rs =>
        refine ⟨r, by simp, ?_⟩
        have := h1 r (by simp)
        omega
    · exact h2
  · intro i id name p hi
    have hle := h1 _ (List.mem_of_getElem? hi)
    have h5 := h4 i id name p hi
    rw [Nat.zero_add] at h5
    refine ⟨_, ?_, List.prefix_append _ _, ?_, h5⟩
    · simp only [List.length_append, List.length_replicate]
      simp only at hle
      omega
    · simp

/-- The lines can be told apart: different numbers, or the same result. -/
example : resultTable (fun (p : Nat) => decimal p) [(7, ascii "the", 3), (1, ascii "of", 1)] =
    [ascii "0: the (7); p = 3\n", ascii "1: of  (1); p = 1\n"] := by decide +kernel

end Berts.Props
