import Verif.Spec.StoryWords
import Verif.Props.Pattern
import Verif.Props.RobertaStory

/-! # Property C116 with the model of the regular expression engine (C109) -/

namespace Berts.Props

open Berts.Unicode Berts.Vocab Berts.Spec Berts.Pattern Berts.Log
open Berts.Bpe (Str)
open Berts.Roberta (RVocab init MergeTensor Utf8Vocab EnvOK)

theorem jobs_words (ws : Nat → Bool) (cl : Classes) (hcl : ClassesOk cl) (mask : List Nat)
    (ps : List (Bool × List Nat)) : ∀ jobs, Jobs ws (gpt2Matches cl) mask ps jobs → WordJobs ws cl mask ps jobs := by
  induction ps with
  | nil =>
    intro jobs h
    cases h
    exact .nil
  | cons p ps ih =>
    intro jobs h
    obtain ⟨b, s⟩ := p
    cases b with
    | true =>
      obtain ⟨rest, rfl, h⟩ := h
      exact .special (ih _ h)
    | false =>
      obtain ⟨cs, words, rest, h1, h2, h3, h4, rfl, h⟩ := h
      exact .plain h1 h2 (cut_words cl hcl cs words h1 h3 h4) (ih _ h)

/-- C116 without an oracle for the regular expression (partial: signed `char` only with ASCII texts): every text in UTF-8
is tokenized; its ids are those of a story about its special tokens and its GPT-2 words. -/
theorem C116_words_partial (cl : Classes) (hcl : ClassesOk cl) (m : Meta) (merge : Option MergeTensor)
    (order : List (Str × Nat) → List (Str × Nat)) (hord : ∀ m, (order m).Perm m) (v : VocabT)
    (l tcs : List (List Nat)) (hv : Holds v l) (hu : Utf8Vocab l tcs) (e : Roberta.Env)
    (hre : e.matches_ = gpt2Matches cl) (r : RVocab)
    (hinit : init e.signed m merge order v = .ok (some r)) (hsp : AsciiSpecials l r.special)
    (hpick : RightPick e.bpe.pick) (hmax : ∀ t, merge = some t → t.data.length ≤ 3 * 2 ^ 32) :
    ∃ data tbl, merge = some ⟨true, 1, data⟩ ∧ IdTable l data tbl ∧
      ∀ (setOrder : List (List Nat) → List (List Nat)), SetOrder setOrder →
      ∀ cs, (∀ c ∈ cs, IsScalar c) → 9 * (utf8Encode cs).length * (utf8Encode cs).length ≤ e.bpe.fuel →
        (utf8Encode cs).length ≤ e.fuel → (e.signed = true → ∀ c ∈ cs, c < 0x80) →
      ∃ pieces jobs ls ids, Roberta.tokenize e r setOrder (utf8Encode cs) = .ok (some ids) ∧
        Cut (specialStrings l r.special) (utf8Encode cs) pieces ∧
        WordJobs e.ws cl (l[r.special.mask]?.getD []) pieces jobs ∧
        Told l tbl r.special.unk e.ws [([], [])] jobs ls ids := by
  obtain ⟨data, tbl, h1, h2, h3⟩ := C116_total_partial m merge order hord v l tcs hv hu e r hinit hsp hpick hmax
  refine ⟨data, tbl, h1, h2, fun setOrder ho cs hcs hb hf hs => ?_⟩
  obtain ⟨pieces, jobs, ls, ids, g1, g2, g3, g4⟩ := h3 setOrder ho cs hcs
    ⟨by rw [hre]; exact gpt2_contract cl, hpick.any, hb⟩ hf hs
  exact ⟨pieces, jobs, ls, ids, g1, g2, jobs_words _ cl hcl _ _ _ (hre ▸ g3), g4⟩

/-- C116 without an oracle for the regular expression (partial: no percent sign in the text, signed `char` only with
ASCII texts): the log. -/
theorem C116_words_log_partial (cl : Classes) (hcl : ClassesOk cl) (m : Meta) (merge : Option MergeTensor)
    (order : List (Str × Nat) → List (Str × Nat)) (hord : ∀ m, (order m).Perm m) (v : VocabT)
    (l tcs : List (List Nat)) (hv : Holds v l) (hu : Utf8Vocab l tcs) (e : Roberta.Env)
    (hre : e.matches_ = gpt2Matches cl) (r : RVocab)
    (hinit : init e.signed m merge order v = .ok (some r)) (hsp : AsciiSpecials l r.special)
    (hpick : RightPick e.bpe.pick) (hmax : ∀ t, merge = some t → t.data.length ≤ 3 * 2 ^ 32) :
    ∃ data tbl, merge = some ⟨true, 1, data⟩ ∧ IdTable l data tbl ∧
      ∀ (setOrder : List (List Nat) → List (List Nat)), SetOrder setOrder →
      ∀ cs, (∀ c ∈ cs, IsScalar c) → 9 * (utf8Encode cs).length * (utf8Encode cs).length ≤ e.bpe.fuel →
        (utf8Encode cs).length ≤ e.fuel → (e.signed = true → ∀ c ∈ cs, c < 0x80) →
      37 ∉ cs → ∀ s : St,
      ∃ pieces jobs ls ids s', Cut (specialStrings l r.special) (utf8Encode cs) pieces ∧
        WordJobs e.ws cl (l[r.special.mask]?.getD []) pieces jobs ∧
        Told l tbl r.special.unk e.ws [([], [])] jobs ls ids ∧
        Roberta.tokenizeL e r setOrder (utf8Encode cs) s = .ok (some ids, s') ∧
        LinesWritten s (line 1 (bytes! "tokenization start") :: pieceLines pieces ++ ls ++
          [line 0 (bytes! "finish tokenization")]) s' := by
  obtain ⟨data, tbl, h1, h2, h3⟩ := C116_log_partial m merge order hord v l tcs hv hu e r hinit hsp hpick hmax
  refine ⟨data, tbl, h1, h2, fun setOrder ho cs hcs hb hf hs hpc s => ?_⟩
  obtain ⟨pieces, jobs, ls, ids, s', g1, g2, g3, g4, g5⟩ := h3 setOrder ho cs hcs
    ⟨by rw [hre]; exact gpt2_contract cl, hpick.any, hb⟩ hf hs hpc s
  exact ⟨pieces, jobs, ls, ids, s', g1, jobs_words _ cl hcl _ _ _ (hre ▸ g2), g3, g4, g5⟩

/-- C116: special tokens and words are determined by the pieces. -/
theorem C116_words_unique (ws : Nat → Bool) (cl : Classes) (hcl : ClassesOk cl) (mask : List Nat)
    (pieces : List (Bool × List Nat)) (jobs jobs' : List Job) (h : WordJobs ws cl mask pieces jobs)
    (h' : WordJobs ws cl mask pieces jobs') : jobs = jobs' := by
  induction h generalizing jobs' with
  | nil => cases h'; rfl
  | special _ ih =>
    cases h' with
    | special h' => rw [ih _ h']
  | plain h1 h2 h3 _ ih =>
    cases h' with
    | plain g1 g2 g3 g4 =>
      have := utf8Encode_inj h1 g1 (by rw [h2, g2])
      subst this
      rw [words_unique hcl h3 g3, ih _ g4]

/-! ## Example -/

/-- The hypotheses are met by the example vocabulary and the text `ab zzab`; `z` is not in the vocabulary. -/
example (signed : Bool) : (gpt2Env signed).matches_ = gpt2Matches asciiClasses ∧ ClassesOk asciiClasses ∧
    ∃ r, init (gpt2Env signed).signed robMeta (some robMerge) id robV = .ok (some r) ∧
    AsciiSpecials robTokens r.special ∧ RightPick (gpt2Env signed).bpe.pick ∧ Holds robV robTokens ∧
    Utf8Vocab robTokens robCps ∧ SetOrder id ∧
    (∀ t, some robMerge = some t → t.data.length ≤ 3 * 2 ^ 32) ∧
    (∀ c ∈ ascii "ab zzab", IsScalar c) ∧
    9 * (utf8Encode (ascii "ab zzab")).length * (utf8Encode (ascii "ab zzab")).length ≤ (gpt2Env signed).bpe.fuel ∧
    (utf8Encode (ascii "ab zzab")).length ≤ (gpt2Env signed).fuel ∧
    (∀ c ∈ ascii "ab zzab", c < 0x80) ∧ 37 ∉ ascii "ab zzab" := by
  obtain ⟨b, hb⟩ := rob_init signed
  exact ⟨rfl, asciiClasses_ok, _, hb, rob_specials, heapPick_right, robV_holds, rob_utf8, fun _ _ => Iff.rfl,
    by rintro t ⟨⟩; decide, by decide, by simp only [gpt2Env]; decide, by simp only [gpt2Env]; decide, by decide,
    by decide⟩

end Berts.Props
