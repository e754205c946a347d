import Verif.Spec.Pattern
import Verif.Proofs.Pattern
import Verif.Props.Roberta

/-! # Property C109: the words of the RoBERTa tokenizer -/

namespace Berts.Props

open Berts.Unicode Berts.Vocab Berts.Bpe Berts.Spec Berts.Pattern
open Berts.Roberta (RVocab init MergeTensor Utf8Vocab ByteComplete)

/-- C109: the pattern in the source is a regular expression. -/
theorem C109_opens : ∃ r, parse (gpt2Text.toList.map Char.toNat) = some r := ⟨_, parse_gpt2⟩

/-- C109: what was assumed of the engine (see C30, C71) holds: the matches of the pattern are in order, inside the
text, and consist of whole characters.  Nothing is assumed of the classes, nor of the text. -/
theorem C109_contract (cl : Classes) : RegexContract (gpt2Matches cl) := gpt2_contract cl

theorem split_words {cl : Classes} (hcl : ClassesOk cl) {cs : List Nat} (hcs : ∀ c ∈ cs, IsScalar c)
    {ms : List (Nat × Nat)} {ws : List (List Nat)} (h : Words cl cs ws)
    (hord : Matches (utf16Encode cs).length 0 ms) (hcut : cutAt (utf16Encode cs) 0 ms = ws.map utf16Encode) :
    regexSplit (utf16Encode cs) ms [] = (ws.map utf16Encode, ws.length) := by
  by_cases h0 : utf16Encode cs = []
  · have hc : cs = [] := utf16Encode_inj hcs (by simp) h0
    have hw : ws = [] := words_unique hcl h (hc ▸ .nil)
    rw [h0, hw]
    rfl
  · obtain ⟨pieces, h1, _, h3⟩ := C08_split_partition (utf16Encode cs) ms [] hord
    have h2 := C08_split_exact (utf16Encode cs) ms [] h0
    rw [hcut, List.nil_append] at h2
    refine Prod.ext h2 ?_
    rw [h3]
    have : ws.map utf16Encode = pieces := by rw [← h2, h1, List.nil_append]
    rw [← this, List.length_map]

/-- C109: `split` cuts every text into its GPT-2 words, and returns their number. -/
theorem C109_words (cl : Classes) (hcl : ClassesOk cl) (cs : List Nat) (hcs : ∀ c ∈ cs, IsScalar c) :
    ∃ ws, Words cl cs ws ∧
      regexSplit (utf16Encode cs) (gpt2Matches cl (utf16Encode cs)) [] = (ws.map utf16Encode, ws.length) := by
  obtain ⟨ws, h⟩ := words_total cl _ cs (Nat.le_refl _)
  exact ⟨ws, h, split_words hcl hcs h ((gpt2_contract cl).ordered (utf16Encode cs)) (cutAt_gpt2 hcl hcs h)⟩

/-- C109: the description by `Words` is exact: every text has exactly one list of words.  Together they are the text,
and none is empty. -/
theorem C109_unique (cl : Classes) (hcl : ClassesOk cl) (cs : List Nat) :
    ∃ ws, Words cl cs ws ∧ ws.flatten = cs ∧ (∀ w ∈ ws, w ≠ []) ∧ ∀ ws', Words cl cs ws' → ws' = ws := by
  obtain ⟨ws, h⟩ := words_total cl _ cs (Nat.le_refl _)
  exact ⟨ws, h, (words_flatten h).1, (words_flatten h).2, fun ws' h' => words_unique hcl h' h⟩

/-- C109: a word is blank, or its only blank is a space in front. -/
theorem C109_blanks (cl : Classes) (hcl : ClassesOk cl) (cs : List Nat) (ws : List (List Nat))
    (h : Words cl cs ws) : ∀ w ∈ ws, (∀ c ∈ w, cl.space c = true) ∨
      ∃ lead body, w = lead ++ body ∧ (lead = [] ∨ lead = [32]) ∧ ∀ c ∈ body, cl.space c = false := by
  have one : ∀ text w rest, Word cl text w rest → (∀ c ∈ w, cl.space c = true) ∨
      ∃ lead body, w = lead ++ body ∧ (lead = [] ∨ lead = [32]) ∧ ∀ c ∈ body, cl.space c = false := by
    intro text w rest hw
    cases hw with
    | contraction w rest hw =>
      refine .inr ⟨[], w, rfl, .inl rfl, fun c hc => ?_⟩
      have hc' : ∀ w ∈ contractions, ∀ c ∈ w, c = 39 ∨ (97 ≤ c ∧ c ≤ 122) := by decide
      rcases hc' w hw c hc with rfl | ⟨h1, h2⟩
      · exact hcl.apostrophe.2.2
      · exact hcl.letter_space c (hcl.az c h1 h2)
    | run p lead body rest hp hl hb hbody hr hno =>
      refine .inr ⟨lead, body, rfl, hl, fun c hc => ?_⟩
      have := hbody c hc
      rcases hp with rfl | rfl | rfl
      · exact hcl.letter_space c this
      · exact hcl.number_space c this
      · simp [other] at this; exact this.2
    | last w hne hs => exact .inl hs
    | blanks w c rest hne hs hc hr hn => exact .inl hs
    | blank c rest hc h32 hr hn => exact .inl (by simpa using hc)
  induction h with
  | nil => intro w hw; cases hw
  | cons text w rest ws hw _ ih =>
    intro v hv
    rcases List.mem_cons.mp hv with rfl | hv
    · exact one _ _ _ hw
    · exact ih v hv

/-- The pieces between the matches are the words. -/
theorem cut_words (cl : Classes) (hcl : ClassesOk cl) (cs : List Nat) (words : List (List Nat))
    (hcs : ∀ c ∈ cs, IsScalar c) (h1 : words.flatten = cs)
    (h2 : words.map utf16Encode = if cs = [] then [] else cutAt (utf16Encode cs) 0 (gpt2Matches cl (utf16Encode cs))) :
    Words cl cs words := by
  obtain ⟨ws, h⟩ := words_total cl _ cs (Nat.le_refl _)
  have hw : words.map utf16Encode = ws.map utf16Encode := by
    rw [h2]
    split
    · rename_i h0
      have hw : ws = [] := words_unique hcl h (h0 ▸ .nil)
      rw [hw]
      rfl
    · exact cutAt_gpt2 hcl hcs h
  have inj : ∀ a b : List (List Nat), (∀ w ∈ a, ∀ c ∈ w, IsScalar c) → (∀ w ∈ b, ∀ c ∈ w, IsScalar c) →
      a.map utf16Encode = b.map utf16Encode → a = b := by
    intro a
    induction a with
    | nil => intro b _ _ e; cases b with
      | nil => rfl
      | cons _ _ => cases e
    | cons x a ih =>
      intro b ha hb e
      cases b with
      | nil => cases e
      | cons y b =>
        simp only [List.map_cons, List.cons.injEq] at e
        rw [utf16Encode_inj (ha x (by simp)) (hb y (by simp)) e.1,
          ih b (fun w hw => ha w (by simp [hw])) (fun w hw => hb w (by simp [hw])) e.2]
  have hmem : ∀ ws : List (List Nat), ws.flatten = cs → ∀ w ∈ ws, ∀ c ∈ w, IsScalar c := by
    intro ws e w hw c hc
    exact hcs c (by rw [← e]; exact List.mem_flatten.mpr ⟨w, hw, hc⟩)
  have := inj words ws (hmem words h1) (hmem ws (words_flatten h).1) hw
  subst this
  exact h

/-- The reference ids of a piece, in terms of its words. -/
theorem refPlain_words (l : List (List Nat)) (tbl : MergeTable Str) (cl : Classes) (hcl : ClassesOk cl)
    (cs ids : List Nat) (hcs : ∀ c ∈ cs, IsScalar c) (h : RefPlain l tbl (gpt2Matches cl) cs ids) :
    RefWords l tbl cl cs ids := by
  obtain ⟨words, tokss, h1, h2, h3, h4⟩ := h
  exact ⟨words, tokss, cut_words cl hcl cs words hcs h1 h2, h3, h4⟩

/-- C109 (partial: as C71, signed `char` only with ASCII texts, the alphabet of the text is in the vocabulary): C71
without an oracle for the regular expression.  The ids of a text are those of the reference tokenizer: the text is
cut at the special tokens, each plain piece into its GPT-2 words, each word is tokenized by textbook BPE on bytes. -/
theorem C109_reference_partial (cl : Classes) (hcl : ClassesOk cl) (m : Meta) (merge : Option MergeTensor)
    (order : List (Str × Nat) → List (Str × Nat)) (hord : ∀ m, (order m).Perm m) (v : VocabT)
    (l tcs : List (List Nat)) (hv : Holds v l) (hu : Utf8Vocab l tcs) (e : Roberta.Env)
    (hre : e.matches_ = gpt2Matches cl) (r : RVocab)
    (hinit : init e.signed m merge order v = .ok (some r)) (hsp : AsciiSpecials l r.special)
    (hpick : RightPick e.bpe.pick) (hmax : ∀ t, merge = some t → t.data.length ≤ 3 * 2 ^ 32) :
    ∃ data pairs, merge = some ⟨true, 1, data⟩ ∧ MergeFile tcs data pairs ∧
      ∀ (tbl : MergeTable Str), IsTableOf pairs tbl →
      ∀ (setOrder : List (List Nat) → List (List Nat)), SetOrder setOrder →
      ∀ cs, (∀ c ∈ cs, IsScalar c) → 9 * (utf8Encode cs).length * (utf8Encode cs).length ≤ e.bpe.fuel →
        (utf8Encode cs).length ≤ e.fuel →
        (e.signed = true → ∀ c ∈ cs, c < 0x80) → ByteComplete l (utf8Encode cs) →
      ∃ pieces idss, Roberta.tokenize e r setOrder (utf8Encode cs) = .ok (some idss.flatten) ∧
        Cut (specialStrings l r.special) (utf8Encode cs) pieces ∧
        RefWordPieces l tbl cl (keptPieces e.ws (l[r.special.mask]?.getD []) pieces) idss := by
  obtain ⟨data, pairs, h1, h2, h3⟩ := C71_reference_partial m merge order hord v l tcs hv hu e r hinit hsp hpick hmax
  refine ⟨data, pairs, h1, h2, fun tbl ht setOrder hso cs hcs hf1 hf2 hsig hbc => ?_⟩
  obtain ⟨pieces, idss, g1, g2, g3⟩ := h3 tbl ht setOrder hso cs hcs
    ⟨by rw [hre]; exact gpt2_contract cl, hpick.any, hf1⟩ hf2 hsig hbc
  refine ⟨pieces, idss, g1, g2, ?_⟩
  rw [hre] at g3
  have gen : ∀ (ps : List (Bool × List Nat)) (is : List (List Nat)), RefPieces l tbl (gpt2Matches cl) ps is →
      RefWordPieces l tbl cl ps is := by
    intro ps
    induction ps with
    | nil => intro is h; cases is with
      | nil => trivial
      | cons _ _ => exact h.elim
    | cons p ps ih =>
      intro is h
      cases is with
      | nil => exact h.elim
      | cons i is =>
        obtain ⟨a, b⟩ := h
        refine ⟨?_, ih is b⟩
        by_cases hp : p.1 = true
        · simp only [hp, if_true] at a ⊢
          exact a
        · simp only [hp] at a ⊢
          obtain ⟨cs, k1, k2, k3⟩ := a
          exact ⟨cs, k1, k2, refPlain_words l tbl cl hcl cs i k1 k3⟩
  exact gen _ _ g3

/-! ## Examples -/

/-- Letters, digits and blanks of ASCII. -/
def asciiClasses : Classes :=
  ⟨fun c => (decide (65 ≤ c) && decide (c ≤ 90)) || (decide (97 ≤ c) && decide (c ≤ 122)),
    fun c => decide (48 ≤ c) && decide (c ≤ 57), fun c => c == 32 || (decide (9 ≤ c) && decide (c ≤ 13))⟩

theorem asciiClasses_ok : ClassesOk asciiClasses := by
  refine ⟨?_, ?_, ?_, by decide, ?_, by decide⟩ <;> intro c <;> simp [asciiClasses] <;> omega

/-- The tokenizer with this pattern. -/
def gpt2Env (signed : Bool) : Roberta.Env :=
  ⟨signed, gpt2Matches asciiClasses, fun c => c == 32, ⟨fun _ => 0, heapPick, 1000⟩, 100⟩

/-- The hypotheses of `C109_reference_partial` are met by the example vocabulary and the text `ab a`. -/
example (signed : Bool) : (gpt2Env signed).matches_ = gpt2Matches asciiClasses ∧ ClassesOk asciiClasses ∧
    ∃ r, init (gpt2Env signed).signed robMeta (some robMerge) id robV = .ok (some r) ∧
    AsciiSpecials robTokens r.special ∧ RightPick (gpt2Env signed).bpe.pick ∧
    (∀ t, some robMerge = some t → t.data.length ≤ 3 * 2 ^ 32) ∧
    (∀ c ∈ ascii "ab a", IsScalar c) ∧
    9 * (utf8Encode (ascii "ab a")).length * (utf8Encode (ascii "ab a")).length ≤ (gpt2Env signed).bpe.fuel ∧
    (utf8Encode (ascii "ab a")).length ≤ (gpt2Env signed).fuel ∧
    (∀ c ∈ ascii "ab a", c < 0x80) ∧ ByteComplete robTokens (utf8Encode (ascii "ab a")) := by
  obtain ⟨b, hb⟩ := rob_init signed
  exact ⟨rfl, asciiClasses_ok, _, hb, rob_specials, heapPick_right, by rintro t ⟨⟩; decide, by decide,
    by simp only [gpt2Env]; decide, by simp only [gpt2Env]; decide, by decide,
    by simp only [ByteComplete]; decide +kernel⟩

/-- `I'm  here, it's 2nd` has the words `I`, `'m`, a space, ` here`, `,`, ` it`, `'s`, ` 2`, `nd`. -/
example : gpt2Matches asciiClasses (ascii "I'm  here, it's 2nd") =
    [(0, 1), (1, 3), (3, 4), (4, 9), (9, 10), (10, 13), (13, 15), (15, 17), (17, 19)] := by decide +kernel

end Berts.Props
