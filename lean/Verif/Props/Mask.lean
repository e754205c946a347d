import Verif.Proofs.Mask
import Verif.Props.Examples

/-! # Special tokens inside a BERT text (C15, C79) -/

namespace Berts.Props

open Berts.Spec Berts.Unicode Berts.Bert Berts.Trie Berts.Vocab

/-- C15 for texts: two texts separated by a blank are tokenized independently, as long as the first does not
end with the unknown token.  The hypotheses on `nfc` say that the composed text consists of the two composed
texts and the blank.  (Missing: a first text that ends with a word cut up only in part, see the
counterexamples.) -/
theorem C15_texts_partial (u : Icu) (cond : TokInfo) (hb : BasicMode cond) (v : VocabT) (sp : Special)
    (cs ca cb a b : List Nat) (c : Nat) (hcs : ∀ x ∈ cs, IsScalar x) (hca : ∀ x ∈ ca, IsScalar x)
    (hcb : ∀ x ∈ cb, IsScalar x) (hds : ∀ x ∈ a ++ c :: b, IsScalar x) (hsep : Separator u c)
    (hn : u.nfc (utf16Encode cs) = utf16Encode (a ++ c :: b)) (hna : u.nfc (utf16Encode ca) = utf16Encode a)
    (hnb : u.nfc (utf16Encode cb) = utf16Encode b) (ia ib : List Nat)
    (ha : tokenize u cond v sp (utf8Encode ca) = .ok ia) (hbt : tokenize u cond v sp (utf8Encode cb) = .ok ib)
    (hl : ia.getLast? ≠ some sp.unk) : tokenize u cond v sp (utf8Encode cs) = .ok (ia ++ ib) := by
  unfold tokenize at *
  simp only [basicTokenize_text u cond _ _ hcs, basicTokenize_text u cond _ _ hca,
    basicTokenize_text u cond _ _ hcb, hn, hna, hnb] at *
  rw [C12_split_at_blank u cond hb a b c hds hsep.1 hsep.2, basicWords_append]
  obtain ⟨wa, h1, ha⟩ := res_bind_ok ha
  obtain ⟨wb, h2, hbt⟩ := res_bind_ok hbt
  rw [h1, h2]
  simp only [Res.bind_ok, Res.pure_eq, Res.ok.injEq] at ha hbt ⊢
  exact Mask.wordpiece_append _ _ _ _ _ _ ha hbt hl

-- the hypotheses can be met, and the texts have tokens
example : tokenize asciiIcu casedInfo exVocab exSpecial (utf8Encode (ascii "hi")) = .ok [6] ∧
    tokenize asciiIcu casedInfo exVocab exSpecial (utf8Encode (ascii "hi hi")) = .ok ([6] ++ [6]) ∧
    Separator asciiIcu 32 ∧ [6].getLast? ≠ some exSpecial.unk := by decide +kernel

/-! ## C79 -/

/-- C79 for special tokens that stand between blanks (partial: neighbours other than blanks, see
`C79_glued_counterexample`; a text before it that ends with the unknown token, see `C18_leak_counterexample`;
tokens as in `C18_own_id`): the token gets its own id, what is before and behind it is tokenized as if it were
alone. -/
theorem C79_alone_partial (u : Icu) (cond : TokInfo) (hb : BasicMode cond) (v : VocabT) (l : List (List Nat))
    (hv : Holds v l) (hh : ∃ e ∈ l.map unitsOfUtf8, marker <+: e) (sp : Special) (i : Nat)
    (hi : i ∈ [sp.cls, sp.mask, sp.pad, sp.sep]) (hunk : i ≠ sp.unk) (m : List Nat) (hne : m ≠ [])
    (htok : l[i]? = some (utf8Encode m)) (hnm : u.nfc (utf16Encode m) = utf16Encode m)
    (hplain : ∀ c ∈ m, Solid u c ∧ (cond.addCjk = true → ¬ Ideograph c))
    (huniq : ∀ t ∈ l, unitsOfUtf8 t = utf16Encode m → t = utf8Encode m)
    (cs ca cb a b : List Nat) (c d : Nat) (hcs : ∀ x ∈ cs, IsScalar x) (hca : ∀ x ∈ ca, IsScalar x)
    (hcb : ∀ x ∈ cb, IsScalar x) (hds : ∀ x ∈ a ++ c :: m ++ d :: b, IsScalar x) (hc : Separator u c) (hd : Separator u d)
    (hn : u.nfc (utf16Encode cs) = utf16Encode (a ++ c :: m ++ d :: b)) (hna : u.nfc (utf16Encode ca) = utf16Encode a)
    (hnb : u.nfc (utf16Encode cb) = utf16Encode b) (ia ib : List Nat)
    (ha : tokenize u cond v sp (utf8Encode ca) = .ok ia) (hbt : tokenize u cond v sp (utf8Encode cb) = .ok ib)
    (hl : ia.getLast? ≠ some sp.unk) : tokenize u cond v sp (utf8Encode cs) = .ok (ia ++ i :: ib) := by
  have hm : ∀ x ∈ m, IsScalar x := fun x hx => hds x (by simp [hx])
  have hown := C18_own_id u cond v l hv hh sp i (by
    simp only [List.mem_cons, List.not_mem_nil, or_false] at hi ⊢
    rcases hi with h | h | h | h <;> simp [h]) m hne htok hm hnm hplain huniq
  unfold tokenize at *
  simp only [basicTokenize_text u cond _ _ hcs, basicTokenize_text u cond _ _ hca,
    basicTokenize_text u cond _ _ hm, basicTokenize_text u cond _ _ hcb, hn, hna, hnb, hnm] at *
  have e : a ++ c :: m ++ d :: b = a ++ c :: (m ++ d :: b) := by simp
  rw [e] at hds ⊢
  rw [C12_split_at_blank u cond hb a _ c hds hc.1 hc.2,
    C12_split_at_blank u cond hb m b d (fun x hx => hds x (by
      rw [List.mem_append, List.mem_cons]; exact .inr (.inr hx))) hd.1 hd.2, basicWords_append, basicWords_append]
  obtain ⟨wa, h1, ha⟩ := res_bind_ok ha
  obtain ⟨wb, h2, hbt⟩ := res_bind_ok hbt
  obtain ⟨wm, h3, hown⟩ := res_bind_ok hown
  rw [h1, h2, h3]
  simp only [Res.bind_ok, Res.pure_eq, Res.ok.injEq] at ha hbt hown ⊢
  have h4 := Mask.wordpiece_append _ _ _ _ _ _ hown hbt (by simpa using hunk)
  exact Mask.wordpiece_append _ _ _ _ _ _ ha h4 hl

example : tokenize asciiIcu casedInfo exVocab exSpecial (utf8Encode (ascii "hi [MASK] hi")) = .ok ([6] ++ 4 :: [6]) ∧
    (∃ e ∈ exVocab.idToTok.map unitsOfUtf8, marker <+: e) ∧ (∀ t ∈ exVocab.idToTok, unitsOfUtf8 t = utf16Encode (ascii "[MASK]") →
      t = utf8Encode (ascii "[MASK]")) := by decide +kernel

/-- C79 with lower-casing (the default of BERT): the ids of a text are exactly those of the special tokens that
are words of it, in order; nothing else is left (see C17). -/
theorem C79_lower_partial (u : Icu) (hlow : ∀ w, w ≠ [] → u.lower w ≠ []) (hc : u.nfc [] = []) (hd : u.nfd [] = [])
    (cond : TokInfo) (hl : cond.lowerCase = true) (v : VocabT) (l : List (List Nat)) (hv : Holds v l)
    (hh : ∃ e ∈ l.map unitsOfUtf8, marker <+: e) (sp : Special) (cs : List Nat) (hcs : ∀ c ∈ cs, IsScalar c) :
    let special := fun w => ∃ i ∈ [sp.cls, sp.mask, sp.pad, sp.sep, sp.unk], ∃ t, l[i]? = some t ∧ unitsOfUtf8 t = w
    ∃ (ids : List Nat) (ws : List (List Nat)), tokenize u cond v sp (utf8Encode cs) = .ok ids ∧
      ids.map (fun i => (l.map unitsOfUtf8)[i]?) = ws.map some ∧
      ws.Sublist (cleanAndSplit u cond (u.nfc (utf16Encode cs))) ∧ (∀ w ∈ ws, special w) ∧
      ∀ w, special w → ws.count w = (cleanAndSplit u cond (u.nfc (utf16Encode cs))).count w := by
  intro special
  have h := C17_words_lost_counterexample u hlow hc hd cond hl v sp cs hcs
  simp only at h
  have hne : ∀ w ∈ cleanAndSplit u cond (u.nfc (utf16Encode cs)), w ≠ [] := fun w hw => (splitLoop_words [] _).1 w hw
  generalize cleanAndSplit u cond (u.nfc (utf16Encode cs)) = words at *
  obtain ⟨hv1, hv2, hv3, hv4⟩ := hv
  have hkeep : ∀ w, w ≠ [] → (w ∈ [sp.cls, sp.mask, sp.pad, sp.sep, sp.unk].map (fun i => unitsOfUtf8 (v.idToToken i)) ↔
      special w) := by
    intro w hw
    rw [List.mem_map]
    refine exists_congr fun i => and_congr_right fun _ => ?_
    unfold VocabT.idToToken
    rw [hv1]
    by_cases hi : l.length ≤ i
    · rw [if_pos hi, List.getElem?_eq_none hi]
      constructor
      · intro e
        exact absurd (e.symm.trans (by decide)) hw
      · rintro ⟨t, ht, _⟩
        cases ht
    · rw [if_neg hi, List.getElem?_eq_getElem (by omega)]
      simp
  refine ⟨_, words.filter fun w => decide (w ∈ [sp.cls, sp.mask, sp.pad, sp.sep, sp.unk].map fun i =>
    unitsOfUtf8 (v.idToToken i)), h, ?_, List.filter_sublist, ?_, ?_⟩
  · obtain ⟨cont, hc⟩ := hashes_some (l.map unitsOfUtf8) hh
    unfold wordpiece buildTrie
    rw [hv1, findNode_hashes, hc]
    simp only [Option.getD_some]
    refine Mask.wordsLoop_entries _ (by simpa using hv3) cont sp.unk _ ?_
    intro w hw
    rw [List.mem_filter] at hw
    have hw0 := hne w hw.1
    obtain ⟨i, _, t, ht, rfl⟩ := (hkeep w hw0).1 (by simpa using hw.2)
    exact ⟨hw0, List.mem_map_of_mem (List.mem_of_getElem? ht)⟩
  · intro w hw
    rw [List.mem_filter] at hw
    exact (hkeep w (hne w hw.1)).1 (by simpa using hw.2)
  · intro w hw
    by_cases hm : w ∈ words
    · exact List.count_filter (by simpa using (hkeep w (hne w hm)).2 hw)
    · rw [List.count_eq_zero_of_not_mem hm, List.count_eq_zero_of_not_mem (fun h => hm (List.mem_filter.1 h).1)]

example : tokenize asciiIcu (condOf none none none none) exVocab exSpecial
    (ascii "hi [MASK] hi [SEP] [MASK]. [MASK]") = .ok [4, 1, 4] := by decide +kernel

/-- C79, where special tokens are found: with punctuation splitting (the default), whatever the other options and
the vocabulary, a special token with a punctuation character in its name, such as `[MASK]`, is found only if it
is a word of its own. -/
theorem C79_words (u : Icu) (cond : TokInfo) (hs : cond.splitPunc = true) (v : VocabT)
    (l : List (List Nat)) (hv : Holds v l) (sp : Special) (i : Nat) (hunk : i ≠ sp.unk) (m : List Nat)
    (htok : l[i]? = some m) (hasc : ∀ c ∈ m, c < 0x80) (hm2 : 2 ≤ m.length) (hp : ∃ c ∈ m, Punct u c)
    (hmk : ¬ marker <+: m) (cs ids : List Nat) (hcs : ∀ c ∈ cs, IsScalar c)
    (hno : m ∉ cleanAndSplit u cond (u.nfc (utf16Encode cs)))
    (ht : tokenize u cond v sp (utf8Encode cs) = .ok ids) : i ∉ ids := by
  intro hi
  unfold tokenize at ht
  simp only [basicTokenize_text u cond _ _ hcs] at ht
  obtain ⟨ws, h1, ht⟩ := res_bind_ok ht
  simp only [Res.pure_eq, Res.ok.injEq] at ht
  obtain ⟨hv1, hv2, hv3, hv4⟩ := hv
  rw [hv1] at ht
  have hV : (l.map unitsOfUtf8)[i]? = some m := by
    rw [List.getElem?_map, htok, Option.map_some]
    congr 1
    have hsc : ∀ c ∈ m, IsScalar c := fun c hc => .inl (by have := hasc c hc; omega)
    have h1 : utf8Decode m = some m := by
      have := utf8Decode_encode m hsc
      rwa [Roberta.utf8_ascii m hasc] at this
    unfold unitsOfUtf8
    rw [h1]
    show utf16Encode m = m
    exact Mask.utf16_ascii m hasc
  by_cases hh : ∃ e ∈ l.map unitsOfUtf8, marker <+: e
  · cases hw : wordpiece (buildTrie l) sp.unk ws with
    | none => rw [hw] at ht; subst ht; cases hi
    | some out =>
      rw [hw, Option.getD_some] at ht
      subst ht
      obtain ⟨w, w1, w2, w3, w4⟩ := Mask.scanAll_mem hV hunk hmk (.inl rfl) ((C14_code_exact l hv3 hh sp.unk ws out).1 hw) hi
      obtain ⟨p, hpm, hpp⟩ := hp
      rcases Mask.basicWords_mem u cond _ _ _ h1 w w1 with ⟨k1, k2⟩ | ⟨word, k1, k2, r, k3, k4⟩
      · -- a protected word
        obtain ⟨j, _, k1⟩ := List.mem_map.1 k1
        have hwV : w ∈ l.map unitsOfUtf8 := by
          unfold VocabT.idToToken at k1
          rw [hv1] at k1
          by_cases hj : l.length ≤ j
          · rw [if_pos hj] at k1
            have : w = [] := k1.symm.trans (by decide)
            subst this
            exact absurd (List.prefix_nil.1 w2) w3
          · rw [if_neg hj] at k1
            rw [← k1, List.getElem?_eq_getElem (by omega), Option.getD_some]
            exact List.mem_map_of_mem (List.getElem_mem _)
        exact hno (w4 hwV ▸ k2)
      · rcases C13_punct_separate u cond hs _ word k2 r k3 w k4 with ⟨c, hc, rfl⟩ | ⟨es, _, he, rfl⟩
        · have hpc := Mask.ascii_unit (hasc p hpm) (w2.subset hpm)
          rw [List.mem_singleton] at hpc
          subst hpc
          have := hasc p hpm
          have hlen := w2.length_le
          have : utf16Encode [p] = [p] := Mask.utf16_ascii [p] (by simpa using this)
          rw [this] at hlen
          simp at hlen
          omega
        · exact he p (Mask.ascii_unit (hasc p hpm) (w2.subset hpm)) hpp
  · rw [C14_no_hashes l sp.unk ws (by simpa using hh)] at ht
    subst ht
    cases hi

/-- C79 refuted in general: as soon as anything but a blank (or an ideograph) touches the special token, it is
not found. -/
theorem C79_glued_counterexample (u : Icu) (cond : TokInfo) (hb : BasicMode cond) (hs : cond.splitPunc = true)
    (v : VocabT) (l : List (List Nat)) (hv : Holds v l) (sp : Special) (i : Nat) (hunk : i ≠ sp.unk) (m : List Nat)
    (htok : l[i]? = some m) (hasc : ∀ c ∈ m, c < 0x80) (hm2 : 2 ≤ m.length) (hp : ∃ c ∈ m, Punct u c)
    (hmk : ¬ marker <+: m) (a b : List Nat) (hne : a ++ b ≠ []) (hsc : ∀ c ∈ a ++ m ++ b, IsScalar c)
    (hsolid : ∀ c ∈ a ++ m ++ b, Solid u c ∧ (cond.addCjk = true → ¬ Ideograph c))
    (hn : u.nfc (utf16Encode (a ++ m ++ b)) = utf16Encode (a ++ m ++ b)) (ids : List Nat)
    (ht : tokenize u cond v sp (utf8Encode (a ++ m ++ b)) = .ok ids) : i ∉ ids := by
  refine C79_words u cond hs v l hv sp i hunk m htok hasc hm2 hp hmk _ ids hsc ?_ ht
  have hne' : a ++ m ++ b ≠ [] := by
    intro h
    have := congrArg List.length h
    simp only [List.length_append, List.length_nil] at this
    omega
  rw [hn, C12_one_word u cond hb _ hsc hne' hsolid, List.mem_singleton]
  intro h
  have := congrArg List.length h
  rw [utf16Encode_append, utf16Encode_append, Mask.utf16_ascii m hasc, List.length_append, List.length_append] at this
  have ha : (utf16Encode a) = [] := List.length_eq_zero_iff.1 (by omega)
  have hb' : (utf16Encode b) = [] := List.length_eq_zero_iff.1 (by omega)
  rw [utf16Encode_eq_nil] at ha hb'
  exact hne (by rw [ha, hb']; rfl)

/-- C79 refuted, concretely: a full stop behind `[MASK]` makes it four unknown tokens. -/
theorem C79_stop_counterexample :
    tokenize asciiIcu casedInfo exVocab exSpecial (ascii "hi [MASK]") = .ok [6, 4] ∧
    tokenize asciiIcu casedInfo exVocab exSpecial (ascii "hi [MASK].") = .ok [6, 2, 2, 2, 2] := by decide +kernel

-- the hypotheses of `C79_glued_counterexample` are met by this text
example : ¬ marker <+: ascii "[MASK]" ∧ (∃ c ∈ ascii "[MASK]", Punct asciiIcu c) ∧
    (∀ c ∈ ascii "[MASK].", IsScalar c ∧ Solid asciiIcu c ∧ ¬ Ideograph c) ∧ casedInfo.splitPunc = true := by
  refine ⟨?_, by decide +kernel, by decide +kernel, rfl⟩
  rw [← List.isPrefixOf_iff_prefix]
  decide

end Berts.Props
