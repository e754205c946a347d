import Verif.Props.Api
import Verif.Props.Bert
import Verif.Props.Roberta

/-! # Property C72: a loaded vocabulary seen through the C interface -/

namespace Berts.Props

open Berts.Unicode Berts.Vocab Berts.Bert Berts.Spec Berts.Roberta Berts.Api

theorem holds_toTok {v : VocabT} {l : List (List Nat)} (hv : Holds v l) (i : Nat) :
    v.idToToken i = l[i]?.getD [] := by
  unfold VocabT.idToToken
  rw [hv.1]
  split
  · rename_i h
    rw [List.getElem?_eq_none (by omega)]; rfl
  · rfl

/-- C72 for BERT: the C interface shows exactly the vocabulary `l` of the model: its size, the id of
each token (the invalid id for other strings), and the token of each id (the empty string and `false`
for other ids). -/
theorem C72_bert (u : Icu) (cond : TokInfo) (v : VocabT) (sp : Special) (l : List (List Nat))
    (hv : Holds v l) :
    let ctx : Option Ctx := some ⟨.bert, some (bertModel u cond v sp)⟩
    bertsArch ctx = .bert ∧ bertsVocabSize ctx = l.length ∧
    (∀ t i, l[i]? = some t → bertsTokenToId ctx t = .ok i) ∧
    (∀ t, t ∉ l → bertsTokenToId ctx t = .ok INVALID) ∧
    (∀ t i buf, l[i]? = some t → t.length ≤ buf.length →
      bertsIdToToken ctx i (some buf) (some buf.length) =
        .ok ⟨decide (t ≠ []), some (t ++ buf.drop t.length), some t.length⟩) ∧
    (∀ i buf len, l.length ≤ i →
      bertsIdToToken ctx i buf len = .ok ⟨false, buf, len.map (fun _ => 0)⟩) := by
  refine ⟨rfl, ?_, ?_, ?_, ?_, ?_⟩
  · show v.tokenCount = _
    unfold VocabT.tokenCount
    rw [hv.1]
  · intro t i h
    show Res.ok (v.tokenToId t) = _
    rw [tokenToId_mem hv t i h]
  · intro t h
    show Res.ok (v.tokenToId t) = _
    rw [tokenToId_not_mem hv t h]
  · intro t i buf h hb
    rw [C50_id_to_token ⟨.bert, some (bertModel u cond v sp)⟩ _ rfl i t
      (by show Res.ok (v.idToToken i) = _; rw [holds_toTok hv, h]; rfl) buf buf.length (Nat.le_refl _),
      List.take_of_length_le hb, Nat.min_eq_right hb]
  · intro i buf len h
    have ht : (bertModel u cond v sp).idToToken i = .ok [] := by
      show Res.ok (v.idToToken i) = _
      rw [holds_toTok hv, List.getElem?_eq_none h]; rfl
    unfold bertsIdToToken
    simp only [getModel, ht, Res.bind_ok, emit, copyInto]
    cases len <;> cases buf <;> simp

/-- Which of two names a special id has: the first if it is a token, else the second. -/
def Named (l : List (List Nat)) (id : Nat) (a b : String) : Prop :=
  if ascii a ∈ l then l[id]? = some (ascii a) else l[id]? = some (ascii b)

theorem named_of_first {v : VocabT} {l : List (List Nat)} (hv : Holds v l) {x : Option Nat}
    (hx : x = none) {a b : String} {id : Nat}
    (h : firstValid [x, some (v.tokenToId (ascii a)), some (v.tokenToId (ascii b))] = some id) :
    Named l id a b := by
  subst hx
  have hval : ∀ t, t ∈ l → ∃ i, l[i]? = some t ∧ v.tokenToId t = i ∧ i ≠ INVALID := by
    intro t ht
    obtain ⟨i, hi⟩ := List.getElem?_of_mem ht
    have := (List.getElem?_eq_some_iff.mp hi).1
    have := hv.2.2.1
    exact ⟨i, hi, tokenToId_mem hv t i hi, by omega⟩
  unfold Named
  simp only [firstValid] at h
  split
  · rename_i ha
    obtain ⟨i, h1, h2, h3⟩ := hval _ ha
    rw [h2, if_neg h3] at h
    simp only [Option.some.injEq] at h
    rw [← h]; exact h1
  · rename_i ha
    rw [tokenToId_not_mem hv _ ha, if_pos rfl] at h
    by_cases hb : ascii b ∈ l
    · obtain ⟨i, h1, h2, h3⟩ := hval _ hb
      rw [h2, if_neg h3] at h
      simp only [Option.some.injEq] at h
      rw [← h]; exact h1
    · rw [tokenToId_not_mem hv _ hb, if_pos rfl] at h
      cases h

/-- C72 for BERT: when the file gives no ids of special tokens, the ids that the C interface
reports are those of the tokens with the conventional names; BERT has no bos and eos. -/
theorem C72_bert_specials (u : Icu) (cond : TokInfo) (v : VocabT) (sp : Special) (l : List (List Nat))
    (hv : Holds v l) (hs : bertSpecials ⟨none, none, none, none, none, none, none⟩ v = some sp) :
    let ctx : Option Ctx := some ⟨.bert, some (bertModel u cond v sp)⟩
    Named l (bertsClsId ctx) "[CLS]" "<s>" ∧ Named l (bertsMaskId ctx) "[MASK]" "<mask>" ∧
    Named l (bertsPadId ctx) "[PAD]" "<pad>" ∧ Named l (bertsSepId ctx) "[SEP]" "</s>" ∧
    Named l (bertsUnkId ctx) "[UNK]" "<unk>" ∧ bertsBosId ctx = INVALID ∧ bertsEosId ctx = INVALID := by
  obtain ⟨h1, h2, h3, h4, h5⟩ := C38_bert_values _ v sp hs
  refine ⟨named_of_first hv rfl h1, named_of_first hv rfl h2, named_of_first hv rfl h3,
    named_of_first hv rfl h4, named_of_first hv rfl h5, ?_, ?_⟩
  all_goals
    show (_ : Nat) = INVALID
    simp only [bertSpecials] at hs
    split at hs
    · cases hs
    · split at hs
      · cases hs
      · cases hs; rfl

/-- C72: an id that the metadata gives (other than the invalid id) is reported as it is. -/
theorem C72_bert_metadata (u : Icu) (cond : TokInfo) (v : VocabT) (sp : Special) (m : Meta)
    (hs : bertSpecials m v = some sp) (i : Nat) (hi : i ≠ INVALID) :
    let ctx : Option Ctx := some ⟨.bert, some (bertModel u cond v sp)⟩
    (m.cls = some i → bertsClsId ctx = i) ∧ (m.mask = some i → bertsMaskId ctx = i) ∧
    (m.pad = some i → bertsPadId ctx = i) ∧ (m.sep = some i → bertsSepId ctx = i) ∧
    (m.unk = some i → bertsUnkId ctx = i) := by
  obtain ⟨h1, h2, h3, h4, h5⟩ := C38_bert_values _ v sp hs
  have key : ∀ (x : Option Nat) (l : List (Option Nat)) (id : Nat), firstValid (x :: l) = some id →
      x = some i → id = i := by
    rintro x l id h rfl
    rw [firstValid, if_neg hi] at h
    simpa using h.symm
  exact ⟨key _ _ _ h1, key _ _ _ h2, key _ _ _ h3, key _ _ _ h4, key _ _ _ h5⟩

/-- C72 for RoBERTa (partial: `token_to_id` for signed `char` only with ASCII strings, `id_to_token`
only for tokens of safe bytes): the entries are the tokens written in the byte alphabet. -/
theorem C72_roberta_partial (e : Roberta.Env) (r : RVocab) (setOrder : List (List Nat) → List (List Nat))
    (l : List (List Nat)) (hv : Holds r.v l) :
    let ctx : Option Ctx := some ⟨.roberta, some (robertaModel e r setOrder)⟩
    bertsArch ctx = .roberta ∧ bertsVocabSize ctx = l.length ∧
    (∀ bs, Bytes bs → (e.signed = true → ∀ b ∈ bs, b < 0x80) →
      (∀ i, l[i]? = some (utf8Encode (byteChars bs)) → bertsTokenToId ctx bs = .ok i) ∧
      (utf8Encode (byteChars bs) ∉ l → bertsTokenToId ctx bs = .ok INVALID)) ∧
    (∀ bs i buf, Bytes bs → (∀ b ∈ bs, SafeByte b) → l[i]? = some (utf8Encode (byteChars bs)) →
      bs.length ≤ buf.length → bertsIdToToken ctx i (some buf) (some buf.length) =
        .ok ⟨decide (bs ≠ []), some (bs ++ buf.drop bs.length), some bs.length⟩) ∧
    (∀ i buf len, l.length ≤ i →
      bertsIdToToken ctx i buf len = .ok ⟨false, buf, len.map (fun _ => 0)⟩) := by
  refine ⟨rfl, ?_, ?_, ?_, ?_⟩
  · show r.v.tokenCount = _
    unfold VocabT.tokenCount
    rw [hv.1]
  · intro bs hb hs
    exact C29_token_to_id_partial e.signed r.v l hv bs hb hs
  · intro bs i buf hb hs h hl
    rw [C50_id_to_token ⟨.roberta, some (robertaModel e r setOrder)⟩ _ rfl i bs
      (C29_id_to_token_partial r.v i bs hb hs (by rw [holds_toTok hv, h]; rfl)) buf buf.length (Nat.le_refl _),
      List.take_of_length_le hl, Nat.min_eq_right hl]
  · intro i buf len h
    have ht : (robertaModel e r setOrder).idToToken i = .ok [] := by
      show Roberta.idToToken r.v i = _
      apply C29_id_to_token_partial r.v i [] (by simp [Bytes]) (by simp)
      rw [holds_toTok hv, List.getElem?_eq_none h]; rfl
    unfold bertsIdToToken
    simp only [getModel, ht, Res.bind_ok, emit, copyInto]
    cases len <;> cases buf <;> simp

theorem initBpe_special {merge : Option MergeTensor} {order : List (Bpe.Str × Nat) → List (Bpe.Str × Nat)}
    {v : VocabT} {sp : Special} {r : RVocab} (h : initBpe merge order v sp = .ok (some r)) : r.special = sp := by
  simp only [initBpe] at h
  obtain ⟨u1, _, h⟩ := bind_eq_ok h
  obtain ⟨u2, _, h⟩ := bind_eq_ok h
  obtain ⟨u3, _, h⟩ := bind_eq_ok h
  cases hc : checkMerge merge with
  | none => rw [hc] at h; cases h
  | some ms =>
    rw [hc] at h
    simp only at h
    obtain ⟨u4, _, h⟩ := bind_eq_ok h
    split at h
    · simp only [Res.ok.injEq, Option.some.injEq] at h
      rw [← h]
    · cases h

/-- C72 for RoBERTa: when the file gives no ids of special tokens, the ids that the C interface
reports are those of the tokens with the conventional names. -/
theorem C72_roberta_specials (e : Roberta.Env) (merge : Option MergeTensor)
    (order : List (Bpe.Str × Nat) → List (Bpe.Str × Nat)) (v : VocabT) (r : RVocab)
    (setOrder : List (List Nat) → List (List Nat)) (l : List (List Nat)) (hv : Holds v l)
    (hinit : init e.signed ⟨none, none, none, none, none, none, none⟩ merge order v = .ok (some r)) :
    let ctx : Option Ctx := some ⟨.roberta, some (robertaModel e r setOrder)⟩
    l[bertsClsId ctx]? = some (ascii "<s>") ∧ l[bertsMaskId ctx]? = some (ascii "<mask>") ∧
    l[bertsPadId ctx]? = some (ascii "<pad>") ∧ l[bertsSepId ctx]? = some (ascii "</s>") ∧
    l[bertsUnkId ctx]? = some (ascii "<unk>") ∧ l[bertsBosId ctx]? = some (ascii "<s>") ∧
    l[bertsEosId ctx]? = some (ascii "</s>") := by
  unfold init at hinit
  cases hsp : robertaSpecials ⟨none, none, none, none, none, none, none⟩ (literalId e.signed v) with
  | none => rw [hsp] at hinit; cases hinit
  | some sp =>
  rw [hsp] at hinit
  have hr := initBpe_special hinit
  obtain ⟨h1, h2, h3, h4, h5, h6, h7⟩ := C38_roberta_values _ _ _ hsp
  have lit : ∀ (x : String), Bytes (ascii x) → (∀ b ∈ ascii x, b < 0x80) →
      utf8Encode (byteChars (ascii x)) = ascii x → ∀ id, firstValid [some (literalId e.signed v (ascii x))] = some id →
      l[id]? = some (ascii x) := by
    intro x hb ha he id h
    have hc := C29_token_to_id_partial e.signed v l hv (ascii x) hb (fun _ => ha)
    rw [he] at hc
    by_cases hm : ascii x ∈ l
    · obtain ⟨i, hi⟩ := List.getElem?_of_mem hm
      have := (List.getElem?_eq_some_iff.mp hi).1
      have := hv.2.2.1
      have hl : literalId e.signed v (ascii x) = i := by unfold literalId; rw [hc.1 i hi]
      rw [firstValid, hl, if_neg (by omega)] at h
      simp only [Option.some.injEq] at h
      rw [← h]; exact hi
    · have hl : literalId e.signed v (ascii x) = INVALID := by unfold literalId; rw [hc.2 hm]
      rw [firstValid, hl, if_pos rfl] at h
      cases h
  have drop1 : ∀ l, firstValid (none :: l) = firstValid l := fun _ => rfl
  have drop2 : ∀ a, firstValid [some a, none] = firstValid [some a] := fun _ => rfl
  simp only [drop1, drop2] at h1 h2 h3 h4 h5 h6 h7
  simp only [bertsClsId, bertsMaskId, bertsPadId, bertsSepId, bertsUnkId, bertsBosId, bertsEosId, idOr,
    getModel, robertaModel, hr]
  exact ⟨lit "<s>" (by decide) (by decide) (by decide) _ h2, lit "<mask>" (by decide) (by decide) (by decide) _ h5,
    lit "<pad>" (by decide) (by decide) (by decide) _ h6, lit "</s>" (by decide) (by decide) (by decide) _ h4,
    lit "<unk>" (by decide) (by decide) (by decide) _ h7, lit "<s>" (by decide) (by decide) (by decide) _ h1,
    lit "</s>" (by decide) (by decide) (by decide) _ h3⟩

/-- C72: what a call of the C interface gives for RoBERTa is the list of ids framed by CLS and SEP. -/
theorem C72_roberta_tokenize (e : Roberta.Env) (r : RVocab) (setOrder : List (List Nat) → List (List Nat))
    (hc : r.special.cls ≠ INVALID) (hs : r.special.sep ≠ INVALID) (text ids buf : List Nat)
    (ht : Roberta.tokenize e r setOrder text = .ok (some ids)) (hcap : ids.length + 2 ≤ buf.length) :
    bertsTokenize (some ⟨.roberta, some (robertaModel e r setOrder)⟩) text (some buf) (some buf.length) =
      .ok ⟨true, some (r.special.cls :: ids ++ [r.special.sep] ++ buf.drop (ids.length + 2)),
        some (ids.length + 2)⟩ := by
  have h := C50_tokenize ⟨.roberta, some (robertaModel e r setOrder)⟩ _ rfl text ids
    (by show (Roberta.tokenize e r setOrder text).bind _ = _; rw [ht]; rfl) hc hs buf buf.length
    (Nat.le_refl _)
  simp only [robertaModel] at h ⊢
  rw [h]
  have hl : (r.special.cls :: ids ++ [r.special.sep]).length = ids.length + 2 := by simp
  rw [List.take_of_length_le (by omega), hl, Nat.min_eq_right hcap]

-- the hypotheses are met by the example vocabularies
example : Holds exVocab (exVocab.idToTok) ∧
    bertSpecials ⟨none, none, none, none, none, none, none⟩ exVocab = some exSpecial := by
  refine ⟨?_, by decide +kernel⟩
  have h := holds_run VocabT.new [] holds_new ([ascii "[CLS]", ascii "[SEP]", ascii "[UNK]", ascii "[PAD]",
    ascii "[MASK]", ascii "##", ascii "hi", ascii "a"].map Op.add) (by decide)
  rw [h.1.symm] at h
  exact h

example (signed : Bool) : Holds robV robTokens ∧
    (∃ r, init (robEnv signed).signed robMeta (some robMerge) id robV = .ok (some r) ∧
      r.special.cls ≠ INVALID ∧ r.special.sep ≠ INVALID) ∧
    robTokens[7]? = some (utf8Encode (byteChars (ascii "ab"))) ∧ (∀ b ∈ ascii "ab", SafeByte b) := by
  obtain ⟨b, hb⟩ := rob_init signed
  exact ⟨robV_holds, ⟨_, hb, by show robSpecial.cls ≠ _; decide, by show robSpecial.sep ≠ _; decide⟩, by decide +kernel, by decide⟩

/-! ## C38, C63: ids of RoBERTa -/

theorem literalId_lt {signed : Bool} {v : VocabT} {l : List (List Nat)} (hv : Holds v l) (t : List Nat)
    (h : literalId signed v t ≠ INVALID) : literalId signed v t < l.length := by
  unfold literalId Roberta.tokenToId at h ⊢
  cases h1 : encodeBytes signed t with
  | ub => rw [h1] at h; exact absurd rfl h
  | abort => rw [h1] at h; exact absurd rfl h
  | hang => rw [h1] at h; exact absurd rfl h
  | ok us =>
  rw [h1] at h
  simp only [Res.bind] at h ⊢
  cases h2 : encodeUnits us with
  | ub => rw [h2] at h; exact absurd rfl h
  | abort => rw [h2] at h; exact absurd rfl h
  | hang => rw [h2] at h; exact absurd rfl h
  | ok bs =>
  rw [h2] at h
  simp only [Res.bind] at h ⊢
  exact (tokenToId_lt hv bs h).1

/-- C38, partial: if the metadata ids that are present are smaller than the vocabulary size, all
special ids of a RoBERTa model are valid vocabulary ids.  Missing: the loader does not check the range
of metadata ids. -/
theorem C38_roberta_ids_valid_partial (signed : Bool) (m : Meta) (v : VocabT) (l : List (List Nat)) (s : Special)
    (hv : Holds v l) (h : robertaSpecials m (literalId signed v) = some s)
    (hm : ∀ i, (m.cls = some i ∨ m.mask = some i ∨ m.pad = some i ∨ m.sep = some i ∨ m.unk = some i ∨
      m.bos = some i ∨ m.eos = some i) → i ≠ INVALID → i < l.length) :
    s.cls < l.length ∧ s.mask < l.length ∧ s.pad < l.length ∧ s.sep < l.length ∧ s.unk < l.length ∧
      s.bos < l.length ∧ s.eos < l.length := by
  have lit := fun t => literalId_lt (signed := signed) hv t
  have key : ∀ (xs : List (Option Nat)) (i : Nat), (∀ j, some j ∈ xs → j ≠ INVALID → j < l.length) →
      firstValid xs = some i → i < l.length := by
    intro xs
    induction xs with
    | nil => intro i _ hi; cases hi
    | cons x xs ih =>
      intro i hx hi
      have ih := ih i (fun j hj => hx j (by simp [hj]))
      cases x with
      | none => exact ih hi
      | some j =>
        rw [firstValid] at hi
        split at hi
        · exact ih hi
        · rename_i hj; cases hi; exact hx _ (by simp) hj
  obtain ⟨h1, h2, h3, h4, h5, h6, h7⟩ := C38_roberta_values m _ s h
  refine ⟨key _ _ ?_ h2, key _ _ ?_ h5, key _ _ ?_ h6, key _ _ ?_ h4, key _ _ ?_ h7, key _ _ ?_ h1, key _ _ ?_ h3⟩ <;>
  · intro j hj hne
    simp only [List.mem_cons, List.not_mem_nil, or_false, Option.some.injEq] at hj
    first
    | rcases hj with hj | rfl | hj
      · exact hm j (by simp [hj.symm]) hne
      · exact lit _ hne
      · exact hm j (by simp [hj.symm]) hne
    | rcases hj with hj | rfl
      · exact hm j (by simp [hj.symm]) hne
      · exact lit _ hne

example : ∃ s, robertaSpecials ⟨some 0, some 0, some 0, some 0, some 0, some 0, some 0⟩ (literalId true robV) = some s :=
  ⟨_, rfl⟩

/-- C72 for RoBERTa, if the ids of CLS and SEP are in range: a successful call delivers ids
that begin with CLS, end with SEP and are all ids of vocabulary entries. -/
theorem C72_roberta_framed_partial (e : Roberta.Env) (r : RVocab) (l : List (List Nat)) (hv : Holds r.v l)
    (setOrder : List (List Nat) → List (List Nat)) (hcls : r.special.cls < l.length)
    (hsep : r.special.sep < l.length) (text : List Nat) (buf : List Nat) (cap n : Nat) (out : List Nat)
    (hcap : cap ≤ buf.length)
    (h : bertsTokenize (some ⟨.roberta, some (robertaModel e r setOrder)⟩) text (some buf) (some cap) =
      .ok ⟨true, some out, some n⟩) (hn : n ≤ cap) :
    ∃ mid, out.take n = r.special.cls :: mid ++ [r.special.sep] ∧ ∀ i ∈ out.take n, i < l.length := by
  unfold bertsTokenize at h
  have hl := hv.2.2.1
  have hcls' : r.special.cls ≠ INVALID := by omega
  have hsep' : r.special.sep ≠ INVALID := by omega
  simp only [getModel, robertaModel, hcls', hsep', if_false] at h
  cases ht : Roberta.tokenize e r setOrder text with
  | ub => rw [ht] at h; cases h
  | abort => rw [ht] at h; cases h
  | hang => rw [ht] at h; cases h
  | ok o =>
    rw [ht] at h
    cases o with
    | none => rw [show ∀ f : Option (List Nat) → Res (Bool × List Nat), (Res.ok none).bind f = f none from fun _ => rfl] at h; simp [Res.bind_ok] at h
    | some ids =>
    rw [show ∀ f : Option (List Nat) → Res (Bool × List Nat), (Res.ok (some ids)).bind f = f (some ids) from fun _ => rfl] at h
    simp only [Res.bind_ok, if_true, emit, copyInto] at h
    rw [if_pos (by omega)] at h
    simp only [Res.bind_ok, Res.pure_eq, Res.ok.injEq, Out.mk.injEq, Option.some.injEq, true_and] at h
    obtain ⟨h1, h2⟩ := h
    have hout : out.take n = r.special.cls :: ids ++ [r.special.sep] := by
      rw [← h1, Nat.min_eq_right (by omega), List.take_length, ← h2,
        List.take_append_of_le_length (Nat.le_refl _), List.take_length]
      simp
    refine ⟨ids, hout, ?_⟩
    intro i hi
    rw [hout] at hi
    simp only [List.cons_append, List.mem_cons, List.mem_append, List.not_mem_nil, or_false] at hi
    rcases hi with rfl | hi | rfl
    · exact hcls
    · exact C63_ids_valid e r l hv setOrder text ids ht i hi
    · exact hsep

example : Holds robV robTokens ∧ robSpecial.cls < robTokens.length ∧ robSpecial.sep < robTokens.length :=
  ⟨robV_holds, by decide, by decide⟩

end Berts.Props
