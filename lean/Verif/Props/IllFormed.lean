import Verif.Props.Bert
import Verif.Props.Roberta

/-! # Texts that are not valid UTF-8: C88

A byte string is well formed if it is the UTF-8 encoding of Unicode scalar values.  The claim is
that tokenizing is defined for every byte string, well formed or not. -/

namespace Berts.Props

open Berts.Unicode Berts.Vocab Berts.Bpe Berts.Spec Berts.Roberta
open Berts.Bert hiding res_bind_ok

/-- A byte string that is not the UTF-8 encoding of any text. -/
def IllFormed (text : List Nat) : Prop := ∀ cs, (∀ c ∈ cs, IsScalar c) → text ≠ utf8Encode cs

theorem illFormed_decode {text : List Nat} : IllFormed text ↔ utf8Decode text = none := by
  constructor
  · intro h
    cases hd : utf8Decode text with
    | none => rfl
    | some cs =>
      have := C07_utf8_valid text cs hd
      exact absurd this.1.symm (h cs this.2)
  · intro h cs hcs ht
    rw [ht, utf8Decode_encode cs hcs] at h
    cases h

/-- C88 refuted for BERT: tokenizing a text that is not well formed is always undefined behaviour,
whatever the vocabulary, the special tokens and the options.  The size of the string object is never
written, and `normalize_nfc` reads it. -/
theorem C88_bert_counterexample (u : Icu) (cond : TokInfo) (v : VocabT) (sp : Special)
    (text : List Nat) (h : IllFormed text) : Bert.tokenize u cond v sp text = .ub := by
  rw [illFormed_decode] at h
  unfold Bert.tokenize basicTokenize safeNorm UImpl.normalize UImpl.ofUtf8
  rw [h]
  rfl

example : IllFormed [0x61, 0xff] ∧ IllFormed [0xC3] ∧ IllFormed [0xED, 0xA0, 0x80] := by
  refine ⟨illFormed_decode.mpr ?_, illFormed_decode.mpr ?_, illFormed_decode.mpr ?_⟩ <;> decide

/-- C88 for BERT, exactly: a call is undefined for the ill-formed texts and for no others. -/
theorem C88_bert_partial (u : Icu) (hc : NormOk u.nfc) (hd16 : ∀ l, (∀ x ∈ l, x < 0x10000) →
      ∀ x ∈ u.nfd l, x < 0x10000) (hc16 : ∀ l, (∀ x ∈ l, x < 0x10000) → ∀ x ∈ u.nfc l, x < 0x10000)
    (hlow : ∀ w, w ≠ [] → u.lower w ≠ []) (cond : TokInfo) (v : VocabT) (sp : Special)
    (text : List Nat) :
    (∃ ids, Bert.tokenize u cond v sp text = .ok ids) ↔ ¬ IllFormed text := by
  constructor
  · rintro ⟨ids, h⟩ hi
    rw [C88_bert_counterexample u cond v sp text hi] at h
    cases h
  · intro h
    unfold IllFormed at h
    have h : ∃ cs, (∀ c ∈ cs, IsScalar c) ∧ text = utf8Encode cs := by
      apply Classical.byContradiction
      intro hn
      exact h fun cs hcs ht => hn ⟨cs, hcs, ht⟩
    obtain ⟨cs, hcs, rfl⟩ := h
    exact C16_defined u hc hd16 hc16 hlow cond v sp cs hcs

/-- C88 refuted for BERT at the C interface: `berts_tokenize` with a loaded model is undefined for
every ill-formed text, whatever buffer the caller gives. -/
theorem C88_call_counterexample (u : Icu) (cond : TokInfo) (v : VocabT) (sp : Special)
    (hcls : sp.cls ≠ INVALID) (hsep : sp.sep ≠ INVALID) (text : List Nat) (h : IllFormed text)
    (buf : Option (List Nat)) (len : Option Nat) :
    Api.bertsTokenize (some ⟨.bert, some (bertModel u cond v sp)⟩) text buf len = .ub := by
  unfold Api.bertsTokenize
  simp only [Api.getModel, bertModel, hcls, hsep, if_false]
  rw [C88_bert_counterexample u cond v sp text h]
  rfl

example : exSpecial.cls ≠ INVALID ∧ exSpecial.sep ≠ INVALID := by decide

/-! ## RoBERTa -/

theorem subtext_valid {ws : Nat → Bool} {b : Bool} {s x : List Nat}
    (h : subtextUnits ws b s = .ok x) : utf8Decode s ≠ none := by
  intro hn
  unfold subtextUnits UImpl.ofUtf8 at h
  rw [hn] at h
  cases b <;> cases h

theorem pieceLoop_valid {e : Roberta.Env} {r : RVocab} {mask : List Nat} (pieces : List (Bool × List Nat))
    (cache : Cache) (result out : List Nat)
    (h : pieceLoop e r mask pieces cache result = .ok (some out)) :
    ∀ p ∈ pieces, p.1 = false → utf8Decode p.2 ≠ none := by
  induction pieces generalizing cache result with
  | nil => simp
  | cons q ps ih =>
    obtain ⟨sp, s⟩ := q
    cases sp with
    | true =>
      simp only [pieceLoop] at h
      obtain ⟨o, _, h⟩ := bind_eq_ok h
      cases o with
      | none => simp at h
      | some r' =>
        intro p hp hf
        rcases List.mem_cons.mp hp with rfl | hp
        · simp at hf
        · exact ih cache r' h p hp hf
    | false =>
      simp only [pieceLoop] at h
      obtain ⟨units, h1, h⟩ := bind_eq_ok h
      obtain ⟨o, _, h⟩ := bind_eq_ok h
      obtain ⟨o, c⟩ := o
      cases o with
      | none => simp at h
      | some r' =>
        intro p hp hf
        rcases List.mem_cons.mp hp with rfl | hp
        · exact subtext_valid h1
        · exact ih c r' h p hp hf

theorem pieces_wellFormed (pieces : List (Bool × List Nat))
    (h : ∀ p ∈ pieces, utf8Decode p.2 ≠ none) : ¬ IllFormed (pieces.map (·.2)).flatten := by
  intro hi
  suffices hx : ∃ cs, (∀ c ∈ cs, IsScalar c) ∧ (pieces.map (·.2)).flatten = utf8Encode cs by
    obtain ⟨cs, h1, h2⟩ := hx
    exact hi cs h1 h2
  clear hi
  induction pieces with
  | nil => exact ⟨[], by simp, rfl⟩
  | cons p ps ih =>
    obtain ⟨cs, h1, h2⟩ := ih fun q hq => h q (by simp [hq])
    cases hd : utf8Decode p.2 with
    | none => exact absurd hd (h p (by simp))
    | some ds =>
      have h3 := C07_utf8_valid p.2 ds hd
      refine ⟨ds ++ cs, ?_, ?_⟩
      · intro c hc
        rcases List.mem_append.mp hc with hc | hc
        · exact h3.2 c hc
        · exact h1 c hc
      · simp only [List.map_cons, List.flatten_cons, h2, utf8Encode_append]
        rw [h3.1]

/-- C88 refuted for RoBERTa with ASCII special tokens: tokenizing an ill-formed text never delivers
tokens (it returns failure for a piece before the ill-formed one, or its behaviour is undefined). -/
theorem C88_roberta_counterexample (r : RVocab) (l : List (List Nat)) (hv : Holds r.v l)
    (hsp : AsciiSpecials l r.special) (e : Roberta.Env) (setOrder : List (List Nat) → List (List Nat))
    (ho : SetOrder setOrder) (text : List Nat) (hf : text.length ≤ e.fuel) (h : IllFormed text)
    (ids : List Nat) : Roberta.tokenize e r setOrder text ≠ .ok (some ids) := by
  intro hok
  have hspec := specialStrings_spec hsp
  have hk : [] ∉ setOrder (specialStrings l r.special) := fun h => (hspec [] ((ho _ _).mp h)).2.1 rfl
  obtain ⟨pieces, h1, h2⟩ := splitLoop_ok _ hk e.fuel text hf
  have h2 := Cut.congr (ho _) h2
  obtain ⟨s, hm, hm2, hm3⟩ := hsp r.special.mask (by simp [specialIds])
  unfold Roberta.tokenize tokenizeWith at hok
  rw [specialTokens_ok hv hsp, res_bind_ok, h1, res_bind_ok, ascii_special hv hm hm3, res_bind_ok] at hok
  have hpl := pieceLoop_valid pieces _ _ _ hok
  refine pieces_wellFormed pieces (fun p hp => ?_) (h2.concat ▸ h)
  cases hb : p.1 with
  | false => exact hpl p hp hb
  | true =>
    have hasc := (hspec p.2 (h2.special p hp hb)).2.2
    have := utf8Decode_encode p.2 (fun c hc => by have := hasc c hc; left; omega)
    rw [utf8_ascii p.2 hasc] at this
    rw [this]; simp

/-- C88 refuted for RoBERTa: an ill-formed text in which no special token occurs is undefined
behaviour, for every vocabulary with ASCII special tokens. -/
theorem C88_roberta_ub_counterexample (r : RVocab) (l : List (List Nat)) (hv : Holds r.v l)
    (hsp : AsciiSpecials l r.special) (e : Roberta.Env) (setOrder : List (List Nat) → List (List Nat))
    (ho : SetOrder setOrder) (text : List Nat) (hf : text.length ≤ e.fuel) (h : IllFormed text)
    (hno : ∀ s ∈ specialStrings l r.special, ¬ s <:+: text) :
    Roberta.tokenize e r setOrder text = .ub := by
  have hspec := specialStrings_spec hsp
  have hk : [] ∉ setOrder (specialStrings l r.special) := fun h => (hspec [] ((ho _ _).mp h)).2.1 rfl
  obtain ⟨pieces, h1, h2⟩ := splitLoop_ok _ hk e.fuel text hf
  have h2 := Cut.congr (ho _) h2
  obtain ⟨s, hm, hm2, hm3⟩ := hsp r.special.mask (by simp [specialIds])
  unfold Roberta.tokenize tokenizeWith
  rw [specialTokens_ok hv hsp, res_bind_ok, h1, res_bind_ok, ascii_special hv hm hm3, res_bind_ok]
  have hall : ∀ p ∈ pieces, p.1 = false := by
    intro p hp
    cases hb : p.1 with
    | false => rfl
    | true =>
      refine absurd ?_ (hno p.2 (h2.special p hp hb))
      rw [← h2.concat]
      obtain ⟨a, b, rfl⟩ := List.append_of_mem hp
      exact ⟨(a.map (·.2)).flatten, (b.map (·.2)).flatten, by simp⟩
  have hd := illFormed_decode.mp h
  cases pieces with
  | nil =>
    have := h2.concat
    simp at this
    subst this
    cases hd
  | cons p ps =>
    obtain ⟨b, t⟩ := p
    have hb := hall (b, t) (by simp)
    simp only at hb
    subst hb
    cases ps with
    | nil =>
      have := h2.concat
      simp at this
      subst this
      simp only [pieceLoop, subtextUnits, nextIsMask, UImpl.ofUtf8, hd]
      rfl
    | cons q ps =>
      have := h2.maximal [] (false, t) q ps rfl
      have hq := hall q (by simp)
      simp_all

example : IllFormed [0x61, 0xff] ∧ (∀ s ∈ specialStrings robTokens robSpecial, ¬ s <:+: [0x61, 0xff]) :=
  ⟨illFormed_decode.mpr (by decide), by decide⟩

/-- C88 for RoBERTa where plain `char` is unsigned and the special tokens are ASCII: every well-formed
text is handled, and only well-formed texts are tokenized.  (Missing: ill-formed texts, see the
counterexamples; signed `char`, see C30.) -/
theorem C88_roberta_partial (r : RVocab) (l : List (List Nat)) (hv : Holds r.v l)
    (hsp : AsciiSpecials l r.special) (e : Roberta.Env) (setOrder : List (List Nat) → List (List Nat))
    (ho : SetOrder setOrder) (text : List Nat) (he : EnvOK e text.length) (hf : text.length ≤ e.fuel)
    (hs : e.signed = false) :
    (¬ IllFormed text → ∃ o, Roberta.tokenize e r setOrder text = .ok o) ∧
    ((∃ ids, Roberta.tokenize e r setOrder text = .ok (some ids)) → ¬ IllFormed text) := by
  refine ⟨fun h => ?_, fun ⟨ids, h⟩ hi => C88_roberta_counterexample r l hv hsp e setOrder ho text hf hi ids h⟩
  have h : ∃ cs, (∀ c ∈ cs, IsScalar c) ∧ text = utf8Encode cs := by
    apply Classical.byContradiction
    intro hn
    exact h fun cs hcs ht => hn ⟨cs, hcs, ht⟩
  obtain ⟨cs, hcs, rfl⟩ := h
  exact C30_tokenize_partial r l hv hsp e setOrder ho cs hcs he hf (by simp [hs])

example : (robEnv false).signed = false ∧ EnvOK (robEnv false) 10 := ⟨rfl, robEnv_ok false⟩

end Berts.Props
