import Verif.Proofs.Transformers
import Verif.Props.Bert
import Verif.Props.Convert

/-! # Properties C81 and C82: the BERT tokenizer against `transformers` -/

namespace Berts.Props

open Berts.Unicode Berts.Trie Berts.Vocab Berts.Bert Berts.Spec Berts.CharClass
open Berts.Spec.Py (Ucd Agree SpacesOk)

variable {ct : Nat → CharType} {nfc nfd lower : List Nat → List Nat} {d : Ucd}

/-! ## C81 -/

/-- C81, character classes: white space, control characters, punctuation and accents are those of the reference, for
every character. -/
theorem C81_classes (h : ∀ c, d.cat c = Py.letters (ct c)) (h32 : d.cat 32 = ascii "Zs") (c : Nat) :
    (isWs (icuOf ct nfc nfd lower) c = true ↔ Py.White d c) ∧
    (isCtrl (icuOf ct nfc nfd lower) c = true ↔ Py.Control d c) ∧
    (isPunct (icuOf ct nfc nfd lower).catP c = true ↔ Py.Punctuation d c) ∧
    (isCjk c = true ↔ Ideograph c) ∧
    ((icuOf ct nfc nfd lower).catMn c = true ↔ d.cat c = ascii "Mn") :=
  ⟨(isWs_iff _ c).trans (white_iff h c), (isCtrl_iff _ c).trans (control_iff h h32 c),
    (isPunct_iff _ c).trans (punctuation_iff h c), isCjk_iff c, (mn_iff h c).symm⟩

/-- C81, `category` and `is_category`: the two letters of each general category, and no two have the same. -/
theorem C81_category (t t' : CharType) : category t = Py.letters t ∧
    (isCategory t (Py.letters t') = true ↔ t = t') := by
  have h : ∀ t, category t = Py.letters t := by intro t; cases t <;> decide
  refine ⟨h t, ?_⟩
  unfold isCategory
  rw [h, beq_iff_eq]
  constructor
  · cases t <;> cases t' <;> first | (intro; rfl) | (intro e; exact absurd e (by decide))
  · rintro rfl; rfl

/-- C81 for models that keep the case (partial: lower-casing, see C17; the text has no line or paragraph separator;
normalising and cleaning can be exchanged; with accent stripping, the stripped words are composed, contain no blanks
and are not special tokens; see the counterexamples): the words are those of the reference. -/
theorem C81_words_partial (ha : Agree ct nfc nfd d) (hsp : SpacesOk d) (basic cjk strip : Option Bool)
    (hb : basic ≠ some false) (never : List (List Nat)) (hn : ∀ s ∈ never, ∀ c ∈ s, IsScalar c) (cs : List Nat)
    (hcs : ∀ c ∈ cs, IsScalar c) (hline : ∀ c ∈ d.nfc cs, c ≠ 0x2028 ∧ c ≠ 0x2029)
    (hcomm : d.nfc (Py.prep d (cjk.getD true) cs) = Py.prep d (cjk.getD true) (d.nfc cs))
    (hstrip : strip = some true → ∀ w ∈ Py.split (d.nfc (Py.prep d (cjk.getD true) cs)), w ∉ never →
      d.nfc (Py.stripAccents d w) = Py.stripAccents d w ∧ Py.stripAccents d w ∉ never ∧
      ∀ c ∈ Py.stripAccents d w, c ∉ Py.spaces) :
    basicTokenize (icuOf ct nfc nfd lower) (condOf (some false) basic cjk strip) (never.map utf16Encode)
        (utf8Encode cs) =
      .ok ((Py.basic d (cjk.getD true) (strip.getD false) never cs).map utf16Encode) := by
  have hbg : basic.getD true = true := by
    cases basic with
    | none => rfl
    | some b => cases b <;> simp_all
  have e1 : (condOf (some false) basic cjk strip).addCjk = cjk.getD true := rfl
  have e2 : (condOf (some false) basic cjk strip).stripAcc = strip.getD false := rfl
  have e3 : BasicMode (condOf (some false) basic cjk strip) ∧ (condOf (some false) basic cjk strip).splitPunc = true := by
    unfold BasicMode condOf
    simp [hbg, basicInfo]
  rw [← e1, ← e2]
  refine basic_py ha hsp e3.1 e3.2 rfl hn cs hcs hline (by rw [e1]; exact hcomm) ?_
  rw [e1, e2]
  intro h
  refine hstrip ?_
  cases strip with
  | none => cases h
  | some b => exact congrArg some h

/-! Unicode data for the examples: a few categories, `é` and one Hangul syllable. -/

/-- Types of some characters; everything else is a letter. -/
def exType (c : Nat) : CharType :=
  if c = 32 ∨ c = 0xA0 ∨ c = 0x1680 ∨ (0x2000 ≤ c ∧ c ≤ 0x200A) ∨ c = 0x202F ∨ c = 0x205F ∨ c = 0x3000 then .spaceSeparator
  else if c < 32 ∨ (127 ≤ c ∧ c < 160) then .controlChar
  else if c = 0x200B then .formatChar
  else if c = 0x2028 then .lineSeparator
  else if c = 0x2029 then .paragraphSeparator
  else if c = 0x301 then .nonSpacingMark
  else if c = 0x2014 then .dashPunctuation
  else .otherLetter

/-- Composition of two pairs. -/
def exCompose : List Nat → List Nat
  | 0x65 :: 0x301 :: cs => 0xE9 :: exCompose cs
  | 0x1100 :: 0x1161 :: cs => 0xAC00 :: exCompose cs
  | c :: cs => c :: exCompose cs
  | [] => []

/-- Decomposition. -/
def exDecompose (cs : List Nat) : List Nat :=
  cs.flatMap fun c => if c = 0xE9 then [0x65, 0x301] else if c = 0xAC00 then [0x1100, 0x1161] else [c]

/-- What Python knows in the examples. -/
def exUcd : Ucd := ⟨fun c => Py.letters (exType c), exCompose, exDecompose⟩

/-- A function on characters, for 16-bit units. -/
def onUnits (f : List Nat → List Nat) (us : List Nat) : List Nat := utf16Encode (f (toCodePoints us))

/-- The same data on 16-bit units. -/
def exIcu : Icu := icuOf exType (onUnits exCompose) (onUnits exDecompose) id

theorem exCompose_scalar : ∀ cs, (∀ c ∈ cs, IsScalar c) → ∀ c ∈ exCompose cs, IsScalar c := by
  intro cs
  fun_induction exCompose cs with
  | case1 cs ih =>
    intro h c hc
    rcases List.mem_cons.mp hc with rfl | hc
    · decide
    · exact ih (fun c hc => h c (by simp [hc])) c hc
  | case2 cs ih =>
    intro h c hc
    rcases List.mem_cons.mp hc with rfl | hc
    · decide
    · exact ih (fun c hc => h c (by simp [hc])) c hc
  | case3 a cs _ _ ih =>
    intro h c hc
    rcases List.mem_cons.mp hc with rfl | hc
    · exact h c (by simp)
    · exact ih (fun c hc => h c (by simp [hc])) c hc
  | case4 => simp

theorem exSpaces : SpacesOk exUcd := by
  have hz : ∀ t, Py.letters t = ascii "Zs" → t = .spaceSeparator := by intro t; cases t <;> decide
  refine ⟨by decide, fun c h => ?_, by decide +kernel⟩
  have h := hz _ h
  unfold exType at h
  split at h
  · rename_i hc
    rcases hc with rfl | rfl | rfl | hc | rfl | rfl | rfl
    · decide
    · decide
    · decide
    · have : c ∈ (List.range 11).map (0x2000 + ·) := List.mem_map.mpr ⟨c - 0x2000, by simp; omega, by omega⟩
      revert this
      simp [List.range_succ, Py.spaces]
      omega
    · decide
    · decide
    · decide
  all_goals (repeat' (split at h)) <;> cases h

theorem exDecompose_scalar (cs : List Nat) (h : ∀ c ∈ cs, IsScalar c) : ∀ c ∈ exDecompose cs, IsScalar c := by
  intro c hc
  obtain ⟨x, hx, hc⟩ := List.mem_flatMap.mp hc
  have := h x hx
  split at hc
  · simp at hc; rcases hc with rfl | rfl <;> decide
  · split at hc
    · simp at hc; rcases hc with rfl | rfl <;> decide
    · simp at hc; subst hc; exact this

theorem exAgree : Agree exType (onUnits exCompose) (onUnits exDecompose) exUcd := by
  refine ⟨fun c => rfl, fun cs h => ⟨?_, exCompose_scalar cs h⟩, fun cs h => ⟨?_, exDecompose_scalar cs h⟩⟩ <;>
  · unfold onUnits
    rw [show toCodePoints (utf16Encode cs) = cs from toCodePoints_encode cs h false]
    rfl

/-! `Élan— [MASK] 中é` and the hypotheses of `C81_words_partial`, with and without stripping. -/
def exText : List Nat := [0x65, 0x301, 108, 97, 110, 0x2014, 9] ++ ascii "[MASK]" ++ [0xA0, 0x4E2D, 0xE9]
def exMask : List Nat := ascii "[MASK]"

example : (∀ c ∈ exText, IsScalar c) ∧ (∀ c ∈ exUcd.nfc exText, c ≠ 0x2028 ∧ c ≠ 0x2029) ∧
    exUcd.nfc (Py.prep exUcd true exText) = Py.prep exUcd true (exUcd.nfc exText) ∧
    (∀ w ∈ Py.split (exUcd.nfc (Py.prep exUcd true exText)), w ∉ [exMask] →
      exUcd.nfc (Py.stripAccents exUcd w) = Py.stripAccents exUcd w ∧ Py.stripAccents exUcd w ∉ [exMask] ∧
      ∀ c ∈ Py.stripAccents exUcd w, c ∉ Py.spaces) ∧
    Py.basic exUcd true false [exMask] exText = [[0xE9, 108, 97, 110], [0x2014], exMask, [0x4E2D], [0xE9]] ∧
    Py.basic exUcd true true [exMask] exText = [ascii "elan", [0x2014], exMask, [0x4E2D], ascii "e"] := by
  decide +kernel

/-- C81 refuted: the line separator separates words for Python; the code keeps it inside a word. -/
theorem C81_separator_counterexample :
    basicTokenize exIcu casedInfo [] (utf8Encode [97, 0x2028, 98]) = .ok [[97, 0x2028, 98]] ∧
    Py.basic exUcd true false [] [97, 0x2028, 98] = [[97], [98]] := by decide +kernel

/-- C81 refuted: the code normalises before it removes control characters, the reference after that; an accent that
follows a zero-width space is not composed with the letter before. -/
theorem C81_order_counterexample :
    basicTokenize exIcu casedInfo [] (utf8Encode [0x65, 0x200B, 0x301]) = .ok [[0x65, 0x301]] ∧
    Py.basic exUcd true false [] [0x65, 0x200B, 0x301] = [[0xE9]] := by decide +kernel

/-- C81 refuted with accent stripping: the code composes the word again, the reference leaves it decomposed. -/
theorem C81_compose_counterexample :
    basicTokenize exIcu (condOf (some false) none none (some true)) [] (utf8Encode [0xAC00]) = .ok [[0xAC00]] ∧
    Py.basic exUcd true true [] [0xAC00] = [[0x1100, 0x1161]] := by decide +kernel

/-- C81 refuted with accent stripping: a word that becomes a special token is kept in one piece by the reference
and split by the code. -/
theorem C81_special_counterexample :
    basicTokenize exIcu (condOf (some false) none none (some true)) [ascii "[e]"] (utf8Encode [91, 0xE9, 93]) =
      .ok [[91], [0x65], [93]] ∧
    Py.basic exUcd true true [ascii "[e]"] [91, 0xE9, 93] = [ascii "[e]"] := by decide +kernel

/-! ## C82 -/

/-- The reference determines the ids. -/
theorem C82_reference_functional (V : List (List Nat)) (unk : Nat) (ws : List (List Nat)) :
    (∃ out, Py.Ids V unk ws out) ∧ ∀ out out', Py.Ids V unk ws out → Py.Ids V unk ws out' → out = out' := by
  induction ws with
  | nil => exact ⟨⟨_, .nil⟩, fun _ _ h h' => by cases h; cases h'; rfl⟩
  | cons w ws ih =>
    constructor
    · obtain ⟨o, ho⟩ := ih.1
      obtain ⟨a, ha⟩ : ∃ a, Py.Wordpiece V unk w a := by
        unfold Py.Wordpiece
        split
        · exact ⟨_, rfl⟩
        · exact refWord_exists V unk w
      exact ⟨_, .cons _ _ _ _ ha ho⟩
    · intro _ _ h h'
      cases h with
      | cons _ _ o os h1 h2 =>
        cases h' with
        | cons _ _ o' os' h1' h2' =>
          rw [ih.2 _ _ h2 h2']
          unfold Py.Wordpiece at h1 h1'
          split at h1
          · rename_i hl
            rw [if_pos hl] at h1'
            rw [h1, h1']
          · rename_i hl
            rw [if_neg hl] at h1'
            rw [refWord_unique h1 h1']

/-- Every entry has a last index. -/
theorem exists_lastIndex {V : List (List Nat)} {w : List Nat} (h : w ∈ V) : ∃ i, IsLastIndex V w i := by
  induction V with
  | nil => cases h
  | cons v V ih =>
    by_cases hm : w ∈ V
    · obtain ⟨i, h1, h2⟩ := ih hm
      refine ⟨i + 1, h1, fun j hj => ?_⟩
      cases j with
      | zero => omega
      | succ j => have := h2 j hj; omega
    · have : v = w := by
        rcases List.mem_cons.mp h with e | e
        · exact e.symm
        · exact absurd e hm
      refine ⟨0, by rw [this]; rfl, fun j hj => ?_⟩
      cases j with
      | zero => omega
      | succ j => exact absurd (List.mem_of_getElem? (l := V) hj) hm

/-- Every vocabulary entry is a word that the code treats as the reference does. -/
theorem C82_entry_simple {V : List (List Nat)} (hV : ∀ v ∈ V, ∀ c ∈ v, IsScalar c) {w : List Nat} (hne : w ≠ [])
    (hw : w ∈ V) : Py.Simple V w := by
  obtain ⟨i, hi⟩ := exists_lastIndex hw
  exact .inl ⟨[i], tight_entry (by rwa [ne_eq, utf16Encode_eq_nil])
    (lastIndex_units hV (hV w hw) hi)⟩

/-- WordPiece on a list of words (partial: each word has at most 100 characters and is `Simple`; the unknown token
is not a continuation): the ids are those of the reference. -/
theorem C82_wordpiece_partial {V : List (List Nat)} (hV : ∀ v ∈ V, ∀ c ∈ v, IsScalar c) (hlen : V.length ≤ INVALID)
    (hh : ∃ e ∈ V, marker <+: e) (unk : Nat) (hunk : ∀ s, V[unk]? = some s → ¬ marker <+: s) (ws : List (List Nat))
    (hws : ∀ w ∈ ws, w ≠ [] ∧ (∀ c ∈ w, IsScalar c) ∧ w.length ≤ 100 ∧ Py.Simple V w) :
    ∃ ids, wordpiece (buildTrie (V.map utf8Encode)) unk (ws.map utf16Encode) = some ids ∧ Py.Ids V unk ws ids := by
  have hun := units_vocab hV
  have hlen' : (V.map utf8Encode).length ≤ INVALID := by simpa using hlen
  have hh' : ∃ e ∈ (V.map utf8Encode).map unitsOfUtf8, marker <+: e := by
    rw [hun]
    obtain ⟨e, he, t, ht⟩ := hh
    refine ⟨_, List.mem_map_of_mem he, ?_⟩
    rw [← ht, utf16Encode_append]
    exact List.prefix_append _ _
  have one : ∀ w ∈ ws, ∃ out, wordpiece (buildTrie (V.map utf8Encode)) unk [utf16Encode w] = some out ∧
      Py.Wordpiece V unk w out ∧ (out.length ≤ 1 ∨ out.getLast? ≠ some unk) := by
    intro w hw
    obtain ⟨h1, h2, h3, h4⟩ := hws w hw
    have hwp : ∀ out, RefWord (V.map utf16Encode) unk (utf16Encode w) out → Py.Wordpiece V unk w out := by
      intro out ho
      unfold Py.Wordpiece
      rw [if_neg (by omega)]
      exact (refWord_iff hV h2).1 ho
    rcases h4 with ⟨ids, h4⟩ | h4
    · obtain ⟨e1, e2⟩ := C14_greedy_partial _ hlen' hh' unk (utf16Encode w) ids (by rw [hun]; exact h4)
      rw [hun] at e2
      refine ⟨ids, e1, hwp _ e2, tight_last (V := V.map utf16Encode) ?_ h4⟩
      intro s hs hm
      rw [List.getElem?_map] at hs
      cases hv : V[unk]? with
      | none => rw [hv] at hs; cases hs
      | some v =>
        rw [hv] at hs
        cases hs
        refine hunk v hv ?_
        obtain ⟨t, ht⟩ := hm
        obtain ⟨r, hr, _⟩ := utf16_prefix (a := marker) (b := v) (by decide) (hV v (List.mem_of_getElem? hv)) (s := t)
          ht.symm
        exact ⟨r, hr.symm⟩
    · obtain ⟨e1, e2⟩ := C14_unknown_partial _ hlen' hh' unk (utf16Encode w)
        (by rwa [ne_eq, utf16Encode_eq_nil]) (by
          rw [hun]
          intro q hq hq0 hm
          obtain ⟨v, hv, rfl⟩ := List.mem_map.mp hm
          obtain ⟨t, ht⟩ := hq
          obtain ⟨r, hr, _⟩ := utf16_prefix (hV v hv) h2 ht.symm
          exact h4 v ⟨r, hr.symm⟩ (by rintro rfl; exact hq0 rfl) hv)
      rw [hun] at e2
      exact ⟨[unk], e1, hwp _ e2, .inl (by simp)⟩
  obtain ⟨cont, hc⟩ := hashes_some _ hh'
  obtain ⟨ids, hids⟩ : ∃ ids, wordpiece (buildTrie (V.map utf8Encode)) unk (ws.map utf16Encode) = some ids := by
    unfold wordpiece buildTrie
    rw [findNode_hashes, hc]
    exact ⟨_, rfl⟩
  refine ⟨ids, hids, ?_⟩
  rw [C15_independent_partial _ unk _ ids hids (by
    intro w hw out ho
    obtain ⟨w, hw', rfl⟩ := List.mem_map.mp hw
    obtain ⟨out', e1, _, e3⟩ := one w hw'
    rw [e1] at ho
    cases ho
    exact e3), List.flatMap_map]
  clear hids ids hws
  induction ws with
  | nil => exact .nil
  | cons w ws ih =>
    obtain ⟨out, e1, e2, _⟩ := one w (by simp)
    rw [List.flatMap_cons]
    refine .cons _ _ _ _ ?_ (ih fun w hw => one w (by simp [hw]))
    rw [e1]
    exact e2

/-- C82 for models that keep the case (partial: the texts of C81; each word of the reference has at most 100 characters
and is `Simple`; some entry starts with `##`, and the unknown token does not): the ids are those of the reference. -/
theorem C82_ids_partial (ha : Agree ct nfc nfd d) (hsp : SpacesOk d) {cond : TokInfo} (hb : BasicMode cond)
    (hs : cond.splitPunc = true) (hl : cond.lowerCase = false) {V : List (List Nat)}
    (hV : ∀ v ∈ V, ∀ c ∈ v, IsScalar c) {v : VocabT} (hv : Holds v (V.map utf8Encode)) (hh : ∃ e ∈ V, marker <+: e)
    (sp : Special) (never : List (List Nat)) (hnever : [sp.cls, sp.mask, sp.pad, sp.sep, sp.unk].map (V[·]?) = never.map some)
    (hunk : ∀ s, V[sp.unk]? = some s → ¬ marker <+: s) (cs : List Nat)
    (hcs : ∀ c ∈ cs, IsScalar c) (hline : ∀ c ∈ d.nfc cs, c ≠ 0x2028 ∧ c ≠ 0x2029)
    (hcomm : d.nfc (Py.prep d cond.addCjk cs) = Py.prep d cond.addCjk (d.nfc cs))
    (hstrip : cond.stripAcc = true → ∀ w ∈ Py.split (d.nfc (Py.prep d cond.addCjk cs)), w ∉ never →
      d.nfc (Py.stripAccents d w) = Py.stripAccents d w ∧ Py.stripAccents d w ∉ never ∧
      ∀ c ∈ Py.stripAccents d w, c ∉ Py.spaces)
    (hws : ∀ w ∈ Py.basic d cond.addCjk cond.stripAcc never cs, w.length ≤ 100 ∧ Py.Simple V w) :
    ∃ ids, tokenize (icuOf ct nfc nfd lower) cond v sp (utf8Encode cs) = .ok ids ∧
      Py.Ids V sp.unk (Py.basic d cond.addCjk cond.stripAcc never cs) ids := by
  have hnm : ∀ s ∈ never, s ∈ V := by
    intro s hs
    have : some s ∈ never.map some := List.mem_map_of_mem hs
    rw [← hnever] at this
    obtain ⟨i, _, hi⟩ := List.mem_map.mp this
    exact List.mem_of_getElem? hi
  have hsc : ∀ s ∈ never, ∀ c ∈ s, IsScalar c := fun s hs => hV s (hnm s hs)
  have hkeep : [sp.cls, sp.mask, sp.pad, sp.sep, sp.unk].map (fun i => unitsOfUtf8 (v.idToToken i)) =
      never.map utf16Encode := by
    have e : ∀ i s, V[i]? = some s → unitsOfUtf8 (v.idToToken i) = utf16Encode s := by
      intro i s hi
      have hlt := (List.getElem?_eq_some_iff.mp hi).1
      unfold VocabT.idToToken
      rw [hv.1, if_neg (by rw [List.length_map]; omega), List.getElem?_map, hi]
      exact unitsOfUtf8_encode (hV s (List.mem_of_getElem? hi))
    generalize [sp.cls, sp.mask, sp.pad, sp.sep, sp.unk] = l at hnever
    clear hstrip hws hnm hsc
    induction l generalizing never with
    | nil =>
      cases never with
      | nil => rfl
      | cons a n => cases hnever
    | cons i l ih =>
      cases never with
      | nil => cases hnever
      | cons a n =>
        simp only [List.map_cons, List.cons.injEq] at hnever
        simp only [List.map_cons, ih n hnever.2, e i a hnever.1]
  have hbt := basic_py (lower := lower) ha hsp hb hs hl hsc cs hcs hline hcomm hstrip
  obtain ⟨ids, h1, h2⟩ := C82_wordpiece_partial hV (by simpa using hv.2.2.1) hh sp.unk hunk
    (Py.basic d cond.addCjk cond.stripAcc never cs) (fun w hw =>
      ⟨basic_ne_nil hw, basic_scalar ha hsc hcs hw, hws w hw⟩)
  refine ⟨ids, ?_, h2⟩
  unfold tokenize
  simp only [hkeep, hbt, Res.bind_ok, Res.pure_eq]
  rw [hv.1, h1]
  rfl

/-! The hypotheses of `C82_ids_partial` for `exText`. -/
def exWords : List (List Nat) := [ascii "[CLS]", ascii "[SEP]", ascii "[UNK]", ascii "[PAD]", ascii "[MASK]",
  ascii "##lan", [0xE9], [0x4E2D]]
def exWordVocab : VocabT := VocabT.new.run ((exWords.map utf8Encode).map Op.add)
def exNever : List (List Nat) := [ascii "[CLS]", ascii "[MASK]", ascii "[PAD]", ascii "[SEP]", ascii "[UNK]"]

theorem exSimple : ∀ w ∈ [[0xE9, 108, 97, 110], [0x2014], exMask, [0x4E2D], [0xE9]], Py.Simple exWords w := by
  have hV : ∀ v ∈ exWords, ∀ c ∈ v, IsScalar c := by decide
  intro w hw
  simp only [List.mem_cons, List.not_mem_nil, or_false] at hw
  rcases hw with rfl | rfl | rfl | rfl | rfl
  · exact .inl ⟨[6, 5], tight_step [] [0xE9] [108, 97, 110] 6 (by decide) (by decide) (by decide) (by decide)
      (tight_step marker [108, 97, 110] [] 5 (by decide) (by decide) (by decide) (by decide) (.done _))⟩
  · refine .inr fun q hq h0 hm => ?_
    have : ∀ v ∈ exWords, v <+: [0x2014] → v = [] := by decide
    exact h0 (this q hm hq)
  · exact C82_entry_simple hV (by decide) (by decide)
  · exact C82_entry_simple hV (by decide) (by decide)
  · exact C82_entry_simple hV (by decide) (by decide)

example : Holds exWordVocab (exWords.map utf8Encode) ∧ (∀ v ∈ exWords, ∀ c ∈ v, IsScalar c) ∧
    (∃ e ∈ exWords, marker <+: e) ∧
    [exSpecial.cls, exSpecial.mask, exSpecial.pad, exSpecial.sep, exSpecial.unk].map (exWords[·]?) = exNever.map some ∧
    (∀ s, exWords[exSpecial.unk]? = some s → ¬ marker <+: s) ∧
    Py.basic exUcd true false exNever exText = [[0xE9, 108, 97, 110], [0x2014], exMask, [0x4E2D], [0xE9]] ∧
    tokenize exIcu casedInfo exWordVocab exSpecial (utf8Encode exText) = .ok [6, 5, 2, 4, 7, 6] := by
  refine ⟨?_, by decide, by decide, by decide, ?_, by decide +kernel, by decide +kernel⟩
  · exact holds_run VocabT.new [] holds_new ((exWords.map utf8Encode).map Op.add) (by decide)
  · intro s hs
    cases hs
    decide

/-- C82 refuted: the reference gives up on words of more than 100 characters, the code does not. -/
theorem C82_length_counterexample :
    wordpiece (buildTrie ([ascii "[UNK]", ascii "a", ascii "##a"].map utf8Encode)) 0 [List.replicate 101 97] =
      some (1 :: List.replicate 100 2) ∧
    Py.Wordpiece [ascii "[UNK]", ascii "a", ascii "##a"] 0 (List.replicate 101 97) [0] := by
  refine ⟨by decide +kernel, ?_⟩
  unfold Py.Wordpiece
  rw [if_pos (by decide)]

/-- C82 refuted: the code looks up 16-bit units.  With the entries `a`, `##𠀀` and `a𠀁`, the word `a𠀀` should become
`a ##𠀀`; the code looks ahead to the first half of `𠀁`, takes the id of `a` and drops the first half of `𠀀`. -/
theorem C82_surrogate_counterexample :
    wordpiece (buildTrie ([ascii "[UNK]", ascii "a", 35 :: 35 :: [0x20000], [97, 0x20001]].map utf8Encode)) 0
      [utf16Encode [97, 0x20000]] = some [1, 0] ∧
    TightPieces [ascii "[UNK]", ascii "a", 35 :: 35 :: [0x20000], [97, 0x20001]] [] [97, 0x20000] [1, 2] := by
  refine ⟨by decide +kernel, tight_step [] [97] [0x20000] 1 (by decide) (by decide) (by decide) (by decide)
    (tight_step marker [0x20000] [] 2 (by decide) (by decide) (by decide) (by decide) (.done _))⟩

/-! ### Converted models -/

/-- A source tokenizer with the vocabulary `V` (the lines of `vocab.txt`); `never` are its special tokens. -/
structure VocabIs (c : Convert.Config) (t : Convert.Tokenizer) (V never : List (List Nat)) : Prop where
  length : V.length = c.vocabSize
  text : ∀ v ∈ V, ∀ x ∈ v, IsScalar x
  dict : ∀ i v, V[i]? = some v → (utf8Encode v, i) ∈ t.dict
  special : [t.cls, t.mask, t.pad, t.sep, t.unk].map (fun o => o.bind (V[·]?)) = never.map some

/-- C82 for converted models (partial: as `C82_ids_partial`; see C75 for what the converter needs): convert a BERT
model that keeps the case, load the file, tokenize a text with the C interface: the ids are those of the reference
with the vocabulary and the options of the source, between CLS and SEP. -/
theorem C82_converted_partial {α : Type} {s : Convert.Source α} (hcls : s.cls = .bert) (hc : Convert.ConfigOk s.config)
    (hst : Convert.StateOk s.config s.state) (hlm : Convert.HeadOk s.cls s.lm) (ht : Convert.BertTok s.config s.tok)
    {enc : Bool → List α → List Nat} {dec : Nat → List Nat → List α} {rnd : Bool → α → α}
    (hd : Convert.Codec enc dec rnd) (dflt : α) (f16 : Bool) (header : List Nat)
    (hlow : s.tok.lowerCase = some false) (hbas : s.tok.basic ≠ some false) {V never : List (List Nat)}
    (hV : VocabIs s.config s.tok V never) (hh : ∃ e ∈ V, marker <+: e)
    (hunk : ∀ i t, s.tok.unk = some i → V[i]? = some t → ¬ marker <+: t) :
    ∃ g bytes, Convert.convert enc f16 header s = some (g, bytes) ∧ ∀ w : Load.World α, Convert.Opens w g bytes dec dflt →
      ∃ k l, Load.load w = .ok (some k, l) ∧
      ∀ (ct : Nat → CharType) (nfc nfd lower : List Nat → List Nat) (d : Ucd), Agree ct nfc nfd d → SpacesOk d →
      ∀ cs, (∀ c ∈ cs, IsScalar c) → (∀ c ∈ d.nfc cs, c ≠ 0x2028 ∧ c ≠ 0x2029) →
        d.nfc (Py.prep d (s.tok.chinese.getD true) cs) = Py.prep d (s.tok.chinese.getD true) (d.nfc cs) →
        (s.tok.strip = some true → ∀ w ∈ Py.split (d.nfc (Py.prep d (s.tok.chinese.getD true) cs)), w ∉ never →
          d.nfc (Py.stripAccents d w) = Py.stripAccents d w ∧ Py.stripAccents d w ∉ never ∧
          ∀ c ∈ Py.stripAccents d w, c ∉ Py.spaces) →
        (∀ w ∈ Py.basic d (s.tok.chinese.getD true) (s.tok.strip.getD false) never cs,
          w.length ≤ 100 ∧ Py.Simple V w) →
      ∃ cls sep unk ids, s.tok.cls = some cls ∧ s.tok.sep = some sep ∧ s.tok.unk = some unk ∧
        Py.Ids V unk (Py.basic d (s.tok.chinese.getD true) (s.tok.strip.getD false) never cs) ids ∧
      ∀ (e : Roberta.Env) (setOrder : List (List Nat) → List (List Nat)) (buf : List Nat), ids.length + 2 ≤ buf.length →
        Api.bertsTokenize (some (Load.apiCtx (icuOf ct nfc nfd lower) e setOrder k)) (utf8Encode cs) (some buf)
          (some buf.length) =
          .ok ⟨true, some (cls :: ids ++ [sep] ++ buf.drop (ids.length + 2)), some (ids.length + 2)⟩ := by
  obtain ⟨g, bytes, h1, _, h3⟩ := Convert.bert_file hcls hc hst hlm ht hd dflt f16 header
  refine ⟨g, bytes, h1, fun w ho => ?_⟩
  obtain ⟨k, l, v, cls, mask, pad, sep, unk, cond, ts, e1, e2, e3, e4, e5, e6, e7, e8, e9⟩ := h3 w ho
  have hts : ts = V.map utf8Encode := by
    refine List.ext_getElem? fun i => ?_
    rw [List.getElem?_map]
    cases hv : V[i]? with
    | none =>
      have := List.getElem?_eq_none_iff.mp hv
      exact List.getElem?_eq_none_iff.mpr (by rw [e5.length, ← hV.length]; exact this)
    | some t => exact e5.given _ _ (hV.dict i t hv)
  subst hts
  refine ⟨k, l, e1, ?_⟩
  intro ct nfc nfd lower d ha hsp cs hcs hline hcomm hstrip hws
  have hbg : s.tok.basic.getD true = true := by
    cases hb : s.tok.basic with
    | none => rfl
    | some b => cases b <;> simp_all
  have c1 : cond.addCjk = s.tok.chinese.getD true := e7.cjk
  have c2 : cond.stripAcc = s.tok.strip.getD false := by rw [e7.strip, hlow]; rfl
  obtain ⟨b1, b2, b3, b4, b5⟩ := e7.basic
  rw [hbg] at b1 b2 b3 b4
  obtain ⟨ids, i1, i2⟩ := C82_ids_partial (lower := lower) ha hsp (cond := cond) ⟨b1, b2, b3, b5⟩ b4
    (by rw [e7.lower, hlow]; rfl) hV.text e6 hh ⟨cls, mask, pad, sep, unk, INVALID, INVALID⟩ never (by
      have := hV.special
      rw [e8.cls.1, e8.mask.1, e8.pad.1, e8.sep.1, e8.unk.1] at this
      exact this) (fun t h => hunk unk t e8.unk.1 h) cs hcs hline (by rw [c1]; exact hcomm) (by
      rw [c1, c2]
      intro h
      refine hstrip ?_
      cases hs : s.tok.strip with
      | none => rw [hs] at h; cases h
      | some b => rw [hs] at h; exact congrArg some h) (by rw [c1, c2]; exact hws)
  rw [c1, c2] at i2
  refine ⟨cls, sep, unk, ids, e8.cls.1, e8.sep.1, e8.unk.1, i2, ?_⟩
  intro e setOrder buf hbuf
  have hvo := hc.vocab
  have hm : (Load.apiCtx (icuOf ct nfc nfd lower) e setOrder k).model =
      some (bertModel (icuOf ct nfc nfd lower) cond v ⟨cls, mask, pad, sep, unk, INVALID, INVALID⟩) := by
    unfold Load.apiCtx
    rw [e4]
  have hlt : V.length ≤ INVALID := by simpa using e6.2.2.1
  have h := C50_tokenize _ _ hm (utf8Encode cs) ids (by
      show (do let ids ← tokenize _ cond v _ (utf8Encode cs); return (true, ids)) = _
      rw [i1]
      rfl) (by show cls ≠ _; have := e8.cls.2; have := hV.length; omega)
    (by show sep ≠ _; have := e8.sep.2; have := hV.length; omega) buf buf.length (Nat.le_refl _)
  simp only at h
  rw [h]
  have hlen : (cls :: ids ++ [sep]).length = ids.length + 2 := by simp
  show Res.ok (Api.Out.mk true (some ((cls :: ids ++ [sep]).take buf.length ++
    buf.drop (min buf.length (cls :: ids ++ [sep]).length))) (some (cls :: ids ++ [sep]).length)) = _
  rw [hlen, List.take_of_length_le (by omega), Nat.min_eq_right (by omega)]

/-- A source with the vocabulary `exWords`. -/
def exWordTok : Convert.Tokenizer :=
  { exBertTok with dict := (exWords.map utf8Encode).zip (List.range 8) }

example : Convert.BertTok (exConfig 8) exWordTok ∧ VocabIs (exConfig 8) exWordTok exWords exNever ∧
    exWordTok.lowerCase = some false ∧ exWordTok.basic ≠ some false ∧ (∃ e ∈ exWords, marker <+: e) ∧
    (∀ i t, exWordTok.unk = some i → exWords[i]? = some t → ¬ marker <+: t) := by
  refine ⟨⟨⟨by decide, by decide, by decide, by decide⟩, exBertTok_ok.ids, exBertTok_ok.never, exBertTok_ok.ranks⟩,
    ⟨by decide, by decide, ?_, by decide⟩, rfl, by decide, by decide, ?_⟩
  · intro i v hv
    have hi : i < 8 := (List.getElem?_eq_some_iff.mp hv).1
    have : ∀ i < 8, ∀ v ∈ exWords, exWords[i]? = some v → (utf8Encode v, i) ∈ exWordTok.dict := by decide
    exact this i hi v (List.mem_of_getElem? hv) hv
  · rintro i t hi ht
    cases hi
    cases ht
    decide

end Berts.Props
