import Verif.Proofs.Bert
import Verif.Props.Vocab

/-! # Properties C12-C18: the BERT tokenizer -/

namespace Berts.Props

open Berts.Unicode Berts.Trie Berts.Vocab Berts.Bert Berts.Spec

/-- A small ICU for examples: ASCII only, space and tab blank, punctuation by the ASCII rule. -/
def asciiIcu : Icu where
  nfc := fun l => l
  nfd := fun l => l
  lower := fun l => l.map (fun c => if 65 ≤ c ∧ c ≤ 90 then c + 32 else c)
  isBlank := fun c => c == 32 || c == 9
  isPrint := fun c => decide (32 ≤ c) && decide (c < 0xE0000) && decide (c ≠ 127)
  catP := fun _ => false
  catMn := fun _ => false

/-! ## C12 -/

/-- C12: in the basic mode every word is a non-empty sequence of printable, non-blank characters,
and the words joined are the text without blanks, NUL, U+FFFD and control characters. -/
theorem C12_words (u : Icu) (cond : TokInfo) (hb : BasicMode cond) (cs : List Nat)
    (h : ∀ c ∈ cs, IsScalar c) :
    (∀ w ∈ cleanAndSplit u cond (utf16Encode cs), w ≠ []) ∧
    (cleanAndSplit u cond (utf16Encode cs)).flatten =
      utf16Encode (cs.filter (fun c => decide (Solid u c))) := by
  rw [cleanAndSplit_encode u cond cs h]
  obtain ⟨h1, h2⟩ := splitLoop_words [] (cs.flatMap (fun c => cleanCp u cond (cpOf c)))
  refine ⟨h1, ?_⟩
  rw [h2, filter_clean u cond hb, List.nil_append]
  exact flatMap_pushUnits _ (fun c hc => h c (List.mem_filter.mp hc).1)

example : BasicMode basicInfo ∧ ∀ c ∈ [65, 32, 0x4E00, 0x1F600], IsScalar c := by
  unfold BasicMode; decide

/-- C12: words are separated at every blank, and only there (or around ideographs, see C13). -/
theorem C12_split_at_blank (u : Icu) (cond : TokInfo) (hb : BasicMode cond) (a b : List Nat) (c : Nat)
    (h : ∀ x ∈ a ++ c :: b, IsScalar x) (hc : Blank u c) (hk : Kept u c) :
    cleanAndSplit u cond (utf16Encode (a ++ c :: b)) =
      cleanAndSplit u cond (utf16Encode a) ++ cleanAndSplit u cond (utf16Encode b) := by
  rw [cleanAndSplit_encode u cond _ h,
    cleanAndSplit_encode u cond a (fun x hx => h x (by simp [hx])),
    cleanAndSplit_encode u cond b (fun x hx => h x (by simp [hx])),
    List.flatMap_append, List.flatMap_cons, cleanCp_blank u cond hb.2.2.2 c hk hc]
  exact splitLoop_space [] _ _ _ rfl

/-- C12: removed characters have no influence. -/
theorem C12_removed (u : Icu) (cond : TokInfo) (hb : BasicMode cond) (a b : List Nat) (c : Nat)
    (h : ∀ x ∈ a ++ c :: b, IsScalar x) (hc : ¬ Kept u c) :
    cleanAndSplit u cond (utf16Encode (a ++ c :: b)) = cleanAndSplit u cond (utf16Encode (a ++ b)) := by
  rw [cleanAndSplit_encode u cond _ h, cleanAndSplit_encode u cond (a ++ b) (fun x hx => h x (by
    rcases List.mem_append.mp hx with hx | hx <;> simp [hx])),
    List.flatMap_append, List.flatMap_cons, cleanCp_removed u cond hb c hc, List.flatMap_append]
  rfl

/-- C12: a stretch without blanks (and, with the CJK option, without ideographs) is one word. -/
theorem C12_one_word (u : Icu) (cond : TokInfo) (hb : BasicMode cond) (cs : List Nat)
    (h : ∀ c ∈ cs, IsScalar c) (hne : cs ≠ [])
    (hs : ∀ c ∈ cs, Solid u c ∧ (cond.addCjk = true → ¬ Ideograph c)) :
    cleanAndSplit u cond (utf16Encode cs) = [utf16Encode cs] := by
  rw [cleanAndSplit_encode u cond cs h, cleaned_solid u cond hb cs
    (fun c hc => Or.inr ⟨(hs c hc).1.2, (hs c hc).2⟩)]
  have hf : cs.filter (fun c => decide (Kept u c)) = cs := by
    rw [List.filter_eq_self]; exact fun c hc => by simpa using (hs c hc).1.1
  rw [hf, splitLoop_solid [] _ (by
    intro p hp
    obtain ⟨c, hc, rfl⟩ := List.mem_map.mp hp
    rw [cpOf_c]; exact solid_ne_space u c (hs c hc).1), flatMap_pushUnits cs h, List.nil_append,
    if_neg (by rw [utf16Encode_eq_nil]; exact hne)]

example : Solid asciiIcu 65 ∧ Blank asciiIcu 9 ∧ Kept asciiIcu 9 ∧ ¬ Kept asciiIcu 7 := by decide

/-- C12, any mode, any sequence of 16-bit units: no word is empty and no word contains a space. -/
theorem C12_no_space (u : Icu) (cond : TokInfo) (us : List Nat) (hu : ∀ x ∈ us, x < 0x10000) :
    ∀ w ∈ cleanAndSplit u cond us, w ≠ [] ∧ 32 ∉ w := by
  intro w hw
  refine ⟨(splitLoop_words [] _).1 w hw, ?_⟩
  refine splitLoop_no_space [] _ (by simp) ?_ w hw
  intro p hp hp32
  exact (goodCp_units p (cleaned_good u cond us hu p hp)).2 hp32

/-- C12 limit: without the basic mode an unprintable character beyond U+FFFF does not stay itself:
U+E0041 becomes `A`. -/
theorem C12_no_basic_counterexample :
    cleanAndSplit asciiIcu noBasicInfo (utf16Encode [0xE0041]) = [[65]] := by decide

/-! ## C13 -/

/-- C13: with the CJK option every ideograph is a word of its own. -/
theorem C13_ideograph (u : Icu) (cond : TokInfo) (hcjk : cond.addCjk = true) (a b : List Nat) (c : Nat)
    (h : ∀ x ∈ a ++ c :: b, IsScalar x) (hi : Ideograph c) (hs : Solid u c) :
    cleanAndSplit u cond (utf16Encode (a ++ c :: b)) =
      cleanAndSplit u cond (utf16Encode a) ++ [utf16Of c] ++
        cleanAndSplit u cond (utf16Encode b) := by
  rw [cleanAndSplit_encode u cond _ h,
    cleanAndSplit_encode u cond a (fun x hx => h x (by simp [hx])),
    cleanAndSplit_encode u cond b (fun x hx => h x (by simp [hx])),
    List.flatMap_append, List.flatMap_cons, cleanCp_solid u cond c hs, if_pos ⟨hi, hcjk⟩]
  have e1 := splitLoop_space [] (a.flatMap (fun c => cleanCp u cond (cpOf c)))
    (cpOf c :: Cp.ofUnit 32 :: b.flatMap (fun c => cleanCp u cond (cpOf c))) (Cp.ofUnit 32) rfl
  have e2 := splitLoop_space [] [cpOf c] (b.flatMap (fun c => cleanCp u cond (cpOf c))) (Cp.ofUnit 32) rfl
  simp only [List.cons_append, List.nil_append] at e1 e2 ⊢
  rw [e1, e2, splitLoop_solid [] [cpOf c] (by simpa [cpOf_c] using solid_ne_space u c hs)]
  simp [pushUnits_cpOf c (h c (by simp)), utf16Of_ne_nil]

example : Ideograph 0x4E00 ∧ Solid asciiIcu 0x4E00 ∧ ¬ Ideograph 0xA000 := by decide
example : cleanAndSplit asciiIcu basicInfo (utf16Encode [65, 0x4E00, 0x20000, 66, 32, 67]) =
    [[65], [0x4E00], [0xD840, 0xDC00], [66], [67]] := by decide

/-- C13: with punctuation splitting, whatever the other options, every string produced for an
unprotected word is one punctuation character or a non-empty run without punctuation. -/
theorem C13_punct_separate (u : Icu) (cond : TokInfo) (hs : cond.splitPunc = true)
    (keep : List (List Nat)) (word : List Nat) (hk : word ∉ keep) (ws : List (List Nat))
    (h : basicWord u cond keep word = .ok ws) :
    ∀ w ∈ ws, (∃ c, Punct u c ∧ w = utf16Encode [c]) ∨
      (∃ cs, cs ≠ [] ∧ (∀ c ∈ cs, ¬ Punct u c) ∧ w = utf16Encode cs) := by
  unfold basicWord at h
  rw [if_neg hk] at h
  obtain ⟨cs, hcs⟩ : ∃ cs, ws = (puncLoop u [] cs).map utf16Encode := by
    obtain ⟨w, _, h⟩ := res_bind_ok h
    obtain ⟨w, _, h⟩ := res_bind_ok h
    obtain ⟨l, _, h⟩ := res_bind_ok h
    rw [if_pos hs] at h
    exact ⟨_, readAll_ok _ _ h⟩
  intro w hw
  rw [hcs] at hw
  obtain ⟨p, hp, rfl⟩ := List.mem_map.mp hw
  rcases puncLoop_pieces u [] cs (by simp) p hp with ⟨c, hc, rfl⟩ | ⟨h1, h2⟩
  · exact Or.inl ⟨c, hc, rfl⟩
  · exact Or.inr ⟨p, h1, h2, rfl⟩

/-- C13: without case or accent folding, an unprotected word is cut exactly at its punctuation:
nothing is lost, reordered or merged. -/
theorem C13_punct_cut (u : Icu) (cond : TokInfo) (hs : cond.splitPunc = true)
    (hl : cond.lowerCase = false) (ha : cond.stripAcc = false) (keep : List (List Nat)) (cs : List Nat)
    (h : ∀ c ∈ cs, IsScalar c) (hk : utf16Encode cs ∉ keep) :
    ∃ ps, CutAtPunct u cs ps ∧ basicWord u cond keep (utf16Encode cs) = .ok (ps.map utf16Encode) := by
  refine ⟨puncLoop u [] cs, ⟨by simpa using puncLoop_flatten u [] cs,
    puncLoop_pieces u [] cs (by simp), puncLoop_maximal u [] cs⟩, ?_⟩
  unfold basicWord
  rw [if_neg hk]
  simp only [lowerStep, stripStep, hl, ha, hs, Bool.false_eq_true, if_false, Res.bind,
    readUnits_rep (rep_ofUnits _), if_true]
  rw [toCodePoints_encode cs h true]
  exact readAll_ofUtf32 _ (fun p hp c hc => h c (puncLoop_mem u cs p hp c hc))

/-- C13: the cut is determined by `CutAtPunct`: there is only one. -/
theorem C13_cut_unique (u : Icu) (cs : List Nat) (ps qs : List (List Nat))
    (hp : CutAtPunct u cs ps) (hq : CutAtPunct u cs qs) : ps = qs := by
  induction ps generalizing cs qs with
  | nil =>
    have h0 := hp.joined
    cases qs with
    | nil => rfl
    | cons q qs =>
      exfalso
      have hj := hq.joined
      rw [← h0] at hj
      simp at hj
      rcases hq.piece q (by simp) with ⟨c, _, hc⟩ | ⟨hc, _⟩ <;> simp_all
  | cons p ps ih =>
    cases qs with
    | nil =>
      exfalso
      have hj := hp.joined
      rw [← hq.joined] at hj
      simp at hj
      rcases hp.piece p (by simp) with ⟨c, _, hc⟩ | ⟨hc, _⟩ <;> simp_all
    | cons q qs =>
      have hj : p ++ ps.flatten = q ++ qs.flatten := by
        have := hp.joined.trans hq.joined.symm
        simpa using this
      have tailOf : ∀ (r : List Nat) (rs : List (List Nat)), CutAtPunct u cs (r :: rs) →
          CutAtPunct u rs.flatten rs := by
        intro r rs hr
        exact ⟨rfl, fun x hx => hr.piece x (by simp [hx]),
          fun a b x y hxy => hr.maximal (r :: a) b x y (by rw [hxy]; rfl)⟩
      -- the head of a cut that begins with a run stops exactly at the next punctuation
      have headNext : ∀ (r : List Nat) (rs : List (List Nat)) (x : Nat) (xs : List Nat),
          CutAtPunct u cs (r :: rs) → (∀ c ∈ r, ¬ Punct u c) → r ≠ [] → rs.flatten = x :: xs →
          Punct u x := by
        intro r rs x xs hr hrun hne hx
        cases rs with
        | nil => simp at hx
        | cons r' rs =>
          rcases hr.maximal [] rs r r' rfl with ⟨c, hc, rfl⟩ | ⟨c, hc, rfl⟩
          · exact absurd hc (hrun c (by simp))
          · simp at hx; rw [← hx.1]; exact hc
      have hpq : p = q := by
        rcases hp.piece p (by simp) with ⟨c, hc, rfl⟩ | ⟨hpn, hpr⟩
        · rcases hq.piece q (by simp) with ⟨d, hd, rfl⟩ | ⟨hqn, hqr⟩
          · simp at hj; rw [hj.1]
          · cases q with
            | nil => exact absurd rfl hqn
            | cons d q => simp at hj; exact absurd (hj.1 ▸ hc) (hqr d (by simp))
        · rcases hq.piece q (by simp) with ⟨d, hd, rfl⟩ | ⟨hqn, hqr⟩
          · cases p with
            | nil => exact absurd rfl hpn
            | cons c p => simp at hj; exact absurd (hj.1 ▸ hd) (hpr c (by simp))
          · rcases List.append_eq_append_iff.mp hj with ⟨t, ht1, ht2⟩ | ⟨t, ht1, ht2⟩
            · cases t with
              | nil => simpa using ht1.symm
              | cons x t =>
                exact absurd (headNext p ps x _ hp hpr hpn ht2) (hqr x (by rw [ht1]; simp))
            · cases t with
              | nil => simpa using ht1
              | cons x t =>
                exact absurd (headNext q qs x _ hq hqr hqn ht2) (hpr x (by rw [ht1]; simp))
      subst hpq
      have hfl : ps.flatten = qs.flatten := List.append_cancel_left hj
      rw [ih ps.flatten qs (tailOf p ps hp) (hfl ▸ tailOf p qs hq)]

example : basicWord asciiIcu { basicInfo with lowerCase := false, stripAcc := false } []
    (ascii ".ab,c!") = .ok [ascii ".", ascii "ab", ascii ",", ascii "c", ascii "!"] := by decide

/-! ## C14 -/

/-- The reference algorithm gives exactly one result for every word. -/
theorem C14_reference_functional (V : List (List Nat)) (unk : Nat) (w : List Nat) :
    (∃ out, RefWord V unk w out) ∧
    ∀ out out', RefWord V unk w out → RefWord V unk w out' → out = out' := by
  constructor
  · obtain ⟨ids, left, h⟩ := pieces_exists V [] w
    by_cases hl : left = []
    · subst hl; exact ⟨ids, Or.inl h⟩
    · exact ⟨[unk], Or.inr ⟨ids, left, h, hl, rfl⟩⟩
  · rintro out out' (h | ⟨i, l, h, hl, rfl⟩) (h' | ⟨i', l', h', hl', rfl⟩)
    · exact (pieces_unique h' _ _ h).1
    · exact absurd (pieces_unique h _ _ h').2 hl'
    · exact absurd (pieces_unique h' _ _ h).2 hl
    · rfl

/-- C14 for words whose reference segmentation never needs to look further than the match taken:
the code returns the reference result.  (Missing: words where a longer piece of the word begins a
vocabulary entry that then does not match, and words that cannot be segmented to the end; the
code is wrong there, see the counterexamples.) -/
theorem C14_greedy_partial (vocab : List (List Nat)) (hV : vocab.length ≤ INVALID)
    (hh : ∃ v ∈ vocab.map unitsOfUtf8, marker <+: v) (unk : Nat) (w ids : List Nat)
    (h : TightPieces (vocab.map unitsOfUtf8) [] w ids) :
    wordpiece (buildTrie vocab) unk [w] = some ids ∧ RefWord (vocab.map unitsOfUtf8) unk w ids := by
  have hV' : (vocab.map unitsOfUtf8).length ≤ INVALID := by simpa using hV
  obtain ⟨cont, hc⟩ := hashes_some (vocab.map unitsOfUtf8) hh
  refine ⟨?_, Or.inl (tight_pieces h)⟩
  unfold wordpiece buildTrie
  rw [findNode_hashes, hc]
  simp only [wordsLoop_single]
  rw [wordLoop_tight _ hV' cont unk hc h _ rfl _ (Nat.le_refl _)]

/-- C14 for vocabularies that contain every beginning of their entries: the pieces are those of the
reference algorithm; if the word cannot be cut up to the end, the code appends the unknown token
to the pieces found so far (the reference replaces the whole word). -/
theorem C14_prefix_closed_partial (vocab : List (List Nat)) (hV : vocab.length ≤ INVALID)
    (hh : ∃ v ∈ vocab.map unitsOfUtf8, marker <+: v) (hcl : PrefixClosed (vocab.map unitsOfUtf8)) (unk : Nat)
    (w ids left : List Nat) (h : Pieces (vocab.map unitsOfUtf8) [] w ids left) :
    wordpiece (buildTrie vocab) unk [w] = some (ids ++ if left = [] then [] else [unk]) := by
  have hV' : (vocab.map unitsOfUtf8).length ≤ INVALID := by simpa using hV
  obtain ⟨cont, hc⟩ := hashes_some (vocab.map unitsOfUtf8) hh
  unfold wordpiece buildTrie
  rw [findNode_hashes, hc]
  simp only [wordsLoop_single]
  rw [wordLoop_closed _ hV' hcl cont unk hc h (Or.inl rfl) _ rfl _ (Nat.le_refl _)]

/-- C14: a word no vocabulary entry starts yields the unknown token, for every vocabulary. -/
theorem C14_unknown_partial (vocab : List (List Nat)) (hV : vocab.length ≤ INVALID)
    (hh : ∃ v ∈ vocab.map unitsOfUtf8, marker <+: v) (unk : Nat) (w : List Nat) (hw : w ≠ [])
    (hno : ∀ q, q <+: w → q ≠ [] → q ∉ vocab.map unitsOfUtf8) :
    wordpiece (buildTrie vocab) unk [w] = some [unk] ∧ RefWord (vocab.map unitsOfUtf8) unk w [unk] := by
  have hV' : (vocab.map unitsOfUtf8).length ≤ INVALID := by simpa using hV
  obtain ⟨cont, hc⟩ := hashes_some (vocab.map unitsOfUtf8) hh
  refine ⟨?_, Or.inr ⟨[], w, Pieces.stuck [] w hw hno, hw, rfl⟩⟩
  unfold wordpiece buildTrie
  rw [findNode_hashes, hc]
  simp only [wordsLoop_single]
  rw [wordLoop_stuck _ hV' _ cont _ unk [] w rfl hw hno _ (Nat.le_refl _)]

/-- C14 and C15, exactly: for every vocabulary with an entry that starts with `##` and every list of words,
the ids are those described by `ScanAll` (and no others).  The two differences to the reference can be
read off: a step consumes `q` instead of `p`, and a word starts where the one before it stopped. -/
theorem C14_code_exact (vocab : List (List Nat)) (hV : vocab.length ≤ INVALID)
    (hh : ∃ v ∈ vocab.map unitsOfUtf8, marker <+: v) (unk : Nat) (ws : List (List Nat)) (out : List Nat) :
    wordpiece (buildTrie vocab) unk ws = some out ↔ ScanAll (vocab.map unitsOfUtf8) unk [] ws out := by
  have hV' : (vocab.map unitsOfUtf8).length ≤ INVALID := by simpa using hV
  obtain ⟨cont, hc⟩ := hashes_some (vocab.map unitsOfUtf8) hh
  unfold wordpiece buildTrie
  rw [findNode_hashes, hc]
  simp only [Option.some.injEq]
  have h := wordsLoop_scan _ hV' cont unk hc ws [] _ rfl
  constructor
  · rintro rfl
    exact h
  · intro h'
    exact scanAll_unique h' _ h

/-- Without a `##` entry (or an entry beginning with it) nothing is produced at all. -/
theorem C14_no_hashes (vocab : List (List Nat)) (unk : Nat) (ws : List (List Nat))
    (h : ∀ v ∈ vocab.map unitsOfUtf8, ¬ marker <+: v) : wordpiece (buildTrie vocab) unk ws = none := by
  unfold wordpiece buildTrie
  rw [findNode_hashes]
  cases hw : walk (buildFrom Node.new 0 (vocab.map unitsOfUtf8)) hashes with
  | none => rfl
  | some c =>
    exfalso
    obtain ⟨v, hv, hp⟩ := (hasPath_build (vocab.map unitsOfUtf8) hashes (by simp [hashes])).mp
      (by simp [HasPath, hw])
    exact h v hv hp

/-- Vocabulary for examples. -/
def wpVocab : List (List Nat) :=
  [ascii "##", ascii "a", ascii "ab", ascii "##b", ascii "abcd", ascii "##c", ascii "[UNK]"]

-- the hypotheses of `C14_greedy_partial` are satisfiable with several pieces: `a` + `##c`
example : TightPieces (wpVocab.map unitsOfUtf8) [] (ascii "ac") [1, 5] :=
  tight_step [] (ascii "a") (ascii "c") 1 (by decide) (by decide) (by decide) (by decide)
    (tight_step marker (ascii "c") [] 5 (by decide) (by decide) (by decide) (by decide)
      (TightPieces.done _))

example : ∃ v ∈ wpVocab.map unitsOfUtf8, marker <+: v := by decide

/-- A prefix-closed vocabulary. -/
def closedVocab : List (List Nat) :=
  [ascii "#", ascii "##", ascii "a", ascii "ab", ascii "##b", ascii "##bc", ascii "u"]

example : (∃ v ∈ closedVocab.map unitsOfUtf8, marker <+: v) ∧ PrefixClosed (closedVocab.map unitsOfUtf8) := by
  refine ⟨by decide, ?_⟩
  rintro pfx hpfx q v hq hv hp
  have e := List.prefix_iff_eq_take.mp hp
  have hl : (pfx ++ q).length ≤ 4 := by
    have := hp.length_le
    have : ∀ v ∈ closedVocab.map unitsOfUtf8, v.length ≤ 4 := by decide
    have := this v hv
    omega
  have hall : ∀ v ∈ closedVocab.map unitsOfUtf8, ∀ k < 5, v.take k ≠ [] →
      v.take k ∈ closedVocab.map unitsOfUtf8 := by decide
  rw [e]
  exact hall v hv _ (by omega) (by rw [← e]; simp [hq])

/-- C14 refuted: with entries `ab` and `abcd` the word `abcb` should become `ab ##c ##b`; the code
looks ahead to `abc`, takes the id of `ab` and drops the `c`. -/
theorem C14_overshoot_counterexample :
    wordpiece (buildTrie wpVocab) 6 [ascii "abcb"] = some [2, 3] ∧
    RefWord (wpVocab.map unitsOfUtf8) 6 (ascii "abcb") [2, 5, 3] := by
  refine ⟨by decide, Or.inl ?_⟩
  exact pieces_step [] (ascii "ab") (ascii "cb") 2 (by decide) (by decide) (by decide) (by decide)
    (pieces_step marker (ascii "c") (ascii "b") 5 (by decide) (by decide) (by decide) (by decide)
      (pieces_step marker (ascii "b") [] 3 (by decide) (by decide) (by decide) (by decide)
        (Pieces.done _)))

/-- C14 refuted: a word that cannot be cut up to the end keeps its first pieces, the unknown token
comes in addition. -/
theorem C14_unknown_tail_counterexample :
    wordpiece (buildTrie wpVocab) 6 [ascii "ax"] = some [1, 6] ∧
    RefWord (wpVocab.map unitsOfUtf8) 6 (ascii "ax") [6] := by
  refine ⟨by decide, Or.inr ⟨[1], ascii "x", ?_, by decide, rfl⟩⟩
  exact pieces_step [] (ascii "a") (ascii "x") 1 (by decide) (by decide) (by decide) (by decide)
    (pieces_stuck marker (ascii "x") (by decide) (by decide))

/-! ## C15 -/

/-- C15, as long as no word but the last fails in its middle: tokenizing the list is tokenizing each
word alone.  A word fails in its middle if alone it gives several ids ending with the unknown
token.  (Missing: lists with such a word; the code is wrong there, see the counterexample.) -/
theorem C15_independent_partial (t : Node) (unk : Nat) (ws : List (List Nat)) (ids : List Nat)
    (hr : wordpiece t unk ws = some ids)
    (h : ∀ w ∈ ws, ∀ out, wordpiece t unk [w] = some out → out.length ≤ 1 ∨ out.getLast? ≠ some unk) :
    ids = ws.flatMap (fun w => (wordpiece t unk [w]).getD []) := by
  unfold wordpiece at *
  cases hc : findNode t hashes with
  | none => rw [hc] at hr; cases hr
  | some cont =>
    simp only [hc, Option.some.injEq, wordsLoop_single, Option.getD_some] at hr h ⊢
    rw [← hr]
    clear hr
    induction ws with
    | nil => rfl
    | cons w ws ih =>
      rw [wordsLoop, List.flatMap_cons]
      have hroot : (wordLoop t cont unk w.length t w).2 = t := by
        by_cases hw : w = []
        · subst hw; rfl
        · rcases wordLoop_root t cont unk w.length t w (Nat.le_refl _) hw with h1 | ⟨h1, h2⟩
          · exact h1
          · rcases h w (by simp) _ rfl with h3 | h3
            · exact h2 h3
            · exact absurd h1 h3
      rw [hroot, ih (fun x hx => h x (by simp [hx]))]

example : ∀ w ∈ [ascii "abc", ascii "x", ascii "ac"], ∀ out,
    wordpiece (buildTrie wpVocab) 6 [w] = some out → out.length ≤ 1 ∨ out.getLast? ≠ some 6 := by
  intro w hw out ho
  have hall : ∀ w ∈ [ascii "abc", ascii "x", ascii "ac"],
      ((wordpiece (buildTrie wpVocab) 6 [w]).getD []).length ≤ 1 ∨
      ((wordpiece (buildTrie wpVocab) 6 [w]).getD []).getLast? ≠ some 6 := by decide
  have := hall w hw
  rwa [ho] at this

/-- C15 refuted: after a word that fails in its middle the next word is looked up among the
continuation pieces. -/
theorem C15_leak_counterexample :
    wordpiece (buildTrie wpVocab) 6 [ascii "ax", ascii "ab"] = some [1, 6, 6] ∧
    wordpiece (buildTrie wpVocab) 6 [ascii "ax"] = some [1, 6] ∧
    wordpiece (buildTrie wpVocab) 6 [ascii "ab"] = some [2] ∧
    wordpiece (buildTrie wpVocab) 6 [ascii "ax", ascii "b"] = some [1, 6, 3] ∧
    wordpiece (buildTrie wpVocab) 6 [ascii "b"] = some [6] := by decide

/-! ## C16 -/

theorem bert_ids_valid (u : Icu) (cond : TokInfo) (v : VocabT) (sp : Special) (hV : v.tokenCount ≤ INVALID)
    (hunk : sp.unk < v.tokenCount) (text ids : List Nat) (ht : tokenize u cond v sp text = .ok ids) :
    ∀ i ∈ ids, i < v.tokenCount := by
  intro i hi
  unfold tokenize at ht
  obtain ⟨words, _, ht⟩ := res_bind_ok ht
  have ht : (wordpiece (buildTrie v.idToTok) sp.unk words).getD [] = ids := by
    injection ht
  rw [← ht] at hi
  unfold wordpiece buildTrie at hi
  rw [findNode_hashes] at hi
  cases hc : walk (buildFrom Node.new 0 (v.idToTok.map unitsOfUtf8)) hashes with
  | none => rw [hc] at hi; simp at hi
  | some cont =>
    rw [hc] at hi
    rcases wordsLoop_ids (v.idToTok.map unitsOfUtf8) (by simpa [VocabT.tokenCount] using hV) cont sp.unk hc _
      (Or.inl rfl) words i (by simpa using hi) with h | h
    · simpa [VocabT.tokenCount] using h
    · rw [h]; exact hunk

/-- C16, if the special ids are in range: a successful call delivers ids that begin with CLS, end
with SEP and are all smaller than the vocabulary size.  (Missing: ids given by metadata keys are
not range checked by the loader, see the counterexample.) -/
theorem C16_valid_framed_partial (u : Icu) (cond : TokInfo) (v : VocabT) (sp : Special)
    (hV : v.tokenCount ≤ INVALID) (hcls : sp.cls < v.tokenCount) (hsep : sp.sep < v.tokenCount)
    (hunk : sp.unk < v.tokenCount) (text : List Nat) (buf : List Nat) (cap n : Nat) (out : List Nat)
    (hcap : cap ≤ buf.length)
    (h : Api.bertsTokenize (some ⟨.bert, some (bertModel u cond v sp)⟩) text (some buf) (some cap) =
      .ok ⟨true, some out, some n⟩) (hn : n ≤ cap) :
    ∃ mid, out.take n = sp.cls :: mid ++ [sp.sep] ∧ ∀ i ∈ out.take n, i < v.tokenCount := by
  unfold Api.bertsTokenize at h
  have hcls' : sp.cls ≠ INVALID := by omega
  have hsep' : sp.sep ≠ INVALID := by omega
  simp only [Api.getModel, bertModel, hcls', hsep', if_false] at h
  cases ht : tokenize u cond v sp text with
  | ub => rw [ht] at h; cases h
  | abort => rw [ht] at h; cases h
  | hang => rw [ht] at h; cases h
  | ok ids =>
    rw [ht] at h
    simp only [Res.bind_ok, Res.pure_eq, if_true, Api.emit, Api.copyInto] at h
    rw [if_pos (by omega)] at h
    simp only [Res.bind_ok, Res.ok.injEq, Api.Out.mk.injEq, Option.some.injEq, true_and] at h
    obtain ⟨h1, h2⟩ := h
    have hout : out.take n = sp.cls :: ids ++ [sp.sep] := by
      rw [← h1, Nat.min_eq_right (by omega), List.take_length, ← h2,
        List.take_append_of_le_length (Nat.le_refl _), List.take_length]
      simp
    refine ⟨ids, hout, ?_⟩
    intro i hi
    rw [hout] at hi
    simp only [List.cons_append, List.mem_cons, List.mem_append, List.not_mem_nil, or_false] at hi
    rcases hi with rfl | hi | rfl
    · exact hcls
    · exact bert_ids_valid u cond v sp hV hunk text ids ht i hi
    · exact hsep

/-- C16: the special ids of a loaded BERT vocabulary are in range unless a metadata key says
otherwise. -/
theorem C16_special_in_range (v : VocabT) (l : List (List Nat)) (hv : Holds v l)
    (m : Meta) (hm : m.cls = none ∧ m.sep = none ∧ m.unk = none) (sp : Special)
    (h : bertSpecials m v = some sp) :
    sp.cls < v.tokenCount ∧ sp.sep < v.tokenCount ∧ sp.unk < v.tokenCount := by
  obtain ⟨h1, -, -, h2, h3⟩ := C38_bert_values m v sp h
  obtain ⟨m1, m2, m3⟩ := hm
  have key : ∀ (a b : List Nat) (i : Nat),
      firstValid [none, some (v.tokenToId a), some (v.tokenToId b)] = some i → i < v.tokenCount := by
    intro a b i hi
    have hc : v.tokenCount = l.length := by unfold VocabT.tokenCount; rw [hv.1]
    rw [hc]
    simp only [firstValid] at hi
    split at hi
    · split at hi
      · cases hi
      · rename_i hb; cases hi; exact (tokenToId_lt hv b hb).1
    · rename_i ha; cases hi; exact (tokenToId_lt hv a ha).1
  rw [m1] at h1; rw [m2] at h2; rw [m3] at h3
  exact ⟨key _ _ _ h1, key _ _ _ h2, key _ _ _ h3⟩

/-- Small vocabulary for the examples. -/
def exVocab : VocabT := VocabT.new.run ([ascii "[CLS]", ascii "[SEP]", ascii "[UNK]", ascii "[PAD]",
  ascii "[MASK]", ascii "##", ascii "hi", ascii "a"].map Op.add)

/-- Its special ids. -/
def exSpecial : Special := ⟨0, 4, 3, 1, 2, INVALID, INVALID⟩

/-- Options with case and accent folding off. -/
def casedInfo : TokInfo := condOf (some false) none none none

example : bertSpecials ⟨none, none, none, none, none, none, none⟩ exVocab = some exSpecial := by decide
example : Api.bertsTokenize (some ⟨.bert, some (bertModel asciiIcu casedInfo exVocab exSpecial)⟩)
    (ascii "hi [MASK] zz") (some [9, 9, 9, 9, 9, 9]) (some 6) =
    .ok ⟨true, some [0, 6, 4, 2, 1, 9], some 5⟩ := by decide +kernel

/-- C16 refuted for metadata ids: the loader accepts a `cls` key that is not a token, and the call
delivers it. -/
theorem C16_metadata_counterexample :
    ∃ sp, bertSpecials ⟨some 777, none, none, none, none, none, none⟩ exVocab = some sp ∧
      exVocab.tokenCount = 8 ∧
      Api.bertsTokenize (some ⟨.bert, some (bertModel asciiIcu casedInfo exVocab sp)⟩)
        (ascii "hi") (some [9, 9, 9]) (some 3) = .ok ⟨true, some [777, 6, 1], some 3⟩ :=
  ⟨⟨777, 4, 3, 1, 2, INVALID, INVALID⟩, by decide, by decide, by decide +kernel⟩

/-- C16: on valid UTF-8 the call is defined, if ICU's normaliser keeps text well formed. -/
theorem C16_defined (u : Icu) (hc : NormOk u.nfc) (hd16 : ∀ l, (∀ x ∈ l, x < 0x10000) →
      ∀ x ∈ u.nfd l, x < 0x10000) (hc16 : ∀ l, (∀ x ∈ l, x < 0x10000) → ∀ x ∈ u.nfc l, x < 0x10000)
    (hlow : ∀ w, w ≠ [] → u.lower w ≠ []) (cond : TokInfo) (v : VocabT) (sp : Special)
    (cs : List Nat) (h : ∀ c ∈ cs, IsScalar c) :
    ∃ ids, tokenize u cond v sp (utf8Encode cs) = .ok ids := by
  have word : ∀ (keep : List (List Nat)) (w : List Nat), w ≠ [] → (∀ x ∈ w, x < 0x10000) →
      ∃ out, basicWord u cond keep w = .ok out := by
    intro keep w hne hw
    unfold basicWord
    split
    · exact ⟨_, rfl⟩
    · have h1 : ∃ r l, lowerStep u cond (UImpl.ofUnits w) = .ok r ∧ Rep r l ∧ ∀ x ∈ l, x < 0x10000 := by
        unfold lowerStep
        split
        · obtain ⟨r, hr, hr'⟩ := lowerWord_empty u w (hlow w hne)
          exact ⟨r, [], hr, hr', by simp⟩
        · exact ⟨_, w, rfl, rep_ofUnits w, hw⟩
      obtain ⟨r, l, e1, r1, b1⟩ := h1
      have h2 : ∃ r' l', stripStep u cond r = .ok r' ∧ Rep r' l' ∧ ∀ x ∈ l', x < 0x10000 := by
        unfold stripStep
        split
        · obtain ⟨r', hr, hr'⟩ := stripAccents_rep u r1 (hd16 l b1)
          refine ⟨r', _, hr, hr', hc16 _ (utf16Encode_lt _ ?_)⟩
          intro c hcm
          exact scalar_eachCp_skip _ (hd16 l b1) true c (List.mem_filter.mp hcm).1
        · exact ⟨r, l, rfl, r1, b1⟩
      obtain ⟨r', l', e2, r2, b2⟩ := h2
      simp only [e1, Res.bind, e2, readUnits_rep r2]
      split
      · refine ⟨_, readAll_ofUtf32 _ ?_⟩
        intro p hp c hcp
        exact scalar_eachCp_skip l' b2 true c (puncLoop_mem u _ p hp c hcp)
      · exact ⟨_, rfl⟩
  have words : ∀ (keep ws : List (List Nat)), (∀ w ∈ ws, w ≠ [] ∧ ∀ x ∈ w, x < 0x10000) →
      ∃ out, basicWords u cond keep ws = .ok out := by
    intro keep ws
    induction ws with
    | nil => exact fun _ => ⟨[], rfl⟩
    | cons w ws ih =>
      intro hw
      obtain ⟨a, ha⟩ := word keep w (hw w (by simp)).1 (hw w (by simp)).2
      obtain ⟨b, hb⟩ := ih (fun x hx => hw x (by simp [hx]))
      exact ⟨a ++ b, by rw [basicWords, ha, hb]; rfl⟩
  obtain ⟨ds, hds, he⟩ := hc cs h
  have hb := utf16Encode_lt ds hds
  unfold tokenize
  simp only [basicTokenize_text u cond _ cs h, he]
  obtain ⟨out, ho⟩ := words ([sp.cls, sp.mask, sp.pad, sp.sep, sp.unk].map
      (fun i => unitsOfUtf8 (v.idToToken i)))
    (cleanAndSplit u cond (utf16Encode ds)) (fun w hw =>
      ⟨(C12_no_space u cond _ hb w hw).1, cleanAndSplit_lt u cond _ hb w hw⟩)
  rw [ho]
  exact ⟨_, rfl⟩

example : NormOk asciiIcu.nfc := fun cs h => ⟨cs, h, rfl⟩

/-! ## C17 -/

/-- C17 refuted in general: with lower-casing on, every text is tokenized as if all its unprotected
words were absent, for every vocabulary. -/
theorem C17_words_lost_counterexample (u : Icu) (hlow : ∀ w, w ≠ [] → u.lower w ≠ [])
    (hc : u.nfc [] = []) (hd : u.nfd [] = []) (cond : TokInfo) (hl : cond.lowerCase = true)
    (v : VocabT) (sp : Special) (cs : List Nat) (h : ∀ c ∈ cs, IsScalar c) :
    let keep := [sp.cls, sp.mask, sp.pad, sp.sep, sp.unk].map (fun i => unitsOfUtf8 (v.idToToken i))
    let words := cleanAndSplit u cond (u.nfc (utf16Encode cs))
    tokenize u cond v sp (utf8Encode cs) =
      .ok ((wordpiece (buildTrie v.idToTok) sp.unk (words.filter (fun w => decide (w ∈ keep)))).getD []) := by
  intro keep words
  obtain ⟨out, h1, h2⟩ := basicWords_lower u cond hl keep words
    (fun w hw => (splitLoop_words [] _).1 w hw) hlow hc hd
  unfold tokenize
  simp only [basicTokenize_text u cond _ cs h]
  show (basicWords u cond keep words >>= _) = _
  rw [h1]
  simp only [Res.bind_ok, Res.pure_eq]
  rw [wordpiece_skip_empty, h2]

/-- C17 refuted, concretely: with the default options of an uncased model the text `hi` has no
tokens although `hi` is in the vocabulary; with `do_lower_case` off it has. -/
theorem C17_counterexample :
    tokenize asciiIcu (condOf none none none none) exVocab exSpecial (ascii "hi") = .ok [] ∧
    tokenize asciiIcu casedInfo exVocab exSpecial (ascii "hi") = .ok [6] := by decide +kernel

example : (∀ w, w ≠ [] → asciiIcu.lower w ≠ []) ∧ (condOf none none none none).lowerCase = true := by
  refine ⟨fun w hw => ?_, rfl⟩
  simpa [asciiIcu] using hw

/-- C17 with folding off: no text is dropped, the strings given to WordPiece joined are the
characters of the text (after NFC) without blanks, NUL, U+FFFD and controls.  (Missing: case
folding itself, which the code does not achieve.) -/
theorem C17_text_kept_partial (u : Icu) (cond : TokInfo) (hb : BasicMode cond)
    (hl : cond.lowerCase = false) (ha : cond.stripAcc = false) (keep : List (List Nat))
    (cs ds : List Nat) (h : ∀ c ∈ cs, IsScalar c) (hd : ∀ d ∈ ds, IsScalar d)
    (hn : u.nfc (utf16Encode cs) = utf16Encode ds) :
    ∃ ws, basicTokenize u cond keep (utf8Encode cs) = .ok ws ∧
      ws.flatten = utf16Encode (ds.filter (fun c => decide (Solid u c))) := by
  rw [basicTokenize_text u cond keep cs h, hn]
  have hflat := (C12_words u cond hb ds hd).2
  rw [← hflat]
  have hsc : ∀ w ∈ cleanAndSplit u cond (utf16Encode ds),
      ∃ es, (∀ e ∈ es, IsScalar e) ∧ w = utf16Encode es :=
    cleanAndSplit_scalar u cond hb ds hd
  generalize cleanAndSplit u cond (utf16Encode ds) = words at *
  clear hflat
  induction words with
  | nil => exact ⟨[], rfl, rfl⟩
  | cons w words ih =>
    obtain ⟨ws, h1, h2⟩ := ih (fun x hx => hsc x (by simp [hx]))
    obtain ⟨es, hes, rfl⟩ := hsc w (by simp)
    have : ∃ out, basicWord u cond keep (utf16Encode es) = .ok out ∧ out.flatten = utf16Encode es := by
      by_cases hk : utf16Encode es ∈ keep
      · exact ⟨[utf16Encode es], by simp [basicWord, hk], by simp⟩
      · by_cases hs : cond.splitPunc = true
        · obtain ⟨ps, hcut, ho⟩ := C13_punct_cut u cond hs hl ha keep es hes hk
          refine ⟨_, ho, ?_⟩
          rw [← hcut.joined]
          clear hcut ho
          induction ps with
          | nil => rfl
          | cons p ps ih => simp [utf16Encode_append, ih]
        · refine ⟨[utf16Encode es], ?_, by simp⟩
          unfold basicWord
          rw [if_neg hk]
          simp [lowerStep, stripStep, hl, ha, hs, Res.bind, readUnits_rep (rep_ofUnits _)]
    obtain ⟨out, ho, hof⟩ := this
    exact ⟨out ++ ws, by rw [basicWords, ho, h1]; rfl, by simp [hof, h2]⟩

/-- C17, accent folding of models that keep the case: an unprotected word is decomposed, its marks
(category `Mn`) are removed, the rest is composed again and cut at punctuation.  (Missing: together
with lower-casing, where the word is lost.) -/
theorem C17_accents_partial (u : Icu) (cond : TokInfo) (hs : cond.splitPunc = true)
    (hl : cond.lowerCase = false) (ha : cond.stripAcc = true) (keep : List (List Nat))
    (cs ds es : List Nat) (hd : ∀ d ∈ ds, IsScalar d) (he : ∀ e ∈ es, IsScalar e)
    (hk : utf16Encode cs ∉ keep) (hnfd : u.nfd (utf16Encode cs) = utf16Encode ds)
    (hnfc : u.nfc (utf16Encode (ds.filter (fun c => !u.catMn c))) = utf16Encode es) :
    ∃ ps, CutAtPunct u es ps ∧ basicWord u cond keep (utf16Encode cs) = .ok (ps.map utf16Encode) := by
  refine ⟨puncLoop u [] es, ⟨by simpa using puncLoop_flatten u [] es,
    puncLoop_pieces u [] es (by simp), puncLoop_maximal u [] es⟩, ?_⟩
  obtain ⟨r, h1, h2⟩ := stripAccents_rep u (rep_ofUnits (utf16Encode cs))
    (by rw [hnfd]; exact utf16Encode_lt ds hd)
  rw [hnfd, toCodePoints_encode ds hd true, hnfc] at h2
  unfold basicWord
  rw [if_neg hk]
  simp only [lowerStep, stripStep, hl, ha, hs, Bool.false_eq_true, if_false, Res.bind, h1,
    readUnits_rep h2, if_true]
  rw [toCodePoints_encode es he true]
  exact readAll_ofUtf32 _ (fun p hp c hc => he c (puncLoop_mem u es p hp c hc))

/-- ICU for the example: U+0301 is a mark, `é` decomposes. -/
def accentIcu : Icu := { asciiIcu with
  nfd := fun l => l.flatMap (fun c => if c = 0xE9 then [0x65, 0x301] else [c])
  catMn := fun c => c == 0x301 }

example : basicWord accentIcu (condOf (some false) none none (some true)) [] [0xE9, 0x21] =
    .ok [[0x65], [0x21]] := by decide +kernel

/-! ## C70 -/

/-- C70, keys that are absent: for a cased model (`do_lower_case` false) everything else but accent
stripping is on, so C12, C13 and C17 apply. -/
theorem C70_cased (basic cjk strip : Option Bool) (hb : basic ≠ some false) (hs : strip ≠ some true) :
    BasicMode (condOf (some false) basic cjk strip) ∧
    (condOf (some false) basic cjk strip).splitPunc = true ∧
    (condOf (some false) basic cjk strip).lowerCase = false ∧
    (condOf (some false) basic cjk strip).stripAcc = false ∧
    ((condOf (some false) basic cjk strip).addCjk = true ↔ cjk ≠ some false) := by
  unfold BasicMode
  rcases basic with _ | _ | _ <;> rcases strip with _ | _ | _ <;> rcases cjk with _ | _ | _ <;>
    simp_all [condOf, basicInfo]

/-- C70: for an uncased model (`do_lower_case` true or absent) accents are stripped unless the key
says otherwise. -/
theorem C70_uncased (lower basic cjk strip : Option Bool) (hl : lower ≠ some false) (hb : basic ≠ some false) :
    BasicMode (condOf lower basic cjk strip) ∧ (condOf lower basic cjk strip).splitPunc = true ∧
    (condOf lower basic cjk strip).lowerCase = true ∧
    ((condOf lower basic cjk strip).stripAcc = true ↔ strip ≠ some false) ∧
    ((condOf lower basic cjk strip).addCjk = true ↔ cjk ≠ some false) := by
  unfold BasicMode
  rcases lower with _ | _ | _ <;> rcases basic with _ | _ | _ <;> rcases strip with _ | _ | _ <;>
    rcases cjk with _ | _ | _ <;> simp_all [condOf, basicInfo]

/-- C70 without basic tokenization, if the keys for case, CJK and accents are off as well: the words
are the stretches between blanks of the composed text, unchanged.  (Missing: unprintable
characters above U+FFFF, which are truncated, and `do_basic_tokenize` off on its own, see the
counterexamples.) -/
theorem C70_no_basic_partial (u : Icu) (strip : Option Bool) (hstrip : strip ≠ some true)
    (keep : List (List Nat)) (cs ds : List Nat) (h : ∀ c ∈ cs, IsScalar c) (hd : ∀ d ∈ ds, IsScalar d)
    (hn : u.nfc (utf16Encode cs) = utf16Encode ds) (hc : ∀ d ∈ ds, Control u d → d ≤ 0xFFFF) :
    basicTokenize u (condOf (some false) (some false) (some false) strip) keep (utf8Encode cs) =
      .ok ((wordsFrom (fun c => decide (Separator u c)) [] ds).map utf16Encode) := by
  have hst : (condOf (some false) (some false) (some false) strip).stripAcc = false := by
    rcases strip with _ | _ | _ <;> simp_all [condOf]
  rw [basicTokenize_text u _ keep cs h, hn, basicWords_raw u _ rfl hst rfl, cleanAndSplit_encode u _ ds hd]
  exact congrArg _ (splitLoop_raw u _ rfl rfl rfl rfl rfl ds hd hc [])

example : basicTokenize asciiIcu (condOf (some false) (some false) (some false) none) []
    (utf8Encode [0x68, 0, 0x20, 0x20, 0x4E00, 0x4E01, 0x21]) = .ok [[0x68, 0], [0x4E00, 0x4E01, 0x21]] := by
  decide +kernel

/-- C70 refuted: `do_basic_tokenize` off on its own does not turn off lower-casing (which loses the
word, see C17), nor the splitting of ideographs. -/
theorem C70_no_basic_counterexample :
    tokenize asciiIcu (condOf none (some false) none none) exVocab exSpecial (ascii "hi") = .ok [] ∧
    tokenize asciiIcu (condOf (some false) (some false) none none) exVocab exSpecial (ascii "hi") = .ok [6] ∧
    basicTokenize asciiIcu (condOf (some false) (some false) none none) []
      (utf8Encode [0x4E00, 0x4E01]) = .ok [[0x4E00], [0x4E01]] := by decide +kernel

/-! ## C18 -/

/-- C18: a word that is a special token reaches WordPiece unchanged, under all options, and the
words around it are treated as without it. -/
theorem C18_protected (u : Icu) (cond : TokInfo) (keep ws1 ws2 : List (List Nat)) (w : List Nat)
    (hw : w ∈ keep) (r : List (List Nat)) (h : basicWords u cond keep (ws1 ++ w :: ws2) = .ok r) :
    ∃ r1 r2, basicWords u cond keep ws1 = .ok r1 ∧ basicWords u cond keep ws2 = .ok r2 ∧
      r = r1 ++ [w] ++ r2 := by
  rw [basicWords_append] at h
  obtain ⟨r1, h1, h⟩ := res_bind_ok h
  obtain ⟨r', h2, h⟩ := res_bind_ok h
  rw [basicWords] at h2
  simp only [basicWord, hw, if_true, Res.bind_ok] at h2
  obtain ⟨r2, h3, h2⟩ := res_bind_ok h2
  refine ⟨r1, r2, h1, h3, ?_⟩
  have e2 : [w] ++ r2 = r' := by injection h2
  have e : r1 ++ r' = r := by injection h
  rw [← e, ← e2, List.append_assoc]

/-- C18: the text of a special token alone is tokenized as its own id, under all options.  The
token must be normalised text without blanks, controls and (with the CJK option) ideographs. -/
theorem C18_own_id (u : Icu) (cond : TokInfo) (v : VocabT) (l : List (List Nat)) (hv : Holds v l)
    (hh : ∃ e ∈ l.map unitsOfUtf8, marker <+: e) (sp : Special) (i : Nat)
    (hi : i ∈ [sp.cls, sp.mask, sp.pad, sp.sep, sp.unk]) (cs : List Nat) (hne : cs ≠ [])
    (htok : l[i]? = some (utf8Encode cs)) (hs : ∀ c ∈ cs, IsScalar c)
    (hn : u.nfc (utf16Encode cs) = utf16Encode cs)
    (hplain : ∀ c ∈ cs, Solid u c ∧ (cond.addCjk = true → ¬ Ideograph c))
    (huniq : ∀ t ∈ l, unitsOfUtf8 t = utf16Encode cs → t = utf8Encode cs) :
    tokenize u cond v sp (utf8Encode cs) = .ok [i] := by
  obtain ⟨hv1, hv2, hv3, hv4⟩ := hv
  have hlt := (List.getElem?_eq_some_iff.mp htok).1
  have hidt : v.idToToken i = utf8Encode cs := by
    unfold VocabT.idToToken
    rw [hv1, if_neg (by omega), htok]; rfl
  have hun : unitsOfUtf8 (utf8Encode cs) = utf16Encode cs := by
    unfold unitsOfUtf8; rw [utf8Decode_encode cs hs]
  unfold tokenize
  simp only [basicTokenize_text u cond _ cs hs, hn, cleanAndSplit_plain u cond cs hs hne hplain]
  have hk : utf16Encode cs ∈ [sp.cls, sp.mask, sp.pad, sp.sep, sp.unk].map
      (fun i => unitsOfUtf8 (v.idToToken i)) :=
    List.mem_map.mpr ⟨i, hi, by rw [hidt, hun]⟩
  simp only [basicWords, basicWord, if_pos hk, Res.bind_ok, Res.pure_eq, List.append_nil, Res.ok.injEq]
  obtain ⟨cont, hc⟩ := hashes_some (l.map unitsOfUtf8) hh
  unfold wordpiece buildTrie
  rw [hv1, findNode_hashes, hc]
  simp only [wordsLoop_single, Option.getD_some]
  have hlast : IsLastIndex (l.map unitsOfUtf8) (utf16Encode cs) i := by
    constructor
    · rw [List.getElem?_map, htok]; simp [hun]
    · intro j hj
      rw [List.getElem?_map] at hj
      cases hlj : l[j]? with
      | none => rw [hlj] at hj; cases hj
      | some t =>
        rw [hlj] at hj
        have ht : t = utf8Encode cs := huniq t (List.mem_of_getElem? hlj) (by simpa using hj)
        subst ht
        exact Nat.le_of_eq (getElem?_inj_of_nodup hv2 hlj htok)
  rw [wordpiece_entry (l.map unitsOfUtf8) (by simpa using hv3) cont sp.unk _
    (by rw [ne_eq, utf16Encode_eq_nil]; exact hne) i hlast]

example : tokenize asciiIcu (condOf none none none none) exVocab exSpecial (ascii "[MASK]") = .ok [4] ∧
    utf8Encode [91, 77, 65, 83, 75, 93] = ascii "[MASK]" ∧
    (∀ c ∈ [91, 77, 65, 83, 75, 93], IsScalar c ∧ Solid asciiIcu c ∧ ¬ Ideograph c) := by decide +kernel

/-- C18 refuted in context: after a word that fails in its middle, the special token is not found
(see C15). -/
theorem C18_leak_counterexample :
    tokenize asciiIcu casedInfo exVocab exSpecial (ascii "[MASK]") = .ok [4] ∧
    tokenize asciiIcu casedInfo exVocab exSpecial (ascii "az [MASK]") = .ok [7, 2, 2] := by decide +kernel

end Berts.Props
