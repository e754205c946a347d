import Verif.Proofs.BpeLog
import Verif.Proofs.RobertaLog

/-! # Properties C101 and C102: messages of RoBERTa's tokenizer and of byte pair encoding -/

namespace Berts.Props

open Berts.Unicode Berts.Vocab Berts.Roberta Berts.Spec Berts.Log Berts.Format
open Berts.Bpe (Str)
open Berts.Load (LogM Says runLines_off)
open Berts.Bert (runLines ok_bind' runLines_append)

/-! ## C101 -/

/-- C101 at WARN (the default level) and above: whatever the text and whatever the outcome, even undefined behaviour,
tokenizing with messages is tokenizing without, and the log is not touched, not even by the errors of a call that
fails. -/
theorem C101_default (e : Roberta.Env) (r : RVocab) (setOrder : List (List Nat) → List (List Nat)) (text : List Nat)
    (s : St) (hs : 2 ≤ s.level) :
    Roberta.tokenizeL e r setOrder text s = (Roberta.tokenize e r setOrder text).bind fun o => .ok (o, s) := by
  obtain ⟨ls, h, hl, _⟩ := tokenizeL_notes e r setOrder text
  rw [h s, runLines_off (l := 1) (by omega) hl, ok_bind']

theorem heard_filter {level : Int} (ls : List (Int × List Nat)) (he : level = 1) :
    heard level ls = heard level (ls.filter fun l => 1 ≤ l.1) := by
  subst he
  unfold heard
  rw [List.filter_filter]
  simp

/-- Lines that are not written do not matter. -/
theorem LinesWritten.info {s s' : St} {ls : List (Int × List Nat)} (h : LinesWritten s ls s') (he : s.level = 1) :
    LinesWritten s (ls.filter fun l => 1 ≤ l.1) s' := by
  refine ⟨h.level, h.file, ?_, h.others⟩
  intro f hf
  rw [← heard_filter ls he]
  exact h.written f hf

theorem complains_low {ws : Nat → Bool} {t : List Nat} {ms : List (Int × List Nat)} (h : Complains ws t ms) :
    ms.filter (fun l => (1 : Int) ≤ l.1) = ms := by
  cases h <;> simp [line]

theorem tale_info {C : Prop} {v : VocabT} {ws : Nat → Bool} {start : List (Int × List Nat)}
    {o : Option (List Nat)} {ls : List (Int × List Nat)} (h : Tale C v ws start o ls) :
    match o with
    | some _ => ls.filter (fun l => 1 ≤ l.1) = start
    | none => ∃ t ms, Complains ws t ms ∧ v.tokenToId t = INVALID ∧ ls.filter (fun l => 1 ≤ l.1) = start ++ ms := by
  obtain ⟨ds, ms, rfl, h1, _, h3⟩ := h
  cases o with
  | some ids =>
    simp only at h3
    subst h3
    simpa using h1
  | none =>
    obtain ⟨t, h3, h4⟩ := h3
    refine ⟨t, ms, h3, h4, ?_⟩
    rw [List.filter_append, h1, complains_low h3]

/-- C101 at INFO, a call that succeeds: the log grows by the lines about the special tokens and the start. -/
theorem C101_info (e : Roberta.Env) (r : RVocab) (setOrder : List (List Nat) → List (List Nat)) (text ids : List Nat)
    (hok : Roberta.tokenize e r setOrder text = .ok (some ids)) (s : St) (hs : s.level = 1) :
    ∃ s', Roberta.tokenizeL e r setOrder text s = .ok (some ids, s') ∧
      LinesWritten s (startLines r.v.idToTok.length r.special) s' := by
  obtain ⟨ls, h, hl, ht⟩ := tokenizeL_notes e r setOrder text
  have ht := tale_info (ht _ hok)
  simp only at ht
  obtain ⟨s', h1, h2⟩ := (linesWritten_outcome ls s).1 (Or.inr fun m hm => by
    rw [heard_filter ls hs, ht] at hm
    obtain ⟨l, hl, rfl⟩ := List.mem_map.mp hm
    have hl := (List.mem_filter.mp hl).1
    refine prints_no_percent _ ?_
    unfold startLines at hl
    rcases List.mem_append.mp hl with hl | hl
    · exact specialLines_pct _ _ l hl
    · rcases List.mem_cons.mp hl with rfl | hl
      · decide
      · exact specialLines_pct _ _ l hl)
  refine ⟨s', ?_, ht ▸ h2.info hs⟩
  rw [h s, h1, ok_bind', hok, ok_bind']

/-- C101 at INFO, a call that fails: there is a token that the vocabulary does not have, the log grows by two more
lines, about this token, and the call fails as it would without messages; if one of these lines cannot be printed, the
behaviour is undefined. -/
theorem C101_failure (e : Roberta.Env) (r : RVocab) (l : List (List Nat)) (hv : Holds r.v l)
    (setOrder : List (List Nat) → List (List Nat)) (text : List Nat)
    (hok : Roberta.tokenize e r setOrder text = .ok none) (s : St) (hs : s.level = 1) :
    ∃ t ms, t ∉ l ∧ Complains e.ws t ms ∧
      (s.file = none ∨ (∀ m ∈ ms, ∃ t, Prints m.2 t) → ∃ s', Roberta.tokenizeL e r setOrder text s = .ok (none, s') ∧
        LinesWritten s (startLines l.length r.special ++ ms) s') ∧
      (∀ f, s.file = some f → (∃ m ∈ ms, ∀ t, ¬ Prints m.2 t) → Roberta.tokenizeL e r setOrder text s = .ub) := by
  obtain ⟨ls, h, _, ht⟩ := tokenizeL_notes e r setOrder text
  obtain ⟨t, ms, h1, h2, h3⟩ := tale_info (ht _ hok)
  refine ⟨t, ms, ?_, h1, ?_, ?_⟩
  · intro hm
    obtain ⟨i, hi⟩ := List.getElem?_of_mem hm
    have h4 := tokenToId_mem hv t i hi
    have := (List.getElem?_eq_some_iff.mp hi).1
    have := hv.2.2.1
    omega
  · intro hp
    obtain ⟨s', g1, g2⟩ := (linesWritten_outcome ls s).1 (hp.imp id fun hp m hm => by
      rw [heard_filter ls hs, h3] at hm
      obtain ⟨x, hx, rfl⟩ := List.mem_map.mp hm
      have hx := (List.mem_filter.mp hx).1
      rcases List.mem_append.mp hx with hx | hx
      · refine prints_no_percent _ ?_
        unfold startLines at hx
        rcases List.mem_append.mp hx with hx | hx
        · exact specialLines_pct _ _ x hx
        · rcases List.mem_cons.mp hx with rfl | hx
          · decide
          · exact specialLines_pct _ _ x hx
      · exact hp x hx)
    refine ⟨s', by rw [h s, g1, ok_bind', hok, ok_bind'], ?_⟩
    rw [← hv.1, ← h3]
    exact g2.info hs
  · rintro f hf ⟨m, hm, hno⟩
    have hm1 : (1 : Int) ≤ m.1 := by
      have : m ∈ ms.filter (fun l => (1 : Int) ≤ l.1) := by rw [complains_low h1]; exact hm
      simpa using (List.mem_filter.mp this).2
    have := (linesWritten_outcome ls s).2 f hf ⟨m.2, by
      rw [heard_filter ls hs, h3]
      unfold heard
      refine List.mem_map.mpr ⟨m, List.mem_filter.mpr ⟨List.mem_append.mpr (Or.inr hm), ?_⟩, rfl⟩
      rw [hs]
      simpa using hm1, hno⟩
    rw [h s, this]
    rfl

/-- C101 at every level, for texts without `%` that are tokenized: the ids are the same and of the log nothing changes
but the end of the file, to which some lines are added; those not only for the level DEBUG are the ones of
`C101_info`.  (Missing: texts with a percent sign; see `C101_percent_counterexample`.) -/
theorem C101_ids_partial (e : Roberta.Env) (r : RVocab) (setOrder : List (List Nat) → List (List Nat))
    (text ids : List Nat) (ht : 37 ∉ text) (hok : Roberta.tokenize e r setOrder text = .ok (some ids)) (s : St) :
    ∃ ls s', Roberta.tokenizeL e r setOrder text s = .ok (some ids, s') ∧ LinesWritten s ls s' ∧
      ls.filter (fun l => 1 ≤ l.1) = startLines r.v.idToTok.length r.special := by
  obtain ⟨ls, h, hl, hx⟩ := tokenizeL_notes e r setOrder text
  obtain ⟨ds, ms, rfl, h1, h2, h3⟩ := hx _ hok
  simp only at h3
  subst h3
  rw [List.append_nil] at h hl
  obtain ⟨s', g1, g2⟩ := (linesWritten_outcome ds s).1 (Or.inr fun m hm => by
    obtain ⟨x, hx, rfl⟩ := List.mem_map.mp hm
    exact prints_no_percent _ (h2 ht x (List.mem_filter.mp hx).1))
  exact ⟨ds, s', by rw [h s, g1, ok_bind', hok, ok_bind'], g2, h1⟩

/-- The log of the examples: a file, with a level. -/
def robLog (level : Int) : St := ⟨level, some 0, fun _ => []⟩

/-- Whether the outcome is undefined behaviour. -/
def isUb {α : Type} : Res α → Bool
  | .ub => true
  | _ => false

theorem of_isUb {α : Type} {r : Res α} (h : isUb r = true) : r = .ub := by
  cases r with
  | ub => rfl
  | _ => cases h

/-- An example: the text `ab` is tokenized, so the hypotheses can be met. -/
example : ∃ r ids, init true robMeta (some robMerge) id robV = .ok (some r) ∧ Holds r.v robTokens ∧
    Roberta.tokenize (robEnv true) r id [97, 98] = .ok (some ids) ∧ 37 ∉ [97, 98] := by
  obtain ⟨b, hb⟩ := rob_init true
  obtain ⟨ids, h, _⟩ := C32_spelled_partial robMeta (some robMerge) id (fun m => List.Perm.refl m) robV robTokens robCps
    robV_holds rob_utf8 (robEnv true) ⟨robV, robSpecial, b⟩ hb rob_specials id (fun _ _ => Iff.rfl) [97, 98]
    (by decide) ⟨(robEnv_ok true).1, (robEnv_ok true).2, by decide⟩ (by decide) (fun _ => by decide)
    (by simp only [ByteComplete]; decide +kernel) (by simp only; decide +kernel)
  exact ⟨_, ids, hb, robV_holds, h, by decide⟩

/-- C101, the errors of a call that fails are not seen at the default level: a vocabulary whose mask token is not
ASCII. -/
theorem C101_silent_counterexample :
    ∃ r, init true ⟨none, some 11, none, none, none, none, none⟩ (some robMerge) id robV = .ok (some r) ∧
      Roberta.tokenizeL (robEnv true) r id (utf8Encode [0xc3]) (robLog 2) = .ok (none, robLog 2) := by
  obtain ⟨r, h1, _, h2⟩ := C65_nonascii_counterexample true
  exact ⟨r, h1, by rw [C101_default _ _ _ _ _ (by decide), h2]; rfl⟩

/-- C101 fails for texts with a percent sign at the level DEBUG: they are used as formats of `fprintf`. -/
theorem C101_percent_counterexample :
    ∃ r, init true robMeta (some robMerge) id robV = .ok (some r) ∧
      Roberta.tokenizeL (robEnv true) r id (ascii "100%") (robLog 0) = .ub := by
  obtain ⟨b, hb⟩ := rob_init true
  refine ⟨_, hb, of_isUb ?_⟩
  have : isUb ((init true robMeta (some robMerge) id robV).bind fun o => match o with
      | some r => Roberta.tokenizeL (robEnv true) r id (ascii "100%") (robLog 0)
      | none => .hang) = true := by decide +kernel
  rw [hb, ok_bind'] at this
  simpa only using this

/-! ## C102 -/

/-- What is cached for a text. -/
theorem not_cached {b : Bpe.Bpe} {text : Str} {cache : Option (List (Str × List Str))}
    (h : ∀ m, cache = some m → b.dropout = 0 → Bpe.find m text = none) : cached b text cache = none := by
  cases cache with
  | none => rfl
  | some m =>
    by_cases hd : b.dropout = 0
    · simpa [cached, hd] using h m rfl hd
    · simp [cached, hd]

theorem bpeOf_lines {b : Bpe.Bpe} {v : Bpe.Env} {text : Str} {cache : Option (List (Str × List Str))} (hne : text ≠ [])
    (hc : cached b text cache = none) {toks : List Str} (ht : Bpe.tokensOf b v text = .ok toks) :
    bpeOf b v text cache = bpeLines text (startIds b text) (Bpe.wordMerges b v text) := by
  unfold bpeOf bpeLines
  rw [if_neg hne, hc, ht]
  simp only [runOf, Bpe.idText_spaced, startOf, bpeStart, startIds, Bpe.wordMerges]
  simp only [List.append_assoc, List.cons_append, List.nil_append]
  congr 4
  refine List.map_congr_left fun m _ => ?_
  simp [mergeLine]

/-- What byte pair encoding of a text says and returns, if `ids` are the ids it ends with and `ms` the merges. -/
def Logged (b : Bpe.Bpe) (v : Bpe.Env) (text : Str) (result : List Str) (cache : Option (List (Str × List Str)))
    (ms : List (Nat × Nat × Nat)) (ids : List Nat) : Prop :=
  ∃ cache', Bpe.tokenize b v text result cache = .ok (result ++ ids.map b.shown, cache') ∧ ∀ s : St,
    (s.file = none ∨ (∀ m ∈ heard s.level (bpeLines text (startIds b text) ms), ∃ t, Prints m t) →
      ∃ s', Bpe.tokenizeL b v text result cache s = .ok ((result ++ ids.map b.shown, cache'), s') ∧
        LinesWritten s (bpeLines text (startIds b text) ms) s') ∧
    (∀ f, s.file = some f → (∃ m ∈ heard s.level (bpeLines text (startIds b text) ms), ∀ t, ¬ Prints m t) →
      Bpe.tokenizeL b v text result cache s = .ub)

theorem logged_of {b : Bpe.Bpe} {v : Bpe.Env} {text : Str} {result : List Str}
    {cache : Option (List (Str × List Str))} (hne : text ≠ [])
    (hc : ∀ m, cache = some m → b.dropout = 0 → Bpe.find m text = none) {S : List Bpe.Sym} {n : Nat}
    (hm : Bpe.mergeAll ⟨b.merge, b.dropout, v.draw, v.pick⟩ v.fuel (Bpe.initialSymbols b text) = .ok (S, n)) :
    Logged b v text result cache (Bpe.wordMerges b v text) (S.map (·.id)) := by
  have ht : Bpe.tokensOf b v text = .ok ((S.map (·.id)).map b.shown) := by
    unfold Bpe.tokensOf
    rw [hm, ok_bind', Bpe.wordToTokens_eq]
  have hcc := not_cached hc
  have htok : ∃ cache', Bpe.tokenize b v text result cache = .ok (result ++ (S.map (·.id)).map b.shown, cache') := by
    unfold Bpe.tokenize
    rw [if_neg hne]
    cases cache with
    | none =>
      simp only
      rw [ht, ok_bind']
      exact ⟨_, rfl⟩
    | some m =>
      simp only
      by_cases hd : b.dropout = 0
      · simp only [if_pos hd, hc m rfl hd]
        rw [ht, ok_bind']
        exact ⟨_, rfl⟩
      · simp only [if_neg hd]
        rw [ht, ok_bind']
        exact ⟨_, rfl⟩
  obtain ⟨cache', htok⟩ := htok
  have hs := bpeL_says b v text result cache
  rw [bpeOf_lines hne hcc ht, htok] at hs
  refine ⟨cache', htok, fun s => ⟨fun hp => ?_, fun f hf hp => ?_⟩⟩
  · obtain ⟨s', h1, h2⟩ := (linesWritten_outcome _ s).1 hp
    exact ⟨s', by rw [hs s, h1, ok_bind', ok_bind'], h2⟩
  · rw [hs s, (linesWritten_outcome _ s).2 f hf hp]
    rfl

/-- C102: the log of byte pair encoding is a derivation.  It shows the text, the ids of its characters, and a list of
merges, each found in the merge table and applied to the word that the ones before lead to; what they lead to are the
ids of the tokens returned.  For any queue, with or without dropout. -/
theorem C102_trace (b : Bpe.Bpe) (v : Bpe.Env) (hp : AnyPick v.pick) (text : Str) (hne : text ≠ [])
    (hf : 9 * codepoints text * codepoints text ≤ v.fuel) (result : List Str)
    (cache : Option (List (Str × List Str)))
    (hc : ∀ m, cache = some m → b.dropout = 0 → Bpe.find m text = none) :
    ∃ ms ids, Trace (table b) (startIds b text) ms ids ∧ Logged b v text result cache ms ids := by
  obtain ⟨n, S, _, hm⟩ := C19_terminates b v.draw v.pick hp text v.fuel hf
  exact ⟨_, _, Bpe.word_trace b v hp text hm, logged_of hne hc hm⟩

/-- C102 (partial, as C22: different tokens have different ids) without dropout and with a correct queue: the merges
shown are those of the textbook algorithm, each of lowest rank and leftmost, until no pair is left that can be
merged. -/
theorem C102_reference_partial (b0 b : Bpe.Bpe) (h0 : GoodConfig b0) (vocab : List (Str × Nat))
    (ms : List (Nat × Nat)) (hv : OneToOne vocab) (hload : b0.loadVocab vocab ms = .ok (true, b))
    (hd : b0.dropout ≤ 0) (v : Bpe.Env) (hp : RightPick v.pick) (text : Str) (hne : text ≠ [])
    (ht : ∀ u ∈ text, u < 0x10000) (hf : 9 * codepoints text * codepoints text ≤ v.fuel) (result : List Str)
    (cache : Option (List (Str × List Str)))
    (hc : ∀ m, cache = some m → b.dropout = 0 → Bpe.find m text = none) :
    ∃ ts ids, RefTrace (table b) (startIds b text) ts ids ∧ Normal (table b) ids ∧
      Logged b v text result cache ts ids := by
  obtain ⟨n, S, hm, hr⟩ := C22_reference_partial b0 b h0 vocab ms hv hload hd v.draw v.pick hp text ht v.fuel hf
  obtain ⟨hl, f1, f2, f3, f4, f5⟩ := Bpe.loaded_of_load h0.empty hv.keys hv.ids hv.units hload
  obtain ⟨pc, p1, p2⟩ := h0.pre
  obtain ⟨sc, s1, s2⟩ := h0.suf
  obtain ⟨uc, u1, u2⟩ := h0.unk
  exact ⟨_, _, Bpe.word_refTrace hl hv.ids v (by rw [f2]; exact hd) hp pc sc uc (by rw [f4, p1]) p2
    (by rw [f5, s1]) s2 (by rw [f1, u1]) u2 (fun h => h0.lens p1 p2 u1 u2 h) text ht hm, hr.2, logged_of hne hc hm⟩

theorem split_unique {pre pre' : List Nat} {a b a' b' : Nat} {post post' : List Nat}
    (h : pre ++ a :: b :: post = pre' ++ a' :: b' :: post') (hl : pre.length = pre'.length) :
    pre = pre' ∧ a = a' ∧ b = b' ∧ post = post' := by
  obtain ⟨h1, h2⟩ := List.append_inj h hl
  injection h2 with h2 h3
  injection h3 with h3 h4
  exact ⟨h1, h2, h3, h4⟩

/-- C102: there is only one such list of merges, so the log does not depend on the queue or on random numbers. -/
theorem C102_unique (tbl : MergeTable Nat) (w : List Nat) (ms ms' : List (Nat × Nat × Nat)) (v v' : List Nat)
    (h : RefTrace tbl w ms v) (hn : Normal tbl v) (h' : RefTrace tbl w ms' v') (hn' : Normal tbl v') :
    ms = ms' ∧ v = v' := by
  induction h generalizing ms' v' with
  | done w =>
    cases h' with
    | done => exact ⟨rfl, rfl⟩
    | merge ht _ _ => rw [hn _ _ _ _ rfl] at ht; cases ht
  | @merge pre a b post r n ms v ht hmin hrest ih =>
    generalize hw : pre ++ a :: b :: post = w at h'
    cases h' with
    | done => rw [hn' _ _ _ _ hw.symm] at ht; cases ht
    | @merge pre' a' b' post' r' n' ms' _ ht' hmin' hrest' =>
      have h1 := hmin pre' a' b' post' r' n' hw ht'
      have h2 := hmin' pre a b post r n hw.symm ht
      obtain ⟨rfl, rfl, rfl, rfl⟩ := split_unique hw (by omega)
      rw [ht] at ht'
      cases ht'
      obtain ⟨g1, g2⟩ := ih _ _ hn hrest' hn'
      exact ⟨by rw [g1], g2⟩

/-- C102: of a text that is empty or was tokenized before only the start is shown. -/
theorem C102_cached (b : Bpe.Bpe) (v : Bpe.Env) (text : Str) (result toks : List Str)
    (cache : Option (List (Str × List Str)))
    (h : text = [] ∧ toks = [] ∨ text ≠ [] ∧ ∃ m, cache = some m ∧ b.dropout = 0 ∧ Bpe.find m text = some toks) (s : St)
    (hp : s.file = none ∨ 0 < s.level ∨ 37 ∉ text) :
    ∃ s', Bpe.tokenizeL b v text result cache s = .ok ((result ++ toks, cache), s') ∧
      LinesWritten s (bpeStart text) s' := by
  have hs := bpeL_says b v text result cache
  have h1 : bpeOf b v text cache = bpeStart text ∧ Bpe.tokenize b v text result cache = .ok (result ++ toks, cache) := by
    rcases h with ⟨rfl, rfl⟩ | ⟨hne, m, rfl, hd, hf⟩
    · exact ⟨by simp [bpeOf, startOf, bpeStart], by simp [Bpe.tokenize]⟩
    · refine ⟨?_, ?_⟩
      · unfold bpeOf
        simp [cached, hne, hd, hf, startOf, bpeStart]
      · unfold Bpe.tokenize
        rw [if_neg hne]
        simp only [if_pos hd, hf]
  rw [h1.1, h1.2] at hs
  have hpr : s.file = none ∨ ∀ m ∈ heard s.level (bpeStart text), ∃ t, Prints m t := by
    rcases hp with hp | hp | hp
    · exact Or.inl hp
    · refine Or.inr fun m hm => ?_
      obtain ⟨x, hx, _⟩ := List.mem_map.mp hm
      obtain ⟨h2, h3⟩ := List.mem_filter.mp hx
      simp only [bpeStart, List.mem_cons, List.not_mem_nil, or_false, decide_eq_true_eq] at h2 h3
      rcases h2 with rfl | rfl <;> (simp only [line] at h3; omega)
    · refine Or.inr fun m hm => ?_
      obtain ⟨x, hx, rfl⟩ := List.mem_map.mp hm
      have h2 := (List.mem_filter.mp hx).1
      simp only [bpeStart, List.mem_cons, List.not_mem_nil, or_false] at h2
      rcases h2 with rfl | rfl
      · exact prints_no_percent _ (by decide)
      · refine prints_no_percent _ ?_
        simp only [line, List.mem_append, not_or]
        exact ⟨⟨by decide, unitText_no_percent _ hp⟩, by decide⟩
  obtain ⟨s', g1, g2⟩ := (linesWritten_outcome _ s).1 hpr
  exact ⟨s', by rw [hs s, g1, ok_bind', ok_bind'], g2⟩

/-- The bytes in file 0 after a call. -/
def shownBy {α : Type} : Res (α × St) → Option (List Nat)
  | .ok (_, s) => some (s.out 0)
  | _ => none

/-- An example: the log of the text `abc`. -/
example : shownBy (Bpe.tokenizeL (exBpe 0 false) ⟨fun _ => 0, heapPick, 100⟩ [97, 98, 99] [] none (robLog 0)) =
    some (bytes! "start BPE tokenization\n  text = \"abc\"\n  id = (0 1 2)\n  * merge (1, 2) -> 4\n" ++
      bytes! "  * merge (0, 4) -> 5\nfinish BPE tokenization\n") := by decide +kernel

example : AnyPick heapPick ∧ RightPick heapPick ∧ GoodConfig (Bpe.Bpe.new [63] 0 false) ∧ OneToOne exBpeVocab ∧
    (Bpe.Bpe.new [63] 0 false).loadVocab exBpeVocab [(1, 2), (0, 1), (0, 4)] = .ok (true, exBpe 0 false) ∧
    ([97, 98, 99] : Str) ≠ [] ∧ 9 * codepoints [97, 98, 99] * codepoints [97, 98, 99] ≤ 100 :=
  ⟨heapPick_right.any, heapPick_right, ⟨by decide, ⟨[], rfl, by simp⟩, ⟨[], rfl, by simp⟩,
    ⟨[63], rfl, by simp [IsScalar]⟩, fun _ => by decide⟩, exVocab_oneToOne, exBpe_load 0 false, by decide, by decide⟩

end Berts.Props
