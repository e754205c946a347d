import Verif.Proofs.RobertaStory

/-! # Property C116: the whole log of RoBERTa's tokenizer -/

namespace Berts.Props

open Berts.Unicode Berts.Vocab Berts.Roberta Berts.Spec Berts.Log Berts.Format
open Berts.Bpe (Str)
open Berts.Load (LogM Says says_say says_pure says_lift)
open Berts.Bert (ok_bind')

/-- Two accounts of the same call. -/
theorem told_outcome {α : Type} {f : LogM α} {r : Res α} {a : α} {ls ls' : List (Int × List Nat)} (h : Says f r ls)
    (h' : Says f (.ok a) ls') : r = .ok a := by
  let s : St := ⟨0, none, fun _ => []⟩
  obtain ⟨s1, g1, _⟩ := (linesWritten_outcome ls s).1 (Or.inl rfl)
  obtain ⟨s2, g2, _⟩ := (linesWritten_outcome ls' s).1 (Or.inl rfl)
  have e1 := h s
  rw [h' s, g1, g2, ok_bind', ok_bind', ok_bind'] at e1
  cases r with
  | ok b =>
    rw [ok_bind'] at e1
    injection e1 with e1
    injection e1 with e1
    rw [e1]
  | ub => cases e1
  | abort => cases e1
  | hang => cases e1

/-- The lines of a call: those about special tokens that are not in the vocabulary (none, if the special tokens are
ASCII), the start, the pieces, what is told about them, and the end. -/
def callLines (n : Nat) (sp : Special) (pieces : List (Bool × List Nat)) (ls : List (Int × List Nat)) :
    List (Int × List Nat) :=
  specialLines n [sp.bos, sp.eos, sp.cls, sp.mask, sp.pad, sp.sep, sp.unk] ++
    line 1 (bytes! "tokenization start") :: (pieceLines pieces ++ (specialLines n [sp.mask] ++
      (ls ++ [line 0 (bytes! "finish tokenization")])))

/-- The common part of the theorems below. -/
theorem story (m : Meta) (merge : Option MergeTensor)
    (order : List (Str × Nat) → List (Str × Nat)) (hord : ∀ m, (order m).Perm m) (v : VocabT)
    (l tcs : List (List Nat)) (hv : Holds v l) (hu : Utf8Vocab l tcs) (e : Roberta.Env) (r : RVocab)
    (hinit : init e.signed m merge order v = .ok (some r)) (hsp : AsciiSpecials l r.special)
    (hpick : RightPick e.bpe.pick) (hmax : ∀ t, merge = some t → t.data.length ≤ 3 * 2 ^ 32) :
    ∃ data tbl, merge = some ⟨true, 1, data⟩ ∧ IdTable l data tbl ∧
      ∀ (setOrder : List (List Nat) → List (List Nat)), SetOrder setOrder →
      ∀ cs, (∀ c ∈ cs, IsScalar c) → EnvOK e (utf8Encode cs).length → (utf8Encode cs).length ≤ e.fuel →
        (e.signed = true → ∀ c ∈ cs, c < 0x80) →
      ∃ pieces jobs ls ids, Cut (specialStrings l r.special) (utf8Encode cs) pieces ∧
        Jobs e.ws e.matches_ (l[r.special.mask]?.getD []) pieces jobs ∧
        Told l tbl r.special.unk e.ws [([], [])] jobs ls ids ∧
        Says (Roberta.tokenizeL e r setOrder (utf8Encode cs)) (.ok (some ids))
          (callLines l.length r.special pieces ls) := by
  obtain ⟨hrv, hib⟩ : r.v = v ∧ initBpe merge order v r.special = .ok (some r) := by
    unfold init at hinit
    split at hinit
    · cases hinit
    · have := initBpe_inited hord hv hu hinit
      exact ⟨this.2.1, by rw [this.2.2]; exact hinit⟩
  have hv' : Holds r.v l := hrv ▸ hv
  obtain ⟨us, hun, hne, hua⟩ := hsp r.special.unk (by simp [specialIds])
  obtain ⟨data, hm, hr⟩ := ready hord hv hu hib hun hne hua hmax
  refine ⟨data, table r.bpe, hm, hr.table, ?_⟩
  intro setOrder ho cs hcs he hf hs
  have hspec := specialStrings_spec hsp
  have hk : [] ∉ setOrder (specialStrings l r.special) := fun h => (hspec [] ((ho _ _).mp h)).2.1 rfl
  obtain ⟨pieces, h1, h2⟩ := splitLoop_ok _ hk e.fuel (utf8Encode cs) hf
  have h2 := Cut.congr (ho _) h2
  obtain ⟨s, hmk, hm2, hm3⟩ := hsp r.special.mask (by simp [specialIds])
  have hasc : ∀ p ∈ pieces, p.1 = true → p.2 ≠ [] ∧ ∀ c ∈ p.2, c < 0x80 :=
    fun p hp ht => (hspec p.2 (h2.special p hp ht)).2
  obtain ⟨jobs, ls, ids, k1, k2, k3⟩ := pieceLoopL_told hr hv' e he.regex hpick he.fuel s pieces
    (fun p hp ht => ⟨(hspec p.2 (h2.special p hp ht)).1, (hasc p hp ht).2⟩)
    (by
      intro p hp ht
      obtain ⟨c1, g1, g2⟩ := plain_utf8 pieces cs h2.concat hasc h2.maximal p hp ht
      have hsub : ∀ x ∈ p.2, x ∈ utf8Encode cs := by
        intro x hx
        rw [← h2.concat]
        exact List.mem_flatten.mpr ⟨p.2, List.mem_map_of_mem hp, hx⟩
      refine ⟨⟨c1, g1, fun c hc => hcs c (g2 c hc)⟩, ?_, ?_⟩
      · rw [← h2.concat]
        exact (List.sublist_flatten_of_mem (List.mem_map_of_mem (f := (·.2)) hp)).length_le
      · intro h x hx
        have := hsub x hx
        rw [utf8_ascii cs (hs h)] at this
        exact hs h x this) [] [([], [])] (cacheIs_nil _ _) []
  refine ⟨pieces, jobs, ls, ids, h2, by rw [hmk]; exact k2, k3, ?_⟩
  obtain ⟨l1, a1, _, a2⟩ := specialTokensL_notes r.v r.special
  rw [specialTokens_ok hv' hsp] at a1
  have a2 := a2 _ (specialTokens_ok hv' hsp)
  obtain ⟨l2, b1, _, b2⟩ := idToTokenL_notes r.v r.special.mask
  rw [ascii_special hv' hmk hm3] at b1
  have b2 := b2 _ (ascii_special hv' hmk hm3)
  subst a2 b2
  rw [hv'.1] at a1
  unfold idLines at b1
  rw [hv'.1] at b1
  unfold Roberta.tokenizeL tokenizeWithL callLines
  refine a1.then ?_
  refine (says_say .info _).then ?_
  rw [h1]
  refine (says_lift (Res.ok pieces)).then ?_
  refine (pieceLines_says pieces).then (b1.then (k1.then ?_))
  simp only [List.nil_append]
  exact (says_say .debug _).then (ls' := []) (says_pure _)

/-- C116 without the log (partial: signed `char` only with ASCII texts): every text in UTF-8 is tokenized, even one with
characters that are not in the vocabulary, which become the unknown token.  This is C71 without the assumption about
the alphabet of the text. -/
theorem C116_total_partial (m : Meta) (merge : Option MergeTensor)
    (order : List (Str × Nat) → List (Str × Nat)) (hord : ∀ m, (order m).Perm m) (v : VocabT)
    (l tcs : List (List Nat)) (hv : Holds v l) (hu : Utf8Vocab l tcs) (e : Roberta.Env) (r : RVocab)
    (hinit : init e.signed m merge order v = .ok (some r)) (hsp : AsciiSpecials l r.special)
    (hpick : RightPick e.bpe.pick) (hmax : ∀ t, merge = some t → t.data.length ≤ 3 * 2 ^ 32) :
    ∃ data tbl, merge = some ⟨true, 1, data⟩ ∧ IdTable l data tbl ∧
      ∀ (setOrder : List (List Nat) → List (List Nat)), SetOrder setOrder →
      ∀ cs, (∀ c ∈ cs, IsScalar c) → EnvOK e (utf8Encode cs).length → (utf8Encode cs).length ≤ e.fuel →
        (e.signed = true → ∀ c ∈ cs, c < 0x80) →
      ∃ pieces jobs ls ids, Roberta.tokenize e r setOrder (utf8Encode cs) = .ok (some ids) ∧
        Cut (specialStrings l r.special) (utf8Encode cs) pieces ∧
        Jobs e.ws e.matches_ (l[r.special.mask]?.getD []) pieces jobs ∧
        Told l tbl r.special.unk e.ws [([], [])] jobs ls ids := by
  obtain ⟨data, tbl, h1, h2, h3⟩ := story m merge order hord v l tcs hv hu e r hinit hsp hpick hmax
  refine ⟨data, tbl, h1, h2, fun setOrder ho cs hcs he hf hs => ?_⟩
  obtain ⟨pieces, jobs, ls, ids, g1, g2, g3, g4⟩ := h3 setOrder ho cs hcs he hf hs
  obtain ⟨ls', n1, _, _⟩ := tokenizeL_notes e r setOrder (utf8Encode cs)
  exact ⟨pieces, jobs, ls, ids, told_outcome n1 g4, g1, g2, g3⟩

/-- C116 (partial: no percent sign in the text, see `C101_percent_counterexample`; signed `char` only with ASCII texts):
the log at every level.  The lines are those of the story that leads to the ids: the pieces of the text, the special
tokens with their ids, and for each word its bytes, the ids of its characters and the merges of the textbook algorithm,
which end in the ids of its tokens; a word that occurs again is only named. -/
theorem C116_log_partial (m : Meta) (merge : Option MergeTensor)
    (order : List (Str × Nat) → List (Str × Nat)) (hord : ∀ m, (order m).Perm m) (v : VocabT)
    (l tcs : List (List Nat)) (hv : Holds v l) (hu : Utf8Vocab l tcs) (e : Roberta.Env) (r : RVocab)
    (hinit : init e.signed m merge order v = .ok (some r)) (hsp : AsciiSpecials l r.special)
    (hpick : RightPick e.bpe.pick) (hmax : ∀ t, merge = some t → t.data.length ≤ 3 * 2 ^ 32) :
    ∃ data tbl, merge = some ⟨true, 1, data⟩ ∧ IdTable l data tbl ∧
      ∀ (setOrder : List (List Nat) → List (List Nat)), SetOrder setOrder →
      ∀ cs, (∀ c ∈ cs, IsScalar c) → EnvOK e (utf8Encode cs).length → (utf8Encode cs).length ≤ e.fuel →
        (e.signed = true → ∀ c ∈ cs, c < 0x80) → 37 ∉ cs → ∀ s : St,
      ∃ pieces jobs ls ids s', Cut (specialStrings l r.special) (utf8Encode cs) pieces ∧
        Jobs e.ws e.matches_ (l[r.special.mask]?.getD []) pieces jobs ∧
        Told l tbl r.special.unk e.ws [([], [])] jobs ls ids ∧
        Roberta.tokenizeL e r setOrder (utf8Encode cs) s = .ok (some ids, s') ∧
        LinesWritten s (line 1 (bytes! "tokenization start") :: pieceLines pieces ++ ls ++
          [line 0 (bytes! "finish tokenization")]) s' := by
  obtain ⟨data, tbl, h1, h2, h3⟩ := story m merge order hord v l tcs hv hu e r hinit hsp hpick hmax
  refine ⟨data, tbl, h1, h2, fun setOrder ho cs hcs he hf hs hpc s => ?_⟩
  obtain ⟨pieces, jobs, ls, ids, g1, g2, g3, g4⟩ := h3 setOrder ho cs hcs he hf hs
  have hsl : ∀ is : List Nat, (∀ i ∈ is, i ∈ specialIds r.special) → specialLines l.length is = [] := by
    intro is his
    unfold specialLines
    rw [List.map_eq_nil_iff, List.filter_eq_nil_iff]
    intro i hi
    obtain ⟨t, ht, _⟩ := hsp i (his i hi)
    have := (List.getElem?_eq_some_iff.mp ht).1
    simp only [decide_eq_true_eq]
    omega
  have hcl : callLines l.length r.special pieces ls = line 1 (bytes! "tokenization start") :: pieceLines pieces ++ ls ++
      [line 0 (bytes! "finish tokenization")] := by
    unfold callLines
    rw [hsl _ (by simp [specialIds]), hsl _ (by simp [specialIds])]
    simp
  rw [hcl] at g4
  have hpp : ∀ p ∈ pieces, 37 ∉ p.2 := by
    intro p hp h
    apply utf8_pct hpc
    rw [← g1.concat]
    exact List.mem_flatten.mpr ⟨p.2, List.mem_map_of_mem hp, h⟩
  obtain ⟨s', w1, w2⟩ := (linesWritten_outcome (line 1 (bytes! "tokenization start") :: pieceLines pieces ++ ls ++
      [line 0 (bytes! "finish tokenization")]) s).1 (Or.inr fun x hx => by
    obtain ⟨y, hy, rfl⟩ := List.mem_map.mp hx
    have hy := (List.mem_filter.mp hy).1
    refine prints_no_percent _ ?_
    simp only [List.cons_append, List.mem_cons, List.mem_append, List.not_mem_nil, or_false] at hy
    rcases hy with rfl | (hy | hy) | rfl
    · decide
    · exact pieceLines_pct hpp y hy
    · exact told_pct g3 (jobs_clean g2 hpp) y hy
    · decide)
  exact ⟨pieces, jobs, ls, ids, s', g1, g2, g3, by rw [g4 s, w1, ok_bind', ok_bind'], w2⟩

/-! ## The story is determined -/

/-- C116: there is only one merge table of a file. -/
theorem C116_table_unique (l : List (List Nat)) (data : List Nat) (tbl tbl' : MergeTable Nat) (h : IdTable l data tbl)
    (h' : IdTable l data tbl') : tbl = tbl' := by
  funext i j
  apply Option.ext
  rintro ⟨r, n⟩
  rw [h i j r n, h' i j r n]

/-- C116: the pieces determine what is done. -/
theorem C116_jobs_unique (ws : Nat → Bool) (f : List Nat → List (Nat × Nat)) (mask : List Nat)
    (pieces : List (Bool × List Nat)) (jobs jobs' : List Job) (h : Jobs ws f mask pieces jobs)
    (h' : Jobs ws f mask pieces jobs') : jobs = jobs' := by
  induction pieces generalizing jobs jobs' with
  | nil => rw [show jobs = [] from h, show jobs' = [] from h']
  | cons p ps ih =>
    obtain ⟨sp, s⟩ := p
    cases sp with
    | true =>
      obtain ⟨rest, rfl, h1⟩ := h
      obtain ⟨rest', rfl, h1'⟩ := h'
      rw [ih _ _ h1 h1']
    | false =>
      obtain ⟨cs, words, rest, a1, a2, a3, a4, rfl, a5⟩ := h
      obtain ⟨cs', words', rest', b1, b2, b3, b4, rfl, b5⟩ := h'
      have hcs : cs = cs' := utf8Encode_inj a1 b1 (by rw [a2, b2])
      subst hcs
      have hw : words = words' := map_utf16_inj (fun c hc => a1 c (a3 ▸ hc)) (fun c hc => a1 c (b3 ▸ hc))
        (by rw [a4, b4])
      rw [hw, ih _ _ a5 b5]

/-- C116: what is done determines the log and the ids. -/
theorem C116_told_unique (l : List (List Nat)) (hn : l.Nodup) (tbl : MergeTable Nat) (unk : Nat) (ws : Nat → Bool)
    (seen : List (List Nat × List Nat)) (hs : ∀ w a b, (w, a) ∈ seen → (w, b) ∈ seen → a = b) (jobs : List Job)
    (ls ls' : List (Int × List Nat)) (ids ids' : List Nat) (h : Told l tbl unk ws seen jobs ls ids)
    (h' : Told l tbl unk ws seen jobs ls' ids') : ls = ls' ∧ ids = ids' := by
  induction h generalizing ls' ids' with
  | done => cases h'; exact ⟨rfl, rfl⟩
  | special hi _ ih =>
    cases h' with
    | special hi' ht' =>
      obtain ⟨rfl, rfl⟩ := ih hs _ _ ht'
      have := (idxOf_iff hn _ _).mpr hi
      rw [(idxOf_iff hn _ _).mpr hi'] at this
      cases this
      exact ⟨rfl, rfl⟩
  | again hm _ ih =>
    cases h' with
    | again hm' ht' =>
      obtain ⟨rfl, rfl⟩ := ih hs _ _ ht'
      rw [hs _ _ _ hm hm']
      exact ⟨rfl, rfl⟩
    | fresh hno _ _ _ => exact absurd hm (hno _)
  | @fresh seen bs ms out jobs ls ids hno htr hnf _ ih =>
    cases h' with
    | again hm' _ => exact absurd hm' (hno _)
    | @fresh _ _ ms' out' _ ls' ids' _ htr' hnf' ht' =>
      obtain ⟨rfl, rfl⟩ := C102_unique tbl _ _ _ _ _ htr hnf htr' hnf'
      obtain ⟨rfl, rfl⟩ := ih (by
        intro w a b ha hb
        simp only [List.mem_cons, Prod.mk.injEq] at ha hb
        rcases ha with ⟨rfl, rfl⟩ | ha <;> rcases hb with ⟨h1, rfl⟩ | hb
        · rfl
        · exact absurd hb (hno _)
        · exact absurd (h1 ▸ ha) (hno _)
        · exact hs w a b ha hb) _ _ ht'
      exact ⟨rfl, rfl⟩

/-! ## Examples -/

/-- The hypotheses are met by the example vocabulary and the text `ab zzab`; `z` is not in the vocabulary. -/
example (signed : Bool) : ∃ r, init (robEnv signed).signed robMeta (some robMerge) id robV = .ok (some r) ∧
    AsciiSpecials robTokens r.special ∧ RightPick (robEnv signed).bpe.pick ∧ Holds robV robTokens ∧
    Utf8Vocab robTokens robCps ∧ SetOrder id ∧
    (∀ t, some robMerge = some t → t.data.length ≤ 3 * 2 ^ 32) ∧
    (∀ c ∈ ascii "ab zzab", IsScalar c) ∧ EnvOK (robEnv signed) (utf8Encode (ascii "ab zzab")).length ∧
    (utf8Encode (ascii "ab zzab")).length ≤ (robEnv signed).fuel ∧ (∀ c ∈ ascii "ab zzab", c < 0x80) ∧
    37 ∉ ascii "ab zzab" ∧ robTokens.Nodup ∧ ¬ ByteComplete robTokens (utf8Encode (ascii "ab zzab")) := by
  obtain ⟨b, hb⟩ := rob_init signed
  exact ⟨_, hb, rob_specials, heapPick_right, robV_holds, rob_utf8, fun _ _ => Iff.rfl, by rintro t ⟨⟩; decide, by decide,
    ⟨(robEnv_ok signed).1, (robEnv_ok signed).2, by cases signed <;> decide +kernel⟩,
    by cases signed <;> decide +kernel, by decide, by decide,
    by decide +kernel, by simp only [ByteComplete]; decide +kernel⟩

/-- A log at the level DEBUG. -/
example : ((init true robMeta (some robMerge) id robV).bind fun o => match o with
      | some r => (Roberta.tokenizeL (robEnv true) r id (ascii "abz<mask>abz") (robLog 0)).bind fun x =>
          .ok (x.1, x.2.out 0)
      | none => .hang) =
    .ok (some [7, 4, 2, 7, 4],
      bytes! "tokenization start\n  subtexts:\n    \"abz\" \n    \"<mask>\" *\n    \"abz\" \n" ++
      bytes! "start BPE tokenization\n  text = \"abz\"\n  id = (5 6 4)\n  * merge (5, 6) -> 7\n" ++
      bytes! "finish BPE tokenization\nspecial token: <mask> (2)\nstart BPE tokenization\n  text = \"abz\"\n" ++
      bytes! "finish tokenization\n") := by decide +kernel

end Berts.Props
