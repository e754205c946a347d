import Verif.Proofs.BertLog
import Verif.Props.Bert
import Verif.Props.Log

/-! # Property C97: messages while tokenizing -/

namespace Berts.Props

open Berts.Unicode Berts.Trie Berts.Vocab Berts.Bert Berts.Spec Berts.Log Berts.Format

/-- The texts a C library prints for a list of formats. -/
inductive PrintsAll : List (List Nat) → List (List Nat) → Prop
  | nil : PrintsAll [] []
  | cons {m t ms ts} : Prints m t → PrintsAll ms ts → PrintsAll (m :: ms) (t :: ts)

/-- The texts of the lines written at a level. -/
def heard (level : Int) (lines : List (Int × List Nat)) : List (List Nat) :=
  (lines.filter (fun l => level ≤ l.1)).map (·.2)

/-- `s'` is `s` after the lines have been written: nothing but the end of the file changed, to which each line that
the level lets through was appended. -/
structure LinesWritten (s : St) (lines : List (Int × List Nat)) (s' : St) : Prop where
  level : s'.level = s.level
  file : s'.file = s.file
  written : ∀ f, s.file = some f → ∃ ts, PrintsAll (heard s.level lines) ts ∧
    s'.out f = s.out f ++ ts.flatMap (· ++ [10])
  others : ∀ g, s.file ≠ some g → s'.out g = s.out g

theorem linesWritten_outcome (lines : List (Int × List Nat)) (s : St) :
    (s.file = none ∨ (∀ m ∈ heard s.level lines, ∃ t, Prints m t) →
      ∃ s', runLines s lines = .ok s' ∧ LinesWritten s lines s') ∧
    (∀ f, s.file = some f → (∃ m ∈ heard s.level lines, ∀ t, ¬ Prints m t) → runLines s lines = .ub) := by
  induction lines generalizing s with
  | nil =>
    refine ⟨fun _ => ⟨s, rfl, rfl, rfl, fun f _ => ⟨[], .nil, by simp⟩, fun _ _ => rfl⟩, ?_⟩
    rintro f _ ⟨m, hm, _⟩
    simp [heard] at hm
  | cons l lines ih =>
    by_cases hl : s.level ≤ l.1
    · have hh : heard s.level (l :: lines) = l.2 :: heard s.level lines := by simp [heard, hl]
      rw [hh]
      cases hf : s.file with
      | none =>
        have hw : writeIf l.1 s l.2 = .ok s := by simp [writeIf, write, hf]
        rw [runLines_cons, hw, ok_bind']
        obtain ⟨s', h1, h2⟩ := (ih s).1 (Or.inl hf)
        refine ⟨fun _ => ⟨s', h1, h2.level, h2.file, ?_, h2.others⟩, by simp⟩
        intro f h
        rw [hf] at h
        cases h
      | some f =>
        have hw : writeIf l.1 s l.2 = (printfText l.2).bind fun t => .ok (append (append s f t) f [10]) := by
          simp [writeIf, write, hf, hl]
        rw [runLines_cons, hw, bind_assoc']
        by_cases hp : ∃ t, Prints l.2 t
        · obtain ⟨t, ht⟩ := hp
          rw [of_prints ht, ok_bind', ok_bind']
          generalize hs2 : append (append s f t) f [10] = s2
          have hl2 : s2.level = s.level := by rw [← hs2]; rfl
          have hf2 : s2.file = some f := by rw [← hs2]; exact hf
          have ho2 : s2.out f = s.out f ++ t ++ [10] := by rw [← hs2]; simp [append]
          have ho3 : ∀ g, g ≠ f → s2.out g = s.out g := by
            intro g hg
            rw [← hs2]
            simp [append, hg]
          have ih := ih s2
          rw [hl2] at ih
          refine ⟨?_, ?_⟩
          · rintro (h | h)
            · cases h
            · obtain ⟨s', h1, h2⟩ := ih.1 (Or.inr fun m hm => h m (by simp [hm]))
              refine ⟨s', h1, by rw [h2.level, hl2], by rw [h2.file, hf2, hf], ?_, ?_⟩
              · intro f' hf'
                rw [hf] at hf'
                cases hf'
                obtain ⟨ts, g1, g2⟩ := h2.written f hf2
                rw [hl2] at g1
                rw [hh]
                exact ⟨t :: ts, .cons ht g1, by rw [g2, ho2]; simp⟩
              · intro g hg
                rw [hf] at hg
                rw [h2.others g (by rw [hf2]; exact hg)]
                exact ho3 g (by rintro rfl; exact hg rfl)
          · rintro f' _ ⟨m, hm, hno⟩
            rcases List.mem_cons.mp hm with rfl | hm
            · exact absurd ht (hno t)
            · exact ih.2 f hf2 ⟨m, hm, hno⟩
        · rw [printfText_ub l.2 fun t ht => hp ⟨t, ht⟩]
          refine ⟨?_, fun _ _ _ => rfl⟩
          rintro (h | h)
          · cases h
          · exact absurd (h l.2 (by simp)) hp
    · have hh : heard s.level (l :: lines) = heard s.level lines := by simp [heard, hl]
      rw [runLines_cons, writeIf_off hl, ok_bind', hh]
      obtain ⟨g1, g2⟩ := ih s
      refine ⟨fun h => ?_, g2⟩
      obtain ⟨s', h1, h2⟩ := g1 h
      refine ⟨s', h1, h2.level, h2.file, ?_, h2.others⟩
      rw [hh]
      exact h2.written

/-- What is known when a text is tokenized: the vocabulary is not too big, the text is well-formed and normalised
to `ds`, `words` are its words and `rs` the reports about them. -/
structure Reported (u : Icu) (cond : TokInfo) (v : VocabT) (sp : Special) (cs ds : List Nat)
    (words : List (List Nat)) (rs : List (List (List Nat × Nat) × Option (List Nat))) : Prop where
  size : v.idToTok.length ≤ INVALID
  text : ∀ c ∈ cs, IsScalar c
  normal : ∀ c ∈ ds, IsScalar c
  nfc : u.nfc (utf16Encode cs) = utf16Encode ds
  cut : basicTokenize u cond ([sp.cls, sp.mask, sp.pad, sp.sep, sp.unk].map (fun i => unitsOfUtf8 (v.idToToken i)))
    (utf8Encode cs) = .ok words
  reports : (∃ x ∈ v.idToTok.map unitsOfUtf8, marker <+: x) → ReportAll (v.idToTok.map unitsOfUtf8) [] words rs

/-- All lines. -/
def linesOf (cond : TokInfo) (v : VocabT) (sp : Special) (ds : List Nat)
    (rs : List (List (List Nat × Nat) × Option (List Nat))) : List (Int × List Nat) :=
  tokenizeLines (v.idToTok.map unitsOfUtf8) [sp.cls, sp.mask, sp.pad, sp.sep, sp.unk] cond ds rs

theorem tokenize_reported {u : Icu} {cond : TokInfo} {v : VocabT} {sp : Special} {cs ds : List Nat}
    {words : List (List Nat)} {rs : List (List (List Nat × Nat) × Option (List Nat))}
    (h : Reported u cond v sp cs ds words rs) :
    tokenize u cond v sp (utf8Encode cs) =
      .ok (if ∃ x ∈ v.idToTok.map unitsOfUtf8, marker <+: x then rs.flatMap (reportIds sp.unk) else []) := by
  have hlen : (v.idToTok.map unitsOfUtf8).length = v.idToTok.length := by simp
  unfold tokenize
  simp only
  rw [h.cut, Res.bind_ok]
  unfold wordpiece buildTrie
  rw [findNode_hashes]
  by_cases hh : ∃ x ∈ v.idToTok.map unitsOfUtf8, marker <+: x
  · obtain ⟨cont, hc⟩ := hashes_some _ hh
    have htr := traces_report _ (by rw [hlen]; exact h.size) cont hc words [] _ rfl
    rw [hc, if_pos hh]
    simp only
    rw [wordsLoop_traces, reportAll_unique (h.reports hh) _ htr]
    rfl
  · have : walk (buildFrom Node.new 0 (v.idToTok.map unitsOfUtf8)) hashes = none := by
      cases hx : walk (buildFrom Node.new 0 (v.idToTok.map unitsOfUtf8)) hashes with
      | none => rfl
      | some c => exact absurd ((hasPath_build _ hashes (by simp [hashes])).mp (by simp [HasPath, hx])) hh
    rw [this, if_neg hh]
    rfl

/-- C97, every case at every level: if everything to be written can be printed (or there is no file), tokenizing with
messages gives the ids of tokenizing without, and the log grows by exactly the lines listed in the specification;
otherwise the behaviour is undefined. -/
theorem C97_exact {u : Icu} {cond : TokInfo} {v : VocabT} {sp : Special} {cs ds : List Nat}
    {words : List (List Nat)} {rs : List (List (List Nat × Nat) × Option (List Nat))}
    (h : Reported u cond v sp cs ds words rs) (s : St) :
    (s.file = none ∨ (∀ m ∈ heard s.level (linesOf cond v sp ds rs), ∃ t, Prints m t) →
      ∃ ids s', tokenizeL u cond v sp (utf8Encode cs) s = .ok (ids, s') ∧
        tokenize u cond v sp (utf8Encode cs) = .ok ids ∧ LinesWritten s (linesOf cond v sp ds rs) s') ∧
    (∀ f, s.file = some f → (∃ m ∈ heard s.level (linesOf cond v sp ds rs), ∀ t, ¬ Prints m t) →
      tokenizeL u cond v sp (utf8Encode cs) s = .ub) := by
  have he := tokenizeL_eq u cond v h.size sp cs ds h.text h.normal h.nfc words h.cut rs h.reports s
  obtain ⟨g1, g2⟩ := linesWritten_outcome (linesOf cond v sp ds rs) s
  rw [he]
  refine ⟨fun hp => ?_, fun f hf hm => ?_⟩
  · obtain ⟨s', h1, h2⟩ := g1 hp
    unfold linesOf at h1
    rw [h1]
    exact ⟨_, s', rfl, tokenize_reported h, h2⟩
  · have := g2 f hf hm
    unfold linesOf at this
    rw [this]
    rfl

/-- C97: the reports exist and are unique. -/
theorem C97_reports (V : List (List Nat)) (hV : V.length ≤ INVALID) (hh : ∃ x ∈ V, marker <+: x)
    (words : List (List Nat)) : ∃ rs, ReportAll V [] words rs ∧ ∀ rs', ReportAll V [] words rs' → rs' = rs := by
  obtain ⟨cont, hc⟩ := hashes_some V hh
  have h := traces_report V hV cont hc words [] _ rfl
  exact ⟨_, h, reportAll_unique h⟩

/-! ## When nothing can go wrong -/

theorem prints_no_percent : ∀ m : List Nat, 37 ∉ m → ∃ t, Prints m t
  | [], _ => ⟨[], .done⟩
  | c :: m, h => by
    obtain ⟨t, ht⟩ := prints_no_percent m (by intro hm; exact h (by simp [hm]))
    by_cases h0 : c = 0
    · subst h0
      exact ⟨_, .nul m⟩
    · exact ⟨_, .char h0 (by rintro rfl; simp at h) ht⟩

theorem decimal_no_percent (n : Nat) : 37 ∉ decimal n := by
  have : ∀ b ∈ decimal n, 48 ≤ b := by
    induction n using Nat.strongRecOn with
    | ind n ih =>
      intro b hb
      rw [decimal] at hb
      split at hb
      · simp only [List.mem_singleton] at hb; omega
      · rw [List.mem_append, List.mem_singleton] at hb
        rcases hb with hb | hb
        · exact ih (n / 10) (by omega) b hb
        · omega
  intro h
  have := this 37 h
  omega

theorem utf8Of_low {c b : Nat} (h : b ∈ utf8Of c) (hb : b < 0x80) : b = c := by
  unfold utf8Of at h
  split at h
  · simpa using h
  · split at h
    · simp only [List.mem_cons, List.not_mem_nil, or_false] at h; omega
    · split at h <;> simp only [List.mem_cons, List.not_mem_nil, or_false] at h <;> omega

theorem decodeUnits_low {l : List Nat} {c : Nat} (h : some c ∈ decodeUnits l) (hc : c < 0x80) : c ∈ l := by
  fun_induction decodeUnits l with
  | case1 => simp at h
  | case2 u hu => simp at h
  | case3 u hu => simpa using h
  | case4 u v us hp ih =>
    rcases List.mem_cons.mp h with h | h
    · injection h; omega
    · have := ih h; simp [this]
  | case5 u v us hp hu ih =>
    rcases List.mem_cons.mp h with h | h
    · cases h
    · have := ih h
      exact List.mem_cons_of_mem _ this
  | case6 u v us hp hu ih =>
    rcases List.mem_cons.mp h with h | h
    · injection h with h; simp [h]
    · exact List.mem_cons_of_mem _ (ih h)

theorem unitText_no_percent (l : List Nat) (h : 37 ∉ l) : 37 ∉ unitText l := by
  unfold unitText
  split
  · simp
  · intro hm
    obtain ⟨c, hc, hb⟩ := List.mem_flatMap.mp hm
    have := utf8Of_low hb (by omega)
    subst this
    obtain ⟨o, ho, he⟩ := List.mem_filterMap.mp hc
    cases o with
    | none => cases he
    | some c =>
      cases he
      exact h (decodeUnits_low ho (by omega))

theorem report_mem {V : List (List Nat)} {pfx w : List Nat} {parts : List (List Nat × Nat)}
    {left : Option (List Nat)} {pfx' : List Nat} (h : Report V pfx w parts left pfx') :
    (∀ p ∈ parts, ∀ x ∈ p.1, x ∈ w) ∧ (∀ l, left = some l → ∀ x ∈ l, x ∈ w) := by
  induction h with
  | empty => simp
  | fail => simp
  | step pfx p q r id parts left pfx' _ _ _ _ _ _ _ ih =>
    refine ⟨?_, fun l hl x hx => List.mem_append_right _ (ih.2 l hl x hx)⟩
    intro y hy x hx
    rcases List.mem_cons.mp hy with rfl | hy
    · exact List.mem_append_left _ hx
    · exact List.mem_append_right _ (ih.1 y hy x hx)

theorem reportAll_mem {V : List (List Nat)} {pfx : List Nat} {ws : List (List Nat)}
    {rs : List (List (List Nat × Nat) × Option (List Nat))} (h : ReportAll V pfx ws rs) (r) (hr : r ∈ rs) :
    ∃ w ∈ ws, (∀ p ∈ r.1, ∀ x ∈ p.1, x ∈ w) ∧ (∀ l, r.2 = some l → ∀ x ∈ l, x ∈ w) := by
  induction h with
  | nil => simp at hr
  | cons pfx w ws parts left pfx' rs h _ ih =>
    rcases List.mem_cons.mp hr with rfl | hr
    · exact ⟨w, by simp, report_mem h⟩
    · obtain ⟨w', h1, h2⟩ := ih hr
      exact ⟨w', by simp [h1], h2⟩

theorem reportLines_no_percent (r : List (List Nat × Nat) × Option (List Nat))
    (h1 : ∀ p ∈ r.1, 37 ∉ p.1) (h2 : ∀ l, r.2 = some l → 37 ∉ l) : ∀ l ∈ reportLines r, 37 ∉ l.2 := by
  intro l hl
  unfold reportLines at hl
  rcases List.mem_append.mp hl with hl | hl
  · obtain ⟨p, hp, rfl⟩ := List.mem_map.mp hl
    simp only [line, List.mem_append, not_or]
    exact ⟨⟨⟨⟨by decide, unitText_no_percent _ (h1 p hp)⟩, by decide⟩, decimal_no_percent _⟩, by decide⟩
  · cases h : r.2 with
    | none => rw [h] at hl; simp at hl
    | some rest =>
      rw [h] at hl
      simp only [List.mem_singleton] at hl
      subst hl
      simp only [line, List.mem_append, not_or]
      exact ⟨by decide, unitText_no_percent _ (h2 _ h)⟩

theorem lines_no_percent {u : Icu} {cond : TokInfo} {v : VocabT} {sp : Special} {cs ds : List Nat}
    {words : List (List Nat)} {rs : List (List (List Nat × Nat) × Option (List Nat))}
    (h : Reported u cond v sp cs ds words rs) (hw : ∀ w ∈ words, 37 ∉ w) : ∀ l ∈ linesOf cond v sp ds rs, 37 ∉ l.2 := by
  intro l hl
  unfold linesOf tokenizeLines at hl
  simp only [List.mem_append] at hl
  rcases hl with ((((hl | hl) | hl) | hl) | hl) | hl
  · obtain ⟨i, _, rfl⟩ := List.mem_map.mp hl
    simp only [line, List.mem_append, not_or]
    exact ⟨⟨⟨⟨by decide, decimal_no_percent _⟩, by decide⟩, decimal_no_percent _⟩, by decide⟩
  · simp only [List.mem_cons, List.not_mem_nil, or_false] at hl
    rcases hl with rfl | rfl <;> decide
  · obtain ⟨c, _, rfl⟩ := List.mem_map.mp hl
    simp only [line]
    split <;> decide
  · simp only [List.mem_cons, List.not_mem_nil, or_false] at hl
    rcases hl with rfl | rfl <;> decide
  · split at hl
    · rename_i hh
      rcases List.mem_append.mp hl with hl | hl
      · obtain ⟨r, hr, hl⟩ := List.mem_flatMap.mp hl
        obtain ⟨w, hw1, hw2, hw3⟩ := reportAll_mem (h.reports hh) r hr
        exact reportLines_no_percent r (fun p hp hm => hw w hw1 (hw2 p hp _ hm))
          (fun x hx hm => hw w hw1 (hw3 x hx _ hm)) l hl
      · simp only [List.mem_singleton] at hl
        subst hl
        decide
    · simp only [List.mem_singleton] at hl
      subst hl
      decide
  · simp only [List.mem_singleton] at hl
    subst hl
    decide

/-- C97 for words without `%`: at every level and with every file, tokenizing with messages gives the ids of
tokenizing without, and of the log nothing changes but the end of the file.  (Missing: words with a percent sign; see
`C97_percent_counterexample`.) -/
theorem C97_ids_partial {u : Icu} {cond : TokInfo} {v : VocabT} {sp : Special} {cs ds : List Nat}
    {words : List (List Nat)} {rs : List (List (List Nat × Nat) × Option (List Nat))}
    (h : Reported u cond v sp cs ds words rs) (hw : ∀ w ∈ words, 37 ∉ w) (s : St) :
    ∃ ids s', tokenizeL u cond v sp (utf8Encode cs) s = .ok (ids, s') ∧
      tokenize u cond v sp (utf8Encode cs) = .ok ids ∧ LinesWritten s (linesOf cond v sp ds rs) s' := by
  refine (C97_exact h s).1 (Or.inr ?_)
  intro m hm
  obtain ⟨l, hl, rfl⟩ := List.mem_map.mp hm
  exact prints_no_percent _ (lines_no_percent h hw l (List.mem_filter.mp hl).1)

/-- C97 when the log is off: with no file, or a level above ERROR, any text is tokenized without a trace. -/
theorem C97_silent {u : Icu} {cond : TokInfo} {v : VocabT} {sp : Special} {cs ds : List Nat}
    {words : List (List Nat)} {rs : List (List (List Nat × Nat) × Option (List Nat))}
    (h : Reported u cond v sp cs ds words rs) (s : St) (hs : s.file = none ∨ 3 < s.level) :
    ∃ ids s', tokenizeL u cond v sp (utf8Encode cs) s = .ok (ids, s') ∧
      tokenize u cond v sp (utf8Encode cs) = .ok ids ∧ ∀ g, s'.out g = s.out g := by
  have hno : 3 < s.level → heard s.level (linesOf cond v sp ds rs) = [] := by
    intro hlv
    unfold heard
    rw [List.filter_eq_nil_iff.mpr]
    · rfl
    · intro l hl
      have : l.1 ≤ 3 := by
        unfold linesOf tokenizeLines at hl
        simp only [List.mem_append] at hl
        rcases hl with ((((hl | hl) | hl) | hl) | hl) | hl
        · obtain ⟨i, _, rfl⟩ := List.mem_map.mp hl; simp [line]
        · simp only [List.mem_cons, List.not_mem_nil, or_false] at hl
          rcases hl with rfl | rfl <;> simp [line]
        · obtain ⟨i, _, rfl⟩ := List.mem_map.mp hl; simp [line]
        · simp only [List.mem_cons, List.not_mem_nil, or_false] at hl
          rcases hl with rfl | rfl <;> simp [line]
        · split at hl
          · rcases List.mem_append.mp hl with hl | hl
            · obtain ⟨r, _, hl⟩ := List.mem_flatMap.mp hl
              unfold reportLines at hl
              rcases List.mem_append.mp hl with hl | hl
              · obtain ⟨p, _, rfl⟩ := List.mem_map.mp hl; simp [line]
              · cases hr : r.2 <;> rw [hr] at hl <;> simp at hl
                subst hl; simp [line]
            · simp only [List.mem_singleton] at hl; subst hl; simp [line]
          · simp only [List.mem_singleton] at hl; subst hl; simp [line]
        · simp only [List.mem_singleton] at hl; subst hl; simp [line]
      simp only [decide_eq_true_eq]
      omega
  have hp : s.file = none ∨ (∀ m ∈ heard s.level (linesOf cond v sp ds rs), ∃ t, Prints m t) := by
    rcases hs with hs | hs
    · exact Or.inl hs
    · exact Or.inr (by rw [hno hs]; simp)
  obtain ⟨ids, s', h1, h2, h3⟩ := (C97_exact h s).1 hp
  refine ⟨ids, s', h1, h2, fun g => ?_⟩
  rcases hs with hs | hs
  · exact h3.others g (by rw [hs]; simp)
  · by_cases hg : s.file = some g
    · obtain ⟨ts, g1, g2⟩ := h3.written g hg
      rw [hno hs] at g1
      cases g1
      rw [g2]
      simp
    · exact h3.others g hg

/-! ## The default level -/

theorem heard_warn (V : List (List Nat)) (hh : ∃ x ∈ V, marker <+: x) (special : List Nat) (cond : TokInfo)
    (ds : List Nat) (rs : List (List (List Nat × Nat) × Option (List Nat))) :
    heard 2 (tokenizeLines V special cond ds rs) =
      (rs.filterMap (·.2)).map fun rest => bytes! "  unknown token: " ++ unitText rest := by
  have e1 : ∀ (ls : List (Int × List Nat)), (∀ l ∈ ls, l.1 ≤ 1) → ls.filter (fun l => (2 : Int) ≤ l.1) = [] := by
    intro ls h
    rw [List.filter_eq_nil_iff]
    intro l hl
    have := h l hl
    simp only [decide_eq_true_eq]
    omega
  unfold heard tokenizeLines
  rw [if_pos hh]
  simp only [List.filter_append]
  rw [e1 (specialLines _ _), e1 (removalLines _ _), e1 [_, _], e1 [_, _], e1 [_], e1 [_]]
  · simp only [List.nil_append, List.append_nil]
    induction rs with
    | nil => rfl
    | cons r rs ih =>
      simp only [List.flatMap_cons, List.filter_append, List.map_append, ih]
      unfold reportLines
      rw [List.filter_append, e1 (r.1.map _)]
      · cases hr : r.2 with
        | none => simp [hr]
        | some x => simp [hr, line]
      · intro l hl
        obtain ⟨p, _, rfl⟩ := List.mem_map.mp hl
        simp [line]
  · simp [line]
  · simp [line]
  · simp [line]
  · simp [line]
  · intro l hl
    obtain ⟨i, _, rfl⟩ := List.mem_map.mp hl
    simp [line]
  · intro l hl
    obtain ⟨i, _, rfl⟩ := List.mem_map.mp hl
    simp [line]

theorem printsAll_tame : ∀ {ms : List (List Nat)} {ts : List (List Nat)}, PrintsAll ms ts → (∀ m ∈ ms, Tame m) → ts = ms
  | _, _, .nil, _ => rfl
  | _, _, .cons (m := m) (t := t) h hs, hm => by
    have h1 := of_prints h
    rw [printfText_tame m (hm m (by simp))] at h1
    rw [printsAll_tame hs fun x hx => hm x (by simp [hx])]
    rw [Res.ok.inj h1]

/-- C97 at the default level, with a vocabulary that has a `##` entry and unknown text that `fprintf` prints unchanged: one
line per word that cannot be finished, naming the rest of the word, in order, and nothing else. -/
theorem C97_default_partial {u : Icu} {cond : TokInfo} {v : VocabT} {sp : Special} {cs ds : List Nat}
    {words : List (List Nat)} {rs : List (List (List Nat × Nat) × Option (List Nat))}
    (h : Reported u cond v sp cs ds words rs) (hh : ∃ x ∈ v.idToTok.map unitsOfUtf8, marker <+: x)
    (s : St) (f : Nat) (hf : s.file = some f) (hl : s.level = 2)
    (ht : ∀ rest ∈ rs.filterMap (·.2), Tame (unitText rest)) :
    ∃ s', tokenizeL u cond v sp (utf8Encode cs) s = .ok (rs.flatMap (reportIds sp.unk), s') ∧
      s'.level = s.level ∧ s'.file = s.file ∧
      s'.out f = s.out f ++ (rs.filterMap (·.2)).flatMap fun rest =>
        bytes! "  unknown token: " ++ unitText rest ++ [10] := by
  have hheard : heard s.level (linesOf cond v sp ds rs) = (rs.filterMap (·.2)).map fun rest =>
      bytes! "  unknown token: " ++ unitText rest := by
    rw [hl]
    exact heard_warn _ hh _ _ _ _
  have htame : ∀ m ∈ heard s.level (linesOf cond v sp ds rs), Tame m := by
    intro m hm
    rw [hheard] at hm
    obtain ⟨rest, hr, rfl⟩ := List.mem_map.mp hm
    obtain ⟨h1, h2⟩ := ht rest hr
    constructor
    · simp only [List.mem_append, not_or]
      exact ⟨by decide, h1⟩
    · simp only [List.mem_append, not_or]
      exact ⟨by decide, h2⟩
  obtain ⟨ids, s', h1, h2, h3⟩ := (C97_exact h s).1 (Or.inr fun m hm => prints_no_percent m (htame m hm).1)
  rw [tokenize_reported h, if_pos hh] at h2
  cases Res.ok.inj h2
  refine ⟨s', h1, h3.level, h3.file, ?_⟩
  obtain ⟨ts, g1, g2⟩ := h3.written f hf
  rw [g2, printsAll_tame g1 htame, hheard, List.flatMap_map]

/-- C97 fails: at the default level, a word whose unknown rest has a single percent sign (after characters that are
printed as they are) makes tokenizing undefined, with any vocabulary. -/
theorem C97_percent_counterexample {u : Icu} {cond : TokInfo} {v : VocabT} {sp : Special} {cs ds : List Nat}
    {words : List (List Nat)} {rs : List (List (List Nat × Nat) × Option (List Nat))}
    (h : Reported u cond v sp cs ds words rs) (hh : ∃ x ∈ v.idToTok.map unitsOfUtf8, marker <+: x)
    (s : St) (f : Nat) (hf : s.file = some f) (hl : s.level ≤ 2)
    (rest pre post : List Nat) (hr : ∃ r ∈ rs, r.2 = some rest) (he : unitText rest = pre ++ 37 :: post)
    (hp : Tame pre) (hpost : post.head? ≠ some 37) :
    tokenizeL u cond v sp (utf8Encode cs) s = .ub := by
  refine (C97_exact h s).2 f hf ⟨bytes! "  unknown token: " ++ unitText rest, ?_, ?_⟩
  · obtain ⟨r, hr1, hr2⟩ := hr
    refine List.mem_map.mpr ⟨line 2 (bytes! "  unknown token: " ++ unitText rest), List.mem_filter.mpr ⟨?_, ?_⟩, rfl⟩
    · unfold linesOf tokenizeLines
      simp only [List.mem_append]
      refine Or.inl (Or.inr ?_)
      rw [if_pos hh]
      refine List.mem_append_left _ (List.mem_flatMap.mpr ⟨r, hr1, ?_⟩)
      unfold reportLines
      rw [hr2]
      simp
    · exact decide_eq_true hl
  · intro t ht
    have h1 := C53_percent_counterexample ⟨2, some 0, fun _ => []⟩ .warn 0 rfl (by decide)
      (bytes! "  unknown token: " ++ pre) post
      ⟨by simp only [List.mem_append, not_or]; exact ⟨by decide, hp.1⟩,
       by simp only [List.mem_append, not_or]; exact ⟨by decide, hp.2⟩⟩ hpost
    rw [List.append_assoc, ← he, C53_exact, of_prints ht] at h1
    cases h1

/-- A vocabulary without `%`. -/
def noPercent : VocabT := ⟨[ascii "[UNK]", ascii "##", ascii "100"], fun _ => none⟩

/-- C97 fails: with the settings a program starts with and the vocabulary `[UNK]`, `##`, `100`, tokenizing `100%` is
undefined, although the ids are defined: 2 and 0. -/
theorem C97_text_counterexample :
    tokenizeL asciiIcu casedInfo noPercent ⟨0, 0, 0, 0, 0, 0, 0⟩ (ascii "100%") St.init = .ub ∧
    tokenize asciiIcu casedInfo noPercent ⟨0, 0, 0, 0, 0, 0, 0⟩ (ascii "100%") = .ok [2, 0] := by
  constructor
  · have h : (tokenizeL asciiIcu casedInfo noPercent ⟨0, 0, 0, 0, 0, 0, 0⟩ (ascii "100%") St.init).bind
        (fun r => .ok r.1) = .ub := by decide +kernel
    revert h
    cases tokenizeL asciiIcu casedInfo noPercent ⟨0, 0, 0, 0, 0, 0, 0⟩ (ascii "100%") St.init with
    | ub => exact fun _ => rfl
    | ok a => exact fun h => nomatch h
    | abort => exact fun h => nomatch h
    | hang => exact fun h => nomatch h
  · decide +kernel

/-- C97 fails: loading a vocabulary in which a token with `%` is repeated is undefined with the settings a program
starts with. -/
theorem C97_duplicate_counterexample (v : VocabT) (t pre post : List Nat) (hv : v.hasToken t = true)
    (ht : t = pre ++ 37 :: post) (hp : Tame pre) (hpost : post.head? ≠ some 37) :
    v.addTokenL t St.init = .ub ∧ v.addToken t = (false, v) := by
  refine ⟨?_, by simp [VocabT.addToken, hv]⟩
  unfold VocabT.addTokenL
  rw [if_pos hv]
  have hm : fmt (bytes! "  token {} already exists") [textArg t] =
      .ok ((bytes! "  token " ++ pre) ++ 37 :: (post ++ bytes! " already exists")) := by
    subst ht
    simp [fmt, vformat, parse, fieldOf, render, textArg]
  rw [hm]
  have h1 := C53_percent_counterexample St.init .warn 0 rfl (by decide) (bytes! "  token " ++ pre)
    (post ++ bytes! " already exists")
    ⟨by simp only [List.mem_append, not_or]; exact ⟨by decide, hp.1⟩,
     by simp only [List.mem_append, not_or]; exact ⟨by decide, hp.2⟩⟩
    (by cases post with
        | nil => simp
        | cons d post => simpa using hpost)
  have : formatted St.init .warn (.ok ((bytes! "  token " ++ pre) ++ 37 :: (post ++ bytes! " already exists"))) =
      plain St.init .warn ((bytes! "  token " ++ pre) ++ 37 :: (post ++ bytes! " already exists")) := rfl
  rw [this, h1]
  rfl

/-- The hypotheses of the theorems above are met by `100 7`: `7` is unknown and reported. -/
theorem reported_noPercent : ∃ rs, Reported asciiIcu casedInfo noPercent ⟨0, 0, 0, 0, 0, 0, 0⟩ (ascii "100 7") (ascii "100 7")
    [ascii "100", ascii "7"] rs ∧ rs.filterMap (·.2) = [ascii "7"] := by
  have hc : walk (buildFrom Node.new 0 (noPercent.idToTok.map unitsOfUtf8)) hashes =
      some ((walk (buildFrom Node.new 0 (noPercent.idToTok.map unitsOfUtf8)) hashes).getD Node.new) := by
    obtain ⟨c, h⟩ := hashes_some (noPercent.idToTok.map unitsOfUtf8) (by decide)
    rw [h]
    rfl
  exact ⟨_, ⟨by decide, by decide, by decide, by decide, by decide +kernel, fun _ =>
    traces_report _ (by decide) _ hc _ [] _ rfl⟩, by decide +kernel⟩

/-- The messages of that text. -/
example : (tokenizeL asciiIcu casedInfo noPercent ⟨0, 0, 0, 0, 0, 0, 0⟩ (ascii "100 7") St.init).bind
    (fun r => .ok (r.1, r.2.out 0)) = .ok ([2, 0], ascii "  unknown token: 7\n") := by decide +kernel

end Berts.Props
