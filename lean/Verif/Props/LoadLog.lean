import Verif.Proofs.LoadLogLoad
import Verif.Props.BertLog
import Verif.Props.Load

/-! # Properties C98, C99 and C100: messages while loading -/

namespace Berts.Props

open Berts.Vocab Berts.Spec Berts.Log Berts.Format Berts.Load
open Berts.Bert (runLines bind_assoc' ok_bind')

variable {α : Type}

/-! ## C98 -/

/-- The names the log calls unused. -/
def reported (g : Gguf) (n : Nat) : List (List Nat) := (unusedOf g n).map (·.2)

/-- What a context is made of, but for the tensors themselves. -/
def contents (c : Ctx α) : Hp × Nat × VocabR × Graph.Weights α := (c.hp, c.type, c.vocab, c.weights)

theorem not_reported {g : Gguf} {n : Nat} {k : List Nat}
    (h : k ∈ requiredNames n ++ headNames ++ [ascii "berts.vocab.size", ascii "berts.vocab.data"]) :
    k ∉ reported g n := by
  intro hm
  obtain ⟨p, hp, rfl⟩ := List.mem_map.1 hm
  have := (List.mem_filter.1 hp).2
  simp only [decide_eq_true_eq] at this
  exact this h

theorem mem_reported {g : Gguf} {n : Nat} {t : TInfo} (ht : t ∈ g.dir) :
    t.name ∈ reported g n ↔
      t.name ∉ requiredNames n ++ headNames ++ [ascii "berts.vocab.size", ascii "berts.vocab.data"] := by
  refine ⟨fun h hm => not_reported hm h, fun h => ?_⟩
  obtain ⟨i, hi, e⟩ := List.getElem_of_mem ht
  refine List.mem_map.2 ⟨(i, t.name), List.mem_filter.2 ⟨List.mem_map.2 ⟨(t, i), ?_, rfl⟩, ?_⟩, rfl⟩
  · rw [List.mem_zipIdx_iff_getElem?]
    simp [hi, e]
  · simpa only [decide_eq_true_eq] using h

theorem vocabInit_congr (signed : Bool) (order) (arch : Nat) (g : Gguf) (ts ts' : List LT)
    (h1 : getTensor ts (ascii "berts.vocab.size") = getTensor ts' (ascii "berts.vocab.size"))
    (h2 : getTensor ts (ascii "berts.vocab.data") = getTensor ts' (ascii "berts.vocab.data"))
    (h3 : arch ≠ 0 → getTensor ts (ascii "berts.merge.data") = getTensor ts' (ascii "berts.merge.data")) :
    vocabInit signed order arch g ts = vocabInit signed order arch g ts' := by
  unfold vocabInit
  rw [h1, h2]
  congr 1
  funext r
  cases r with
  | none => rfl
  | some v =>
    simp only
    by_cases ha : arch = 0
    · rw [if_pos ha, if_pos ha]
    · rw [if_neg ha, if_neg ha]
      unfold robertaInit
      rw [h3 ha]

theorem initWeights_congr (get get' : List Nat → Option (Graph.T α)) (n : Nat)
    (h : ∀ k ∈ requiredNames n ++ headNames, get k = get' k) : initWeights get n = initWeights get' n := by
  have hk : ∀ k ∈ neededKeys n, get k = get' k := fun k hk =>
    h k (List.mem_append_left _ ((mem_needed n k).1 hk))
  have hh : ∀ k ∈ headKeys, get k = get' k := fun k hk =>
    h k (List.mem_append_right _ (headKeys_eq ▸ hk))
  have hl : ∀ i, i < n → initLayer get i = initLayer get' i := by
    intro i hi
    have hm : ∀ k ∈ layerKeys i, get k = get' k := fun k hk' =>
      hk k (by
        unfold neededKeys
        simp only [List.mem_append, List.mem_flatMap, List.mem_range]
        exact .inl (.inr ⟨i, hi, hk'⟩))
    unfold layerKeys at hm
    simp only [List.forall_mem_cons] at hm
    obtain ⟨m1, m2, m3, m4, m5, m6, m7, m8, m9, m10, m11, m12, m13, m14, m15, m16, _⟩ := hm
    unfold initLayer
    rw [m1, m2, m3, m4, m5, m6, m7, m8, m9, m10, m11, m12, m13, m14, m15, m16]
  have hls : ∀ k i, i + k ≤ n → initLayers get i k = initLayers get' i k := by
    intro k
    induction k with
    | zero => intro i _; rfl
    | succ k ih =>
      intro i hi
      unfold initLayers
      rw [hl i (by omega), ih (i + 1) (by omega)]
  have hlm : initLm get = initLm get' := by
    unfold headKeys at hh
    simp only [List.forall_mem_cons] at hh
    obtain ⟨m1, m2, m3, m4, m5, m6, _⟩ := hh
    unfold initLm
    rw [m1, m2, m3, m4, m5, m6]
  unfold neededKeys at hk
  simp only [List.mem_append, or_imp, forall_and, List.forall_mem_cons] at hk
  obtain ⟨⟨⟨m1, m2, m3, m4, m5, _⟩, _⟩, m6, m7, _⟩ := hk
  unfold initWeights
  rw [m1, m2, m3, m4, m5, hls n 0 (by omega), m6, m7, hlm]

theorem create_congr (w : World α) (g : Gguf) (hp : Hp) (type : Nat) (ts ts' : List LT) (l : Ledger)
    (h : ∀ k, k ∉ reported g hp.hp.nLayers → getTensor ts k = getTensor ts' k)
    (h3 : hp.arch ≠ 0 → getTensor ts (ascii "berts.merge.data") = getTensor ts' (ascii "berts.merge.data"))
    {r : Option (Ctx α)} {l' : Ledger} (hc : create w g hp type ts l = .ok (r, l')) :
    ∃ r', create w g hp type ts' l = .ok (r', l') ∧ r'.map contents = r.map contents := by
  have hv := vocabInit_congr w.signed w.order hp.arch g ts ts' (h _ (not_reported (by simp)))
    (h _ (not_reported (by simp))) h3
  have hw := initWeights_congr (fun k => (getTensor ts k).map w.conv) (fun k => (getTensor ts' k).map w.conv)
    hp.hp.nLayers (fun k hk => by simp only [h k (not_reported (List.mem_append_left _ hk))])
  unfold create at hc ⊢
  rw [← hv]
  cases hx : vocabInit w.signed w.order hp.arch g ts with
  | ok v =>
    rw [hx] at hc
    simp only [ok_bind'] at hc ⊢
    cases v with
    | none => cases Res.ok.inj hc; exact ⟨_, rfl, rfl⟩
    | some v =>
      simp only at hc ⊢
      rw [← hw]
      cases hy : initWeights (fun k => (getTensor ts k).map w.conv) hp.hp.nLayers with
      | none => rw [hy] at hc; cases Res.ok.inj hc; exact ⟨_, rfl, rfl⟩
      | some ws => rw [hy] at hc; cases Res.ok.inj hc; exact ⟨_, rfl, rfl⟩
  | ub => rw [hx] at hc; cases hc
  | abort => rw [hx] at hc; cases hc
  | hang => rw [hx] at hc; cases hc

/-- C98, partial: what the log calls unused has no influence on the hyperparameters, the vocabulary and the weights of
a BERT model; nor on those of a RoBERTa model, but for the tensor with the merges.  (Missing: this tensor, which is
called unused though it is used; see `C98_merges_counterexample`.) -/
theorem C98_unused_partial (w : World α) (g : Gguf) (hp : Hp) (type : Nat) (ts ts' : List LT) (l : Ledger)
    (h : ∀ k, k ∉ reported g hp.hp.nLayers ∨ (hp.arch ≠ 0 ∧ k = ascii "berts.merge.data") →
      getTensor ts k = getTensor ts' k)
    (r : Option (Ctx α)) (l' : Ledger) (hc : create w g hp type ts l = .ok (r, l')) :
    ∃ r', create w g hp type ts' l = .ok (r', l') ∧ r'.map contents = r.map contents :=
  create_congr w g hp type ts ts' l (fun k hk => h k (.inl hk)) (fun ha => h _ (.inr ⟨ha, rfl⟩)) hc

/-- C98: all other tensors of the file are used.  Without any one of them the model cannot be loaded, or it has no
language-model head. -/
theorem C98_used (w : World α) (g : Gguf) (hp : Hp) (type : Nat) (ts : List LT) (l : Ledger)
    (k : List Nat) (hk : k ∈ g.dir.map (·.name)) (hr : k ∉ reported g hp.hp.nLayers)
    (hno : getTensor ts k = none) (c : Ctx α) (l' : Ledger) (hc : create w g hp type ts l = .ok (some c, l')) :
    k ∈ headNames ∧ c.weights.lm = none := by
  obtain ⟨t, ht, rfl⟩ := List.mem_map.1 hk
  have hm := Classical.not_not.1 (fun hn => hr ((mem_reported ht).2 hn))
  obtain ⟨cr, -⟩ := create_cases hc
  generalize hrr : some c = r at cr
  cases cr with
  | fail => cases hrr
  | noWeights => cases hrr
  | ok v ws hv hw =>
    cases hrr
    have hw' := (initWeights_iff _ _ _).1 hw
    simp only [List.mem_append, List.mem_cons, List.not_mem_nil, or_false] at hm
    rcases hm with (hm | hm) | hm | hm
    · have := (named_iff _ _).1 ⟨ws, hw'⟩ _ hm
      rw [hno] at this
      cases this
    · refine ⟨hm, ?_⟩
      cases hlm : ws.lm with
      | none => rfl
      | some lm =>
        have hn := (hw'.2.2.2.2.2.2.2.2.2 lm).1 hlm
        exfalso
        have no : ∀ {k : List Nat} {x : Graph.T α}, getTensor ts k = none → (getTensor ts k).map w.conv = some x →
            False := by
          intro k x h1 h2
          rw [h1] at h2
          cases h2
        unfold headNames at hm
        simp only [List.map_cons, List.map_nil, List.mem_cons, List.not_mem_nil, or_false] at hm
        obtain ⟨n1, n2, n3, n4, n5, n6⟩ := hn
        rcases hm with hm | hm | hm | hm | hm | hm <;> rw [hm] at hno
        · exact no hno n1
        · exact no hno n2
        · exact no hno n3
        · exact no hno n4
        · exact no hno n5
        · exact no hno n6
    · rw [hm] at hno
      unfold vocabInit at hv
      rw [hno] at hv
      cases hv
    · rw [hm] at hno
      unfold vocabInit Vocab.initVocab at hv
      rw [hno] at hv
      cases hs : getTensor ts (ascii "berts.vocab.size") <;> rw [hs] at hv <;> cases hv

theorem getTensor_loaded (g : Gguf) (bytes bytes' : List Nat) (junk : Nat → Nat → Nat) (k : List Nat) :
    ∀ (dir : List TInfo) (i : Nat), (∀ t ∈ dir, t.name = k →
      (bytes.drop (g.dataOffset + t.offset)).take t.nbytes = (bytes'.drop (g.dataOffset + t.offset)).take t.nbytes) →
      getTensor (loadedFrom g bytes junk i dir) k = getTensor (loadedFrom g bytes' junk i dir) k
  | [], _, _ => rfl
  | t :: dir, i, h => by
    have ih := getTensor_loaded g bytes bytes' junk k dir (i + 1) fun t' ht => h t' (by simp [ht])
    unfold getTensor at ih ⊢
    rw [loadedFrom, loadedFrom, List.find?_cons, List.find?_cons]
    by_cases hk : t.name = k
    · have e : loadedT g bytes (junk i) t = loadedT g bytes' (junk i) t := by
        unfold loadedT
        rw [h t (by simp) hk]
      rw [e]
      have : ((loadedT g bytes' (junk i) t).name == k) = true := by simpa [loadedT] using hk
      rw [this]
    · have h1 : ((loadedT g bytes (junk i) t).name == k) = false := by simpa [loadedT] using hk
      have h2 : ((loadedT g bytes' (junk i) t).name == k) = false := by simpa [loadedT] using hk
      rw [h1, h2]
      exact ih

theorem load_made {w : World α} {c : Ctx α} {l : Ledger} (h : load w = .ok (some c, l)) {g : Gguf} {bytes : List Nat}
    (hg : w.gguf = some g) (hf : w.file = some bytes) (hn : NamesOk g)
    (ho : ∀ t ∈ g.dir, g.dataOffset + t.offset < 2 ^ 64) :
    c.tensors = loadedFrom g bytes w.junk 0 g.dir ∧ hparams g = .ok c.hp ∧
      vocabInit w.signed w.order c.hp.arch g c.tensors = .ok (some c.vocab) ∧
      initWeights (fun k => (getTensor c.tensors k).map w.conv) c.hp.hp.nLayers = some c.weights := by
  have o := load_cases h
  generalize hr : some c = r at o
  generalize l.acq = acq at o
  generalize l.h.freed = freed at o
  cases o with
  | noFile => cases hr
  | noPool => cases hr
  | noStream => cases hr
  | truncated => cases hr
  | finished g' size bytes' ts r acq freed hg' hi hp hf' hl f =>
    rw [hg] at hg'
    cases Option.some.inj hg'
    rw [hf] at hf'
    cases Option.some.inj hf'
    have hts := (loop_sound w.gg g hn ho _ w.junk bytes g.dir 0 0 _ [] ts (fun _ h => h) rfl rfl hl).2
    rw [List.nil_append] at hts
    cases f with
    | act => cases hr
    | arch => cases hr
    | create hp type r hh ha hb ht hft cr =>
      cases cr with
      | fail => cases hr
      | noWeights => cases hr
      | ok v ws hv hw =>
        cases hr
        exact ⟨hts, hh, hv, hw⟩

/-- C98, for files: if the log calls a tensor unused (and it is not that with the merges of a RoBERTa model), its bytes
in the file do not matter: two files with the same header that agree on the other tensors are loaded as the same
hyperparameters, vocabulary and weights. -/
theorem C98_file_partial (w : World α) (g : Gguf) (bytes bytes' : List Nat) (hg : w.gguf = some g)
    (hf : w.file = some bytes) (hn : NamesOk g) (ho : ∀ t ∈ g.dir, g.dataOffset + t.offset < 2 ^ 64)
    (c c' : Ctx α) (l l' : Ledger) (h : load w = .ok (some c, l))
    (h' : load { w with file := some bytes' } = .ok (some c', l'))
    (hb : ∀ t ∈ g.dir, t.name ∉ reported g c.hp.hp.nLayers ∨ (c.hp.arch ≠ 0 ∧ t.name = ascii "berts.merge.data") →
      (bytes.drop (g.dataOffset + t.offset)).take t.nbytes = (bytes'.drop (g.dataOffset + t.offset)).take t.nbytes) :
    c'.hp = c.hp ∧ c'.vocab = c.vocab ∧ c'.weights = c.weights := by
  obtain ⟨t1, p1, v1, w1⟩ := load_made h hg hf hn ho
  obtain ⟨t2, p2, v2, w2⟩ := load_made h' (g := g) (bytes := bytes') hg rfl hn ho
  rw [p1] at p2
  have hhp := Res.ok.inj p2
  rw [← hhp] at v2 w2
  have hag : ∀ k, k ∉ reported g c.hp.hp.nLayers ∨ (c.hp.arch ≠ 0 ∧ k = ascii "berts.merge.data") →
      getTensor c.tensors k = getTensor c'.tensors k := by
    intro k hk
    rw [t1, t2]
    exact getTensor_loaded g bytes bytes' w.junk k g.dir 0 fun t ht e => hb t ht (e ▸ hk)
  refine ⟨hhp.symm, ?_, ?_⟩
  · have := vocabInit_congr w.signed w.order c.hp.arch g c.tensors c'.tensors
      (hag _ (.inl (not_reported (by simp)))) (hag _ (.inl (not_reported (by simp)))) (fun ha => hag _ (.inr ⟨ha, rfl⟩))
    rw [v1] at this
    simp only at v2
    rw [v2] at this
    exact (Option.some.inj (Res.ok.inj this)).symm
  · have := initWeights_congr (fun k => (getTensor c.tensors k).map w.conv) (fun k => (getTensor c'.tensors k).map w.conv)
      c.hp.hp.nLayers (fun k hk => by simp only [hag k (.inl (not_reported (List.mem_append_left _ hk)))])
    rw [w1] at this
    simp only at w2
    rw [w2] at this
    exact (Option.some.inj this).symm

/-- The small model with a tensor that is not used. -/
def unusedGguf : Gguf := ⟨loadKv 0 0, loadDir ++ [⟨ascii "extra", 1, [1], 16, 1, 9⟩], 3⟩

example : reported unusedGguf 0 = [ascii "extra"] ∧
    loads (loadWorld unusedGguf (loadBytes ++ [1])) = some true ∧
    loads { loadWorld unusedGguf (loadBytes ++ [1]) with file := some (loadBytes ++ [2]) } = some true := by
  decide +kernel

/-- The RoBERTa model with an empty merge table. -/
def mergesGguf : Gguf :=
  ⟨loadKv 0 1 ++ [(ascii "berts.bos_id", .u32 0), (ascii "berts.eos_id", .u32 0)],
    loadDir ++ [⟨ascii "berts.merge.data", 1, [0], 18, 0, 9⟩], 3⟩

/-- C98 fails for RoBERTa models: the merges are called unused, but without them the model cannot be loaded. -/
theorem C98_merges_counterexample :
    ascii "berts.merge.data" ∈ reported mergesGguf 0 ∧ loads (loadWorld mergesGguf loadBytes) = some true ∧
    loads (loadWorld { mergesGguf with dir := loadDir } loadBytes) = some false := by decide +kernel

/-- C98: the lines that call tensors unused are those of the specification (`C99_exact` gives all lines); each names
one tensor of the directory by its number. -/
theorem C98_numbers (g : Gguf) (n i : Nat) (k : List Nat) :
    (i, k) ∈ unusedOf g n ↔ (∃ t, g.dir[i]? = some t ∧ t.name = k) ∧
      k ∉ requiredNames n ++ headNames ++ [ascii "berts.vocab.size", ascii "berts.vocab.data"] := by
  unfold unusedOf
  rw [List.mem_filter]
  simp only [decide_eq_true_eq, List.mem_map, List.mem_zipIdx_iff_getElem?, Prod.mk.injEq]
  constructor
  · rintro ⟨⟨⟨t, j⟩, h1, rfl, rfl⟩, h2⟩
    exact ⟨⟨t, h1, rfl⟩, h2⟩
  · rintro ⟨⟨t, h1, rfl⟩, h2⟩
    exact ⟨⟨(t, i), h1, rfl, rfl⟩, h2⟩

/-! ## C99 -/

/-- What follows from the lines that are written. -/
theorem says_outcome {f : LogM α} {r : Res α} {ls : List (Int × List Nat)} (h : Says f r ls) (s : St) :
    (s.file = none ∨ (∀ m ∈ heard s.level ls, ∃ t, Prints m t) →
      ∃ s', LinesWritten s ls s' ∧ f s = r.bind fun a => .ok (a, s')) ∧
    (∀ o, s.file = some o → (∃ m ∈ heard s.level ls, ∀ t, ¬ Prints m t) → f s = .ub) := by
  obtain ⟨g1, g2⟩ := linesWritten_outcome ls s
  refine ⟨fun hp => ?_, fun o hf hm => ?_⟩
  · obtain ⟨s', h1, h2⟩ := g1 hp
    exact ⟨s', h2, by rw [h s, h1, ok_bind']⟩
  · rw [h s, g2 o hf hm]
    rfl

/-- C99, every case: loading with messages has the outcome of loading without, unless something
that is written cannot be printed; then the behaviour is undefined.  The lines do not depend on the log, and those of
a successful load are the lines of the specification. -/
theorem C99_exact (pr : Printed) (w : World α) (path : List Nat) :
    ∃ lines,
      (∀ s : St,
        (s.file = none ∨ (∀ m ∈ heard s.level lines, ∃ t, Prints m t) →
          ∃ s', LinesWritten s lines s' ∧ loadL pr w path s = (load w).bind fun x => .ok (x, s')) ∧
        (∀ o, s.file = some o → (∃ m ∈ heard s.level lines, ∀ t, ¬ Prints m t) → loadL pr w path s = .ub)) ∧
      ∀ c l, load w = .ok (some c, l) → (tokensOf c.vocab).length ≤ INVALID →
        ∃ g size, w.gguf = some g ∧ (NamesOk g → size = needed w.gg g.dir % 2 ^ 64) ∧
          lines = loadLines pr w.gg.align path g size c := by
  obtain ⟨ls, h1, -, h3⟩ := loadL_tells (C := False) pr w path (fun h => h.elim)
  refine ⟨ls, fun s => says_outcome h1 s, ?_⟩
  intro c l hl ht
  obtain ⟨g, size, hg, hi, -, hls⟩ := (h3 _ hl).1 c rfl
  refine ⟨g, size, hg, ?_, by simpa using hls ht⟩
  intro hn
  unfold initGg at hi
  obtain ⟨_, _, hi⟩ := Handle.res_inv hi
  rw [sizeLoop_eq w.gg g hn _ _ (fun _ h => h) (by omega), Nat.zero_add] at hi
  exact (Res.ok.inj hi).symm

theorem heard_calm {ls : List (Int × List Nat)} (h : Calm ls) {level : Int} (hl : 2 ≤ level) :
    ∀ m ∈ heard level ls, Tame m := by
  intro m hm
  obtain ⟨l, h1, rfl⟩ := List.mem_map.1 hm
  obtain ⟨h2, h3⟩ := List.mem_filter.1 h1
  simp only [decide_eq_true_eq] at h3
  exact h l h2 (by omega)

theorem prints_tame {m : List Nat} (h : Tame m) : ∃ t, Prints m t := prints_no_percent m h.1

/-- C99 at the default level and above, partial: if the repeated tokens of the vocabulary (there are none if the load
succeeds, `C99_success`) have no `%`, loading with messages has the outcome of loading without.  (Missing: a repeated
token with a percent sign; see `C99_repeat_counterexample`.) -/
theorem C99_default_partial (pr : Printed) (w : World α) (path : List Nat) (hw : FilePlain w) (s : St)
    (hs : 2 ≤ s.level) :
    ∃ s', loadL pr w path s = (load w).bind (fun x => .ok (x, s')) ∧ s'.level = s.level ∧ s'.file = s.file ∧
      ∀ o, s.file ≠ some o → s'.out o = s.out o := by
  obtain ⟨ls, h1, h2, -⟩ := loadL_tells (C := True) pr w path (fun _ => hw)
  have hc : Calm ls := by simpa using h2 trivial
  obtain ⟨s', h3, h4⟩ := (says_outcome h1 s).1 (.inr fun m hm => prints_tame (heard_calm hc hs m hm))
  exact ⟨s', h4, h3.level, h3.file, h3.others⟩

theorem calm_search (V : List (List Nat)) (g : Gguf) (k : String) (names : List (List Nat)) (hk : Plain (ascii k))
    (hn : ∀ a ∈ names, Plain a) : Calm (searchLines V g k names) := by
  have hf : ∀ (names : List (List Nat)) (last : List Nat), Plain last → (∀ a ∈ names, Plain a) →
      Calm (fallbackLines V last names) := by
    intro names
    induction names with
    | nil => intro last _ _; exact calm_info _
    | cons a as ih =>
      intro last hl ha
      unfold fallbackLines
      by_cases hv : a ∈ V
      · rw [if_pos hv]
        exact calm_instead hl (ha a (by simp))
      · rw [if_neg hv]
        exact (calm_instead hl (ha a (by simp))).append
          ((calm_info _).append (ih a (ha a (by simp)) fun b hb => ha b (by simp [hb])))
  unfold searchLines
  split
  · split
    · exact hf _ _ hk hn
    · exact calm_nil
  · exact hf _ _ hk hn

theorem low_noToken (V : List (List Nat)) (id : Nat) : ∀ x ∈ noToken V id, x.1 ≤ 1 := by
  intro x hx
  unfold noToken at hx
  split at hx
  · cases hx
  · rw [List.mem_singleton] at hx
    subst hx
    exact Int.le_refl 1

theorem calm_vocab (g : Gguf) (v : VocabR) : Calm (vocabLines g v) := by
  have hn : ∀ V id, Calm (noToken V id) := fun V id => calm_low (low_noToken V id)
  have hi : ∀ V what id, Calm (noToken V id ++ [idLine V what id]) := fun V what id => (hn V id).append (calm_info _)
  cases v with
  | bert v sp cond =>
    unfold vocabLines
    simp only
    refine .append (.append (.append (.append (.append (.append (.append (.append (.append (.append
      ?_ ?_) ?_) ?_) ?_) (hi _ _ _)) (hi _ _ _)) (hi _ _ _)) (hi _ _ _)) (hi _ _ _)) ((calm_info _).append (calm_info _))
    all_goals exact calm_search _ _ _ _ (by decide +kernel) (by decide +kernel)
  | roberta r =>
    unfold vocabLines
    simp only
    refine .append (.append (.append (.append (.append (.append (.append (.append (.append
      ?_ ?_) ?_) ?_) ?_) ?_) ?_) ?_) ?_) (hn _ _)
    iterate 7 exact calm_search _ _ _ _ (by decide +kernel) (by decide +kernel)
    · apply calm_low
      intro x hx
      obtain ⟨id, _, hx⟩ := List.mem_flatMap.1 hx
      exact low_noToken _ _ x hx
    · apply calm_low
      intro x hx
      simp only [List.mem_cons, List.not_mem_nil, or_false] at hx
      rcases hx with rfl | rfl | rfl | rfl | rfl | rfl | rfl <;> exact Int.le_refl 1

theorem low_file (g : Gguf) (t : Nat) : ∀ x ∈ fileLines g t, x.1 ≤ 1 := by
  intro x hx
  unfold fileLines at hx
  simp only [List.mem_append, List.mem_cons, List.not_mem_nil, or_false, List.mem_map] at hx
  rcases hx with (rfl | rfl) | ⟨_, _, rfl⟩
  · exact Int.le_refl 1
  · exact Int.le_refl 1
  · exact Int.zero_le_ofNat 1

theorem low_dir (align : Nat) (g : Gguf) : ∀ x ∈ dirLines align g, x.1 ≤ 1 := by
  intro x hx
  obtain ⟨_, _, rfl⟩ := List.mem_map.1 hx
  exact Int.zero_le_ofNat 1

theorem low_read (g : Gguf) : ∀ x ∈ readLines g, x.1 ≤ 1 := by
  intro x hx
  obtain ⟨_, _, rfl⟩ := List.mem_map.1 hx
  exact Int.zero_le_ofNat 1

theorem low_merge (ts : List LT) (v : VocabR) : ∀ x ∈ mergeLines ts v, x.1 ≤ 1 := by
  intro x hx
  cases v with
  | bert => cases hx
  | roberta r =>
    simp only [mergeLines, List.mem_cons, List.not_mem_nil, or_false] at hx
    rcases hx with rfl | rfl | rfl | rfl <;> exact Int.zero_le_ofNat 1

theorem low_weights (g : Gguf) (n : Nat) : ∀ x ∈ weightLines g n, x.1 ≤ 1 := by
  intro x hx
  unfold weightLines at hx
  rcases List.mem_append.1 hx with hx | hx
  · rcases List.mem_append.1 hx with hx | hx
    · obtain ⟨_, _, rfl⟩ := List.mem_map.1 hx
      exact Int.zero_le_ofNat 1
    · obtain ⟨k, _, hx⟩ := List.mem_flatMap.1 hx
      rcases List.mem_append.1 hx with hx | hx
      · split at hx
        · cases hx
        · cases List.mem_singleton.1 hx
          exact Int.le_refl 1
      · cases List.mem_singleton.1 hx
        exact Int.zero_le_ofNat 1
  · obtain ⟨_, _, rfl⟩ := List.mem_map.1 hx
    exact Int.le_refl 1

theorem heard_append (level : Int) (a b : List (Int × List Nat)) :
    heard level (a ++ b) = heard level a ++ heard level b := by
  unfold heard
  rw [List.filter_append, List.map_append]

theorem heard_low {level : Int} (hl : 2 ≤ level) {a : List (Int × List Nat)} (h : ∀ x ∈ a, x.1 ≤ 1) :
    heard level a = [] := by
  unfold heard
  rw [List.filter_eq_nil_iff.2]
  · rfl
  · intro x hx
    have := h x hx
    simp only [decide_eq_true_eq]
    omega

/-- What is heard of a successful load is what is heard about the vocabulary. -/
theorem heard_load (pr : Printed) (align : Nat) (path : List Nat) (g : Gguf) (size : Nat) (c : Ctx α) {level : Int}
    (hl : 2 ≤ level) : heard level (loadLines pr align path g size c) = heard level (vocabLines g c.vocab) := by
  have one : ∀ (a b : List Nat), heard level [line 0 a, line 1 b] = [] ∧ heard level [line 1 a, line 0 b] = [] := by
    intro a b
    constructor <;> exact heard_low hl (by simp [line])
  have ones : ∀ (a b : List Nat), heard level [line 1 a, line 1 b] = [] ∧ heard level [line 1 a] = [] ∧
      heard level [line 0 a] = [] := by
    intro a b
    refine ⟨?_, ?_, ?_⟩ <;> exact heard_low hl (by simp [line])
  unfold loadLines createLines
  simp only [heard_append]
  rw [heard_low hl (low_file g c.type), heard_low hl (low_dir align g), heard_low hl (low_read g),
    heard_low hl (low_weights g c.hp.hp.nLayers), heard_low hl (low_merge c.tensors c.vocab)]
  unfold objectLine sizeLine hparamsLine
  rw [(one _ _).2, (one _ _).2, (one _ _).2, (ones _ []).2.1, (ones _ _).1, (ones _ []).2.1, (ones _ []).2.2]
  simp

/-- C99 for a successful load at the default level and above: nothing can go wrong, and what is written are the
warnings about the vocabulary, unchanged. -/
theorem C99_success (pr : Printed) (w : World α) (path : List Nat) (c : Ctx α) (l : Ledger) (g : Gguf)
    (h : load w = .ok (some c, l)) (hg : w.gguf = some g) (ht : (tokensOf c.vocab).length ≤ INVALID) (s : St)
    (hs : 2 ≤ s.level) :
    ∃ s', loadL pr w path s = .ok ((some c, l), s') ∧ s'.level = s.level ∧ s'.file = s.file ∧
      ∀ o, s'.out o = s.out o ++
        (if s.file = some o then (heard s.level (vocabLines g c.vocab)).flatMap (· ++ [10]) else []) := by
  obtain ⟨lines, h1, h2⟩ := C99_exact pr w path
  obtain ⟨g', size, hg', -, rfl⟩ := h2 c l h ht
  rw [hg] at hg'
  cases Option.some.inj hg'
  have htame := heard_calm (calm_vocab g c.vocab) hs
  have hh := heard_load pr w.gg.align path g size c hs
  obtain ⟨s', h3, h4⟩ := (h1 s).1 (.inr fun m hm => prints_tame (htame m (hh ▸ hm)))
  rw [h] at h4
  refine ⟨s', h4, h3.level, h3.file, fun o => ?_⟩
  by_cases ho : s.file = some o
  · obtain ⟨ts, g1, g2⟩ := h3.written o ho
    rw [hh] at g1
    rw [if_pos ho, g2, printsAll_tame g1 htame]
  · rw [if_neg ho, List.append_nil]
    exact h3.others o ho

/-- The metadata keys of the special tokens. -/
def idKeys : VocabR → List String
  | .bert .. => ["berts.cls_id", "berts.mask_id", "berts.pad_id", "berts.sep_id", "berts.unk_id"]
  | .roberta _ => ["berts.cls_id", "berts.mask_id", "berts.pad_id", "berts.sep_id", "berts.unk_id", "berts.bos_id",
      "berts.eos_id"]

theorem search_defined {V : List (List Nat)} {g : Gguf} {k : String} {names : List (List Nat)}
    (h : ∃ n, HasU32 g k n ∧ n ≠ INVALID) : searchLines V g k names = [] := by
  obtain ⟨n, h1, h2⟩ := h
  have hv : valueOf g k = some (.u32 n) := by
    obtain ⟨a, b, e, hne⟩ := h1
    unfold valueOf
    rw [e]
    rw [List.find?_append]
    rw [List.find?_eq_none.2 (by intro p hp; simpa using hne p hp)]
    simp
  unfold searchLines
  rw [hv]
  simp only
  rw [if_neg h2]

theorem low_vocab (g : Gguf) (v : VocabR) (h : ∀ k ∈ idKeys v, ∃ n, HasU32 g k n ∧ n ≠ INVALID) :
    ∀ x ∈ vocabLines g v, x.1 ≤ 1 := by
  have hs : ∀ k ∈ idKeys v, ∀ V names, searchLines V g k names = [] := fun k hk V names => search_defined (h k hk)
  intro x hx
  cases v with
  | bert v sp cond =>
    unfold vocabLines at hx
    simp only at hx
    rw [hs "berts.cls_id" (by simp [idKeys]), hs "berts.mask_id" (by simp [idKeys]), hs "berts.pad_id" (by simp [idKeys]),
      hs "berts.sep_id" (by simp [idKeys]), hs "berts.unk_id" (by simp [idKeys])] at hx
    simp only [optionLines, List.mem_append, List.mem_cons, List.not_mem_nil, or_false, false_or] at hx
    rcases hx with ((((((hx | rfl) | hx | rfl) | hx | rfl) | hx | rfl) | hx | rfl) | rfl | rfl)
    all_goals first
      | exact Int.le_refl 1
      | exact low_noToken _ _ x hx
  | roberta r =>
    unfold vocabLines at hx
    simp only at hx
    rw [hs "berts.bos_id" (by simp [idKeys]), hs "berts.eos_id" (by simp [idKeys]),
      hs "berts.cls_id" (by simp [idKeys]), hs "berts.mask_id" (by simp [idKeys]), hs "berts.pad_id" (by simp [idKeys]),
      hs "berts.sep_id" (by simp [idKeys]), hs "berts.unk_id" (by simp [idKeys])] at hx
    simp only [List.mem_append, List.mem_cons, List.mem_flatMap, List.not_mem_nil, or_false, false_or] at hx
    rcases hx with (⟨id, _, hx⟩ | rfl | rfl | rfl | rfl | rfl | rfl | rfl) | hx
    all_goals first
      | exact Int.le_refl 1
      | exact low_noToken _ _ x hx

/-- C99: a file that defines all its special tokens is loaded without a word at the default level. -/
theorem C99_quiet (pr : Printed) (w : World α) (path : List Nat) (c : Ctx α) (l : Ledger) (g : Gguf)
    (h : load w = .ok (some c, l)) (hg : w.gguf = some g) (ht : (tokensOf c.vocab).length ≤ INVALID)
    (hk : ∀ k ∈ idKeys c.vocab, ∃ n, HasU32 g k n ∧ n ≠ INVALID) (s : St) (hs : 2 ≤ s.level) :
    ∃ s', loadL pr w path s = .ok ((some c, l), s') ∧ s'.level = s.level ∧ s'.file = s.file ∧
      ∀ o, s'.out o = s.out o := by
  obtain ⟨s', h1, h2, h3, h4⟩ := C99_success pr w path c l g h hg ht s hs
  refine ⟨s', h1, h2, h3, fun o => ?_⟩
  rw [h4 o, heard_low hs (low_vocab g c.vocab hk)]
  simp

/-- The hypotheses are met by the small model. -/
example : ∃ c l, load (loadWorld (loadGguf 0 0) loadBytes) = .ok (some c, l) ∧
    (tokensOf c.vocab).length ≤ INVALID ∧
    ∀ k ∈ idKeys c.vocab, ∃ n, HasU32 (loadGguf 0 0) k n ∧ n ≠ INVALID := by
  obtain ⟨c, l, h⟩ := loads_some load_small
  have hv : (match load (loadWorld (loadGguf 0 0) loadBytes) with
      | .ok (some c, _) => decide ((tokensOf c.vocab).length ≤ INVALID) &&
        (match c.vocab with | .bert .. => true | .roberta _ => false)
      | _ => false) = true := by decide +kernel
  rw [h] at hv
  simp only [Bool.and_eq_true, decide_eq_true_eq] at hv
  refine ⟨c, l, h, hv.1, ?_⟩
  intro k hk
  have hu : ∀ k ∈ ["berts.cls_id", "berts.mask_id", "berts.pad_id", "berts.sep_id", "berts.unk_id"],
      u32 (loadGguf 0 0) k = .ok 0 := by decide +kernel
  cases hc : c.vocab with
  | bert v sp cond =>
    rw [hc] at hk
    exact ⟨0, (u32_iff _ _ _).1 (hu k hk), by decide⟩
  | roberta r =>
    rw [hc] at hv
    exact absurd hv.2 (by simp)

example : FilePlain (loadWorld (loadGguf 0 0) loadBytes) := by
  intro g size bytes ts hg hi hf hl
  cases Option.some.inj hg
  cases Option.some.inj hf
  have h := (loop_sound loadGg _ (loadNamesOk 0 0) (by
    have : ∀ t ∈ loadDir, 3 + t.offset < 2 ^ 64 := by decide +kernel
    exact this) _ _ loadBytes loadDir 0 0 _ [] ts (fun _ h => h) rfl rfl hl).2
  have hp : ∀ t ∈ loadedFrom (loadGguf 0 0) loadBytes (fun _ _ => 0) 0 loadDir, t.data.length ≤ 1 := by decide +kernel
  intro st dt hst hdt t hc
  have hm := List.mem_of_find?_eq_some hst
  rw [h, List.nil_append] at hm
  have := hp st hm
  have hlen : (cut st.data dt.data).length = st.data.length := by
    generalize st.data = a
    generalize dt.data = b
    induction a generalizing b with
    | nil => rfl
    | cons x a ih => simp [cut, ih]
  have := List.count_le_length (a := t) (l := cut st.data dt.data)
  omega

/-- Whether an outcome is undefined behaviour. -/
def undefined {β : Type} : Res β → Bool
  | .ub => true
  | _ => false

/-- C99 fails at the level INFO: a percent sign in the metadata (an URL here) makes loading undefined. -/
theorem C99_percent_counterexample (pr : Printed) (path : List Nat) :
    let w := loadWorld ⟨loadKv 0 0 ++ [(ascii "general.url", .str (bytes! "a%20b"))], loadDir, 3⟩ loadBytes
    loads w = some true ∧ loadL pr w path (setLevel St.init 1) = .ub := by
  intro w
  have hl : loads w = some true := by decide +kernel
  refine ⟨hl, ?_⟩
  obtain ⟨c, l, h⟩ := loads_some hl
  have ht : (match load w with
      | .ok (some c, _) => decide ((tokensOf c.vocab).length ≤ INVALID) && decide (c.type = 0)
      | _ => false) = true := by decide +kernel
  rw [h] at ht
  simp only [Bool.and_eq_true, decide_eq_true_eq] at ht
  obtain ⟨lines, h1, h2⟩ := C99_exact pr w path
  obtain ⟨g, size, hg, -, rfl⟩ := h2 c l h ht.1
  refine (h1 (setLevel St.init 1)).2 0 rfl ?_
  cases Option.some.inj hg
  refine ⟨_, List.mem_map.2 ⟨(fileLines ⟨loadKv 0 0 ++ [(ascii "general.url", .str (bytes! "a%20b"))], loadDir, 3⟩ 0).headD
    (line 0 []), List.mem_filter.2 ⟨?_, ?_⟩, rfl⟩, ?_⟩
  · unfold loadLines
    rw [ht.2]
    simp only [List.mem_append]
    exact .inl (.inl (.inl (.inl (.inl (.inl (.inr (by simp [fileLines])))))))
  · decide +kernel
  · intro t ht
    have h := of_prints ht
    have hu : undefined (printfText ((fileLines ⟨loadKv 0 0 ++ [(ascii "general.url", .str (bytes! "a%20b"))],
      loadDir, 3⟩ 0).headD (line 0 [])).2) = true := by decide +kernel
    rw [h] at hu
    cases hu

/-- The directory of a model with a vocabulary of two tokens of one byte. -/
def repeatDir : List TInfo :=
  [⟨ascii "berts.vocab.size", 1, [2], 16, 2, 0⟩, ⟨ascii "berts.vocab.data", 1, [2], 16, 2, 2⟩]

/-- Some texts and addresses. -/
def anyPrinted : Printed := ⟨fun _ => [], fun _ => 0⟩

/-- C99 fails at the default level: a vocabulary that has the token `%` twice is not rejected (as it is without
messages); the behaviour is undefined. -/
theorem C99_repeat_counterexample :
    let w := loadWorld ⟨loadKv 0 0, repeatDir, 3⟩ [0, 0, 0, 1, 1, 37, 37]
    loads w = some false ∧ undefined (loadL anyPrinted w (ascii "model.gguf") St.init) = true := by
  decide +kernel

/-! ## C100 -/

/-- Whether a load said something before it returned null, at a level; nothing if it did not return null. -/
def saidOnFailure (w : World Nat) (path : List Nat) (level : Int) : Option (List Nat) :=
  match loadL anyPrinted w path (setLevel St.init level) with
  | .ok ((none, _), s) => some (s.out 0)
  | _ => none

theorem hex_tame : ∀ k n : Nat, 37 ∉ hex k n ∧ 0 ∉ hex k n
  | 0, _ => ⟨by simp [hex], by simp [hex]⟩
  | k + 1, n => by
    have h := hex_tame k (n / 16)
    have hd : ∀ i, i < 16 → (bytes! "0123456789abcdef").getD i 0 ≠ 37 ∧ (bytes! "0123456789abcdef").getD i 0 ≠ 0 := by
      decide
    have hd := hd (n % 16) (Nat.mod_lt _ (by decide))
    rw [hex]
    simp only [List.mem_append, List.mem_singleton, not_or]
    exact ⟨⟨h.1, fun e => hd.1 e.symm⟩, h.2, fun e => hd.2 e.symm⟩

theorem object_tame {what : List Nat} (h : Tame what) (addr : Nat) : Tame (objectLine what addr).2 := by
  have := hex_tame 16 addr
  unfold objectLine line
  refine ⟨?_, ?_⟩
  · simp only [List.mem_append, not_or]
    exact ⟨⟨h.1, by decide⟩, this.1⟩
  · simp only [List.mem_append, not_or]
    exact ⟨⟨h.2, by decide⟩, this.2⟩

theorem freed_tame (pr : Printed) (m : List Nat) : ∀ x ∈ freedAfter pr m, Tame x.2 := by
  have : ∀ x ∈ allFreed pr, Tame x.2 := by
    intro x hx
    unfold allFreed at hx
    simp only [List.mem_cons, List.not_mem_nil, or_false] at hx
    rcases hx with rfl | rfl | rfl <;> exact object_tame (by decide : Plain _) _
  intro x hx
  unfold freedAfter at hx
  split at hx
  · exact this x (List.mem_of_mem_drop hx)
  split at hx
  · exact this x (List.mem_of_mem_drop hx)
  · exact this x hx

theorem prints_split : ∀ {ms ms' : List (List Nat)} {ts : List (List Nat)}, PrintsAll (ms ++ ms') ts →
    ∃ ts1 ts2, ts = ts1 ++ ts2 ∧ PrintsAll ms' ts2
  | [], _, ts, h => ⟨[], ts, rfl, h⟩
  | _ :: ms, ms', _, .cons (t := t) _ hs => by
    obtain ⟨ts1, ts2, rfl, h⟩ := prints_split (ms := ms) hs
    exact ⟨t :: ts1, ts2, rfl, h⟩

/-- C100, partial: at the default level (and at all others up to ERROR), if a load returns null though gguf could read the
file, the activation is GELU and the architecture is known, the last line in the log is an error that says why; only the
lines about what is freed come after it, at the level DEBUG.
(Missing: files that cannot be read, other activations and other architectures; see the counterexamples.) -/
theorem C100_reported_partial (pr : Printed) (w : World α) (path : List Nat) (g : Gguf)
    (hg : w.gguf = some g) (ha : HasU32 g "berts.hidden_act" 0)
    (hb : HasU32 g "berts.bert_type" 0 ∨ HasU32 g "berts.bert_type" 1) (s s' : St) (l : Ledger) (o : Nat)
    (hs : s.level ≤ 3) (ho : s.file = some o) (h : loadL pr w path s = .ok ((none, l), s')) :
    ∃ m ∈ loudEnds, ∃ t, s'.out o = s.out o ++ t ++ m ++ [10] ++
      (if s.level ≤ 0 then (freedAfter pr m).flatMap (·.2 ++ [10]) else []) := by
  obtain ⟨ls, h1, -, h3⟩ := loadL_tells (C := False) pr w path (fun h => h.elim)
  obtain ⟨g1, g2⟩ := says_outcome h1 s
  have hp : ∀ m ∈ heard s.level ls, ∃ t, Prints m t := by
    intro m hm
    refine Classical.byContradiction fun hn => ?_
    rw [g2 o ho ⟨m, hm, fun t ht => hn ⟨t, ht⟩⟩] at h
    cases h
  obtain ⟨s2, g3, g4⟩ := g1 (.inr hp)
  rw [g4] at h
  obtain ⟨x, hx, h⟩ := Handle.res_inv h
  cases Res.ok.inj h
  have hE := (h3 _ hx).2 rfl
  rw [List.nil_append] at hE
  have hloud : Loud pr ls := by
    rcases hE with ⟨hn, _⟩ | ⟨g', size, t, hg', hi, hf⟩
    · rw [hg] at hn
      cases hn
    · rw [hg] at hg'
      cases Option.some.inj hg'
      rcases hf with hf | ⟨hp', hh, hf⟩
      · exact hf
      · obtain ⟨k1, k2, k3, k4, k5, k6, k7, k8, -⟩ := hparams_iff g hp' hh
        rw [← u32_iff] at ha k1 k8
        rw [← u32_iff, ← u32_iff] at hb
        rw [ha] at k8
        have e8 := Res.ok.inj k8
        rcases hf with ⟨hf, -⟩ | ⟨-, hf1, hf2, -⟩
        · exact absurd e8.symm hf
        · rcases hb with hb | hb <;> rw [hb] at k1
          · exact absurd (Res.ok.inj k1).symm hf1
          · exact absurd (Res.ok.inj k1).symm hf2
  obtain ⟨m, hm, a, rfl⟩ := hloud
  obtain ⟨ts, k1, k2⟩ := g3.written o ho
  have hfr : heard s.level (freedAfter pr m) = if s.level ≤ 0 then (freedAfter pr m).map (·.2) else [] := by
    have h0 : ∀ x ∈ freedAfter pr m, x.1 = 0 := by
      have : ∀ x ∈ allFreed pr, x.1 = 0 := by
        intro x hx
        unfold allFreed at hx
        simp only [List.mem_cons, List.not_mem_nil, or_false] at hx
        rcases hx with rfl | rfl | rfl <;> rfl
      intro x hx
      unfold freedAfter at hx
      split at hx
      · exact this x (List.mem_of_mem_drop hx)
      split at hx
      · exact this x (List.mem_of_mem_drop hx)
      · exact this x hx
    unfold heard
    split
    · rw [List.filter_eq_self.2]
      intro x hx
      rw [h0 x hx]
      exact decide_eq_true ‹_›
    · rw [List.filter_eq_nil_iff.2]
      · rfl
      · intro x hx
        rw [h0 x hx]
        simpa using ‹¬ s.level ≤ 0›
  have hh : heard s.level (a ++ [line 3 m] ++ freedAfter pr m) =
      heard s.level a ++ ([m] ++ heard s.level (freedAfter pr m)) := by
    rw [heard_append, heard_append, List.append_assoc]
    congr 2
    unfold heard
    rw [List.filter_cons, if_pos (show decide (s.level ≤ (line 3 m).fst) = true from decide_eq_true hs)]
    rfl
  rw [hh] at k1
  obtain ⟨ts1, ts2, rfl, hpt⟩ := prints_split k1
  have hpl : ∀ m ∈ loudEnds, Tame m := by
    have : ∀ m ∈ loudEnds, Plain m := by decide
    exact this
  have ht : ts2 = [m] ++ heard s.level (freedAfter pr m) := by
    refine printsAll_tame hpt ?_
    intro x hx
    rcases List.mem_append.1 hx with hx | hx
    · cases List.mem_singleton.1 hx
      exact hpl m hm
    · obtain ⟨y, hy, rfl⟩ := List.mem_map.1 hx
      exact freed_tame pr m y (List.mem_filter.1 hy).1
  subst ht
  refine ⟨m, hm, ts1.flatMap (· ++ [10]), ?_⟩
  rw [k2, hfr]
  split <;> simp [List.flatMap_map]

/-- The hypotheses are met: a file without the last weights. -/
example : saidOnFailure (loadWorld ⟨loadKv 0 0, loadDir.dropLast, 3⟩ loadBytes) (ascii "model.gguf") 2 =
      some (bytes! "fail to load weights" ++ [10]) ∧
    u32 ⟨loadKv 0 0, loadDir.dropLast, 3⟩ "berts.hidden_act" = .ok 0 ∧
    u32 ⟨loadKv 0 0, loadDir.dropLast, 3⟩ "berts.bert_type" = .ok 0 := by decide +kernel

/-- C100 for the merges of a RoBERTa model: if they are refused, there is exactly one line, at levels up to INFO, that
names the id or the merged token that is not in the vocabulary, for the first merge that cannot be used; if they are
accepted nothing is written. -/
theorem C100_merges (start : Nat) (b : Bpe.Bpe) (i : Nat) (ms : List (Nat × Nat)) (ok : Bool) (b' : Bpe.Bpe)
    (h : b.addMerges start i ms = .ok (ok, b')) :
    ∃ ls, Says (addMergesL start b i ms) (.ok (ok, b')) ls ∧ (ok = true → ls = []) ∧
      (ok = false → ∃ m, MergeError b.idToToken b.tokenToId b.concat ms m ∧ ls = [line 1 m]) := by
  obtain ⟨ls, h1, -, h3⟩ := addMergesL_tells (C := False) (pre := []) start b i ms (fun h => h.elim)
  rw [List.nil_append, h] at h3
  obtain ⟨h3, h4⟩ := h3 _ rfl
  rw [h] at h1
  exact ⟨ls, h1, h3, by simpa using h4⟩

/-- Merges that are refused: the second id of the second merge is unknown. -/
example : let b : Bpe.Bpe := ⟨[], 0, false, [([97], 0), ([98], 1), ([97, 98], 2)], [(0, [97]), (1, [98]), (2, [97, 98])],
      [], [], []⟩
    (match b.addMerges 0 0 [(0, 1), (0, 7)] with | .ok (ok, _) => some ok | _ => none) = some false ∧
    b.idToToken 7 = none ∧ b.idToToken 0 = some [97] := by decide +kernel

/-- C100 fails: at the default level (and above), a load of a file that gguf cannot read returns null and writes
nothing, whatever the file name. -/
theorem C100_missing_counterexample (pr : Printed) (w : World α) (path : List Nat) (hg : w.gguf = none) (s : St)
    (hs : 2 ≤ s.level) : ∃ l, loadL pr w path s = .ok ((none, l), s) := by
  obtain ⟨ls, h1, -, h3⟩ := loadL_tells (C := False) pr w path (fun h => h.elim)
  have hl : ∃ l, load w = .ok (none, l) := by
    unfold load
    rw [hg]
    obtain ⟨h, e, o0, o1, f⟩ := ggCtor_none
    simp only
    rw [e, ok_bind']
    obtain ⟨l2, e2, _⟩ := closeGg_eq ⟨h, []⟩ none none o0 o1
    rw [e2, ok_bind']
    exact ⟨_, rfl⟩
  obtain ⟨l, hl⟩ := hl
  have hE := (h3 _ hl).2 rfl
  rw [List.nil_append] at hE
  rcases hE with ⟨_, rfl⟩ | ⟨g, size, t, hg', _⟩
  · refine ⟨l, ?_⟩
    rw [h1 s, hl, runLines_off (l := 1) (by omega) (by
      intro x hx
      simp only [List.mem_cons, List.not_mem_nil, or_false] at hx
      rcases hx with rfl | rfl <;> exact Int.le_refl 1)]
    rfl
  · rw [hg] at hg'
    cases hg'

/-- C100 fails: an activation other than GELU and an unknown architecture are rejected without a word at the default
level; at the level INFO both are reported. -/
theorem C100_unknown_counterexample :
    saidOnFailure (loadWorld (loadGguf 1 0) loadBytes) (ascii "model.gguf") 2 = some [] ∧
    saidOnFailure (loadWorld (loadGguf 0 2) loadBytes) (ascii "model.gguf") 2 = some [] ∧
    (saidOnFailure (loadWorld (loadGguf 1 0) loadBytes) (ascii "model.gguf") 1).map
      ((bytes! "unknown hidden_act: 1" ++ [10]).isSuffixOf ·) = some true ∧
    (saidOnFailure (loadWorld (loadGguf 0 2) loadBytes) (ascii "model.gguf") 1).map
      ((bytes! "unknown bert_type: 2" ++ [10]).isSuffixOf ·) = some true := by
  decide +kernel

end Berts.Props
