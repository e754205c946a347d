import Verif.Proofs.QuantizeLog
import Verif.Props.LoadLog
import Verif.Props.QuantizeFile

/-! # The messages of the quantizer: C110, C111 -/

namespace Berts.Props

open Berts.Quantize Berts.Load Berts.Log Berts.Format Berts.Spec
open Berts.Vocab (ascii)

variable {α F : Type}

/-- C110, every case: quantizing with messages has the outcome of quantizing without, unless
something that is written cannot be printed; then the behaviour is undefined.  The lines do not depend on the log.
Those of a conversion that succeeds are: the lines of loading the source, one line for each tensor that says whether it
was quantized and its sizes, and the totals with the histogram. -/
theorem C110_exact (pr : Printed) (cv : Conv F) (sh : Show F) (ver : Nat)
    (header : List (List Nat × Kv) → Nat → List Nat) (w : World α) (room : Option Nat) (qtype : Nat)
    (inPath outPath : List Nat) (hh : ∀ q xs, (sh.hist q xs).length = 16) :
    ∃ lines,
      (∀ s : St,
        (s.file = none ∨ (∀ m ∈ heard s.level lines, ∃ t, Prints m t) →
          ∃ s', LinesWritten s lines s' ∧ bertsModelQuantizeL pr cv sh ver header w room qtype inPath outPath s =
            (bertsModelQuantize cv ver header w room qtype).bind fun x => .ok (x, s')) ∧
        (∀ o, s.file = some o → (∃ m ∈ heard s.level lines, ∀ t, ¬ Prints m t) →
          bertsModelQuantizeL pr cv sh ver header w room qtype inPath outPath s = .ub)) ∧
      ∀ o, bertsModelQuantize cv ver header w room qtype = .ok (true, o) →
        ∃ c l g, load w = .ok (some c, l) ∧ w.gguf = some g ∧
          ((tokensOf c.vocab).length ≤ INVALID → (∀ t ∈ g.dir, 10 ∉ t.name ∧ 13 ∉ t.name) →
            ∃ size rs, (NamesOk g → size = needed w.gg g.dir % 2 ^ 64) ∧
              Each (TensorReported cv sh qtype c.tensors) (g.dir.map (·.name)) rs ∧
              lines = quantizeLines pr sh inPath (loadLines pr w.gg.align inPath g size c) rs) := by
  obtain ⟨ls, h1, -, h3⟩ := bertsModelQuantizeL_tells (C := False) pr cv sh ver header w room qtype inPath outPath hh
    (fun h => h.elim)
  refine ⟨ls, fun s => says_outcome h1 s, fun o ho => ?_⟩
  obtain ⟨c, l, g, rs, loaded, hl, hg, -, k1, k2, k3⟩ := (h3 _ ho).1 rfl
  refine ⟨c, l, g, hl, hg, fun ht hnl => ?_⟩
  obtain ⟨size, hi, rfl⟩ := k1 ht
  refine ⟨size, rs, fun hn => ?_, k2 hnl, by simpa using k3⟩
  unfold initGg at hi
  obtain ⟨_, _, hi⟩ := Handle.res_inv hi
  rw [sizeLoop_eq w.gg g hn _ _ (fun _ h => h) (by omega), Nat.zero_add] at hi
  exact (Res.ok.inj hi).symm

/-- C110 at the default level and above, partial: if the repeated tokens of the vocabulary (there are none if the load
succeeds) have no `%`, quantizing with messages has the outcome of quantizing without.  (Missing: a repeated token with
a percent sign; see `C99_repeat_counterexample`.) -/
theorem C110_default_partial (pr : Printed) (cv : Conv F) (sh : Show F) (ver : Nat)
    (header : List (List Nat × Kv) → Nat → List Nat) (w : World α) (room : Option Nat) (qtype : Nat)
    (inPath outPath : List Nat) (hh : ∀ q xs, (sh.hist q xs).length = 16) (hw : FilePlain w) (s : St)
    (hs : 2 ≤ s.level) :
    ∃ s', bertsModelQuantizeL pr cv sh ver header w room qtype inPath outPath s =
        (bertsModelQuantize cv ver header w room qtype).bind (fun x => .ok (x, s')) ∧
      s'.level = s.level ∧ s'.file = s.file ∧ ∀ o, s.file ≠ some o → s'.out o = s.out o := by
  obtain ⟨ls, h1, h2, -⟩ := bertsModelQuantizeL_tells (C := True) pr cv sh ver header w room qtype inPath outPath hh
    (fun _ => hw)
  have hc : Calm ls := by simpa using h2 trivial
  obtain ⟨s', h3, h4⟩ := (says_outcome h1 s).1 (.inr fun m hm => prints_tame (heard_calm hc hs m hm))
  exact ⟨s', h4, h3.level, h3.file, h3.others⟩

theorem heard_quantize (pr : Printed) (sh : Show F) (path : List Nat) (loaded : List (Int × List Nat)) (rs : List TensorReport)
    {level : Int} (hl : 2 ≤ level) : heard level (quantizeLines pr sh path loaded rs) = heard level loaded := by
  unfold quantizeLines
  simp only [heard_append]
  rw [heard_low hl (a := rs.map (reportLine sh)), heard_low hl (a := [line 1 (bytes! "start quantization")]),
    heard_low hl (a := [objectLine (bytes! "berts_init") (pr.addr .ctx), line 1 (bytes! "model loaded: " ++ path),
      objectLine (bytes! "gguf_init") sh.dst, line 1 (bytes! "converting...")]),
    heard_low hl (a := [line 1 (bytes! "writing metadata..."), summaryLine sh rs, line 1 (bytes! "quantization completed")]),
    heard_low hl (a := quantizeFreed pr sh)]
  · simp
  · simp [quantizeFreed, objectLine, line]
  · simp [line, summaryLine]
  · simp [objectLine, line]
  · simp [line]
  · simp [line, reportLine]

/-- C110 for a conversion that succeeds at the default level and above: nothing can go wrong, and what is written are
the warnings about the vocabulary of the source, unchanged. -/
theorem C110_success (pr : Printed) (cv : Conv F) (sh : Show F) (ver : Nat)
    (header : List (List Nat × Kv) → Nat → List Nat) (w : World α) (room : Option Nat) (qtype : Nat)
    (inPath outPath : List Nat) (hh : ∀ q xs, (sh.hist q xs).length = 16) (f : Option Out) (c : Ctx α) (l : Ledger)
    (g : Gguf) (h : bertsModelQuantize cv ver header w room qtype = .ok (true, f)) (hl : load w = .ok (some c, l))
    (hg : w.gguf = some g) (ht : (tokensOf c.vocab).length ≤ INVALID) (s : St) (hs : 2 ≤ s.level) :
    ∃ s', bertsModelQuantizeL pr cv sh ver header w room qtype inPath outPath s = .ok ((true, f), s') ∧
      s'.level = s.level ∧ s'.file = s.file ∧
      ∀ o, s'.out o = s.out o ++
        (if s.file = some o then (heard s.level (vocabLines g c.vocab)).flatMap (· ++ [10]) else []) := by
  obtain ⟨ls, h1, -, h3⟩ := bertsModelQuantizeL_tells (C := False) pr cv sh ver header w room qtype inPath outPath hh
    (fun h => h.elim)
  obtain ⟨c', l', g', rs, loaded, hl', hg', -, k1, -, k3⟩ := (h3 _ h).1 rfl
  rw [hl] at hl'
  cases Res.ok.inj hl'
  cases Option.some.inj (hg.symm.trans hg')
  obtain ⟨size, hi, rfl⟩ := k1 ht
  rw [List.nil_append] at k3
  subst k3
  have hhe : heard s.level (quantizeLines pr sh inPath (loadLines pr w.gg.align inPath g size c) rs) =
      heard s.level (vocabLines g c.vocab) := by rw [heard_quantize _ _ _ _ _ hs, heard_load pr w.gg.align inPath g size c hs]
  have htame := heard_calm (calm_vocab g c.vocab) hs
  obtain ⟨s', g3, g4⟩ := (says_outcome h1 s).1 (.inr fun m hm => prints_tame (htame m (hhe ▸ hm)))
  rw [h] at g4
  refine ⟨s', g4, g3.level, g3.file, fun o => ?_⟩
  by_cases ho : s.file = some o
  · obtain ⟨ts, e1, e2⟩ := g3.written o ho
    rw [hhe] at e1
    rw [if_pos ho, e2, printsAll_tame e1 htame]
  · rw [if_neg ho, List.append_nil]
    exact g3.others o ho

/-- C111, partial: at the levels INFO and DEBUG, the last line in the log after a conversion that returned false says why;
only the lines about what is freed come after it, at the level DEBUG.  (Missing: the default level; see `C111_silent_counterexample`.) -/
theorem C111_reported_partial (pr : Printed) (cv : Conv F) (sh : Show F) (ver : Nat)
    (header : List (List Nat × Kv) → Nat → List Nat) (w : World α) (room : Option Nat) (qtype : Nat)
    (inPath outPath : List Nat) (hh : ∀ q xs, (sh.hist q xs).length = 16) (s s' : St) (f : Option Out) (o : Nat)
    (hs : s.level ≤ 1) (ho : s.file = some o)
    (h : bertsModelQuantizeL pr cv sh ver header w room qtype inPath outPath s = .ok ((false, f), s')) :
    ∃ m ∈ quantizeEnds pr sh inPath outPath, ∃ t before, Prints m.1 t ∧ s'.out o = s.out o ++ before ++ t ++ [10] ++
      (if s.level ≤ 0 then m.2.flatMap (·.2 ++ [10]) else []) := by
  obtain ⟨ls, h1, -, h3⟩ := bertsModelQuantizeL_tells (C := False) pr cv sh ver header w room qtype inPath outPath hh
    (fun h => h.elim)
  obtain ⟨g1, g2⟩ := says_outcome h1 s
  have hp : ∀ m ∈ heard s.level ls, ∃ t, Prints m t := by
    intro m hm
    refine Classical.byContradiction fun hn => ?_
    rw [g2 o ho ⟨m, hm, fun t ht => hn ⟨t, ht⟩⟩] at h
    cases h
  obtain ⟨s2, g3, g4⟩ := g1 (.inr hp)
  rw [g4] at h
  obtain ⟨x, hx, h⟩ := Handle.res_inv h
  cases Res.ok.inj h
  obtain ⟨a, m, hm, e⟩ := (h3 _ hx).2 rfl
  rw [List.nil_append] at e
  subst e
  obtain ⟨ts, k1, k2⟩ := g3.written o ho
  obtain ⟨m, tail⟩ := m
  have htail : tail = [] ∨ tail = quantizeFreed pr sh := by
    unfold quantizeEnds at hm
    rcases List.mem_cons.1 hm with hm | hm
    · cases hm; exact .inl rfl
    · obtain ⟨_, _, hm⟩ := List.mem_map.1 hm
      cases hm; exact .inr rfl
  have h0 : ∀ x ∈ tail, x.1 = 0 ∧ Tame x.2 := by
    intro x hx
    rcases htail with rfl | rfl
    · cases hx
    · simp only [quantizeFreed, List.mem_cons, List.not_mem_nil, or_false] at hx
      rcases hx with rfl | rfl <;> exact ⟨rfl, object_tame (by decide : Plain _) _⟩
  have hfr : heard s.level tail = if s.level ≤ 0 then tail.map (·.2) else [] := by
    unfold heard
    split
    · rw [List.filter_eq_self.2]
      intro x hx
      rw [(h0 x hx).1]
      exact decide_eq_true ‹_›
    · rw [List.filter_eq_nil_iff.2]
      · rfl
      · intro x hx
        rw [(h0 x hx).1]
        simpa using ‹¬ s.level ≤ 0›
  have hhe : heard s.level (a ++ [line 1 m] ++ tail) = heard s.level a ++ ([m] ++ heard s.level tail) := by
    rw [heard_append, heard_append, List.append_assoc]
    congr 2
    unfold heard
    rw [List.filter_cons, if_pos (show decide (s.level ≤ (line 1 m).fst) = true from decide_eq_true hs)]
    rfl
  rw [hhe] at k1
  obtain ⟨ts1, ts2, rfl, hpt⟩ := prints_split k1
  rw [List.singleton_append] at hpt
  cases hpt with
  | cons hpm hpt =>
    rename_i t ts3
    have := printsAll_tame hpt (by
      intro x hx
      obtain ⟨y, hy, rfl⟩ := List.mem_map.1 hx
      exact (h0 y (List.mem_filter.1 hy).1).2)
    subst this
    refine ⟨_, hm, t, ts1.flatMap (· ++ [10]), hpm, ?_⟩
    rw [k2, hfr]
    split <;> simp [List.flatMap_map]

/-- C111 fails at the default level and above: if the source defines its special tokens and the output cannot be opened,
the conversion returns false and writes nothing. -/
theorem C111_silent_counterexample (pr : Printed) (cv : Conv F) (sh : Show F) (ver : Nat)
    (header : List (List Nat × Kv) → Nat → List Nat) (w : World α) (qtype : Nat) (hq : qtype < 19)
    (inPath outPath : List Nat) (c : Ctx α) (l : Ledger) (g : Gguf) (hl : load w = .ok (some c, l))
    (hg : w.gguf = some g) (ht : (tokensOf c.vocab).length ≤ INVALID)
    (hk : ∀ k ∈ idKeys c.vocab, ∃ n, HasU32 g k n ∧ n ≠ INVALID) (s : St) (hs : 2 ≤ s.level) :
    ∃ s', bertsModelQuantizeL pr cv sh ver header w none qtype inPath outPath s = .ok ((false, none), s') ∧
      ∀ o, s'.out o = s.out o := by
  obtain ⟨s', h1, h2, h3, h4⟩ := C99_quiet pr w inPath c l g hl hg ht hk s hs
  refine ⟨s', ?_, h4⟩
  have off : ∀ (s : St) (m : List Nat), 2 ≤ s.level → say .info m s = .ok ((), s) := by
    intro s m h
    show (writeIf 1 s m).bind _ = _
    unfold writeIf
    rw [if_neg (by omega)]
    rfl
  have offF : ∀ (s : St) (v : Sev) (f : List Nat) (args : List Arg), 2 ≤ s.level → v = .info ∨ v = .error ∨ v = .debug →
      sayF v f args s = .ok ((), s) := by
    intro s v f args h hv
    have : isLogging s 1 = false := by simp [isLogging]; omega
    have : isLogging s 0 = false := by simp [isLogging]; omega
    rcases hv with rfl | rfl | rfl <;> simp [sayF, formatted, *, Res.bind]
  have hf : ftype qtype = .ok () := by unfold ftype; rw [if_pos hq]
  unfold bertsModelQuantizeL
  rw [bindM, off s _ hs]
  simp only [Res.bind]
  rw [bindM, ftypeName_ok, hf]
  simp only [Res.bind, lift]
  rw [bindM, h1]
  simp only [Res.bind, hg]
  have hi : onInit pr .ctx s' = .ok ((), s') := offF s' .debug _ _ (by omega) (.inr (.inr rfl))
  have hd : onDispose pr .ctx s' = .ok ((), s') := offF s' .debug _ _ (by omega) (.inr (.inr rfl))
  rw [bindM, hi]
  simp only [Res.bind]
  rw [bindM, offF s' .info _ _ (by omega) (.inl rfl)]
  simp only [Res.bind]
  rw [bindM, offF s' .debug _ _ (by omega) (.inr (.inr rfl))]
  simp only [Res.bind]
  unfold modelQuantizeL
  simp only
  rw [bindM, bindM, offF s' .error _ _ (by omega) (.inr (.inl rfl))]
  simp only [Res.bind, pure]
  rw [bindM, offF s' .debug _ _ (by omega) (.inr (.inr rfl))]
  simp only [Res.bind]
  rw [bindM, hd]
  rfl

/-! ## Examples -/

def exShow : Show Nat :=
  ⟨fun n => Vocab.decimal (n / 1024), fun n => Vocab.decimal (n / 1048576), fun v s => Vocab.decimal (1000 * v / s),
    fun _ xs => (List.range 16).map fun i => (xs.filter (· % 16 == i)).length, 4096⟩

example : ∀ q xs, (exShow.hist q xs).length = 16 := by intro q xs; simp [exShow]

/-- What is written at a level when the small file of C80 is converted. -/
def qfSaid (room : Option Nat) (level : Int) : Option (Bool × List Nat) :=
  match bertsModelQuantizeL anyPrinted qfConv exShow 2 qfHeader (qfWorld []) room 8 (ascii "a.gguf") (ascii "b.gguf")
    (setLevel St.init level) with
  | .ok ((b, _), s) => some (b, s.out 0)
  | _ => none

/-- The hypotheses of the theorems can be met: a conversion that succeeds, quietly or with messages, and one that fails,
quietly or with messages. -/
example : qfSaid (some 2000) 2 = some (true, []) ∧ (qfSaid (some 2000) 1).map (·.1) = some true ∧
    (qfSaid none 1).map (·.1) = some false ∧ qfSaid none 2 = some (false, []) := by decide +kernel

end Berts.Props
