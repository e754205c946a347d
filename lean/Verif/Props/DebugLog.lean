import Verif.Props.QuantizeLog
import Verif.Props.EvalLog

/-! # Properties C114 and C115: what the log says at the level DEBUG -/

namespace Berts.Props

open Berts.Vocab Berts.Spec Berts.Log Berts.Format Berts.Load
open Berts.Bert (ok_bind')

variable {α F : Type}

/-! ## C114 -/

theorem entryFor_self {g : Gguf} (hn : NamesOk g) {t : TInfo} (ht : t ∈ g.dir) : entryFor g t = t := by
  have hu : ∀ u ∈ g.dir, u.name.take 63 = u.name := fun u hu => List.take_of_length_le (by have := hn.2 u hu; omega)
  obtain ⟨hnd, hlen⟩ := hn
  unfold entryFor
  generalize g.dir = dir at *
  induction dir with
  | nil => cases ht
  | cons u dir ih =>
    rw [List.find?_cons, hu u (by simp)]
    rw [List.map_cons, List.nodup_cons] at hnd
    rcases List.mem_cons.1 ht with rfl | ht
    · simp
    · have hne : u.name ≠ t.name := fun e => hnd.1 (e ▸ List.mem_map_of_mem ht)
      have : (u.name == t.name) = false := by simpa using hne
      rw [this]
      exact ih ht (fun x hx => hu x (by simp [hx])) hnd.2 (fun x hx => hlen x (by simp [hx]))

/-- The lines of a successful load, see `C99_exact`: what they do to a log is said there. -/
theorem load_lines (pr : Printed) {w : World α} (path : List Nat) {c : Ctx α} {l : Ledger} {g : Gguf}
    (h : load w = .ok (some c, l)) (hg : w.gguf = some g) (ht : (tokensOf c.vocab).length ≤ INVALID) :
    ∃ size, Says (loadL pr w path) (.ok (some c, l)) (loadLines pr w.gg.align path g size c) := by
  obtain ⟨ls, h1, -, h3⟩ := loadL_tells (C := False) pr w path (fun h => h.elim)
  obtain ⟨g', size, hg', -, -, hls⟩ := (h3 _ h).1 c rfl
  cases Option.some.inj (hg.symm.trans hg')
  refine ⟨size, h1.congr h (by simpa using hls ht)⟩

theorem says_heard {f : LogM α} {a : α} {ls : List (Int × List Nat)} (h : Says f (.ok a) ls) {s s' : St} {a' : α}
    (hf : f s = .ok (a', s')) : LinesWritten s ls s' := by
  obtain ⟨g1, g2⟩ := says_outcome h s
  cases hs : s.file with
  | none =>
    obtain ⟨s2, k1, k2⟩ := g1 (.inl hs)
    rw [hf] at k2
    cases Res.ok.inj k2
    exact k1
  | some o =>
    have hp : ∀ m ∈ heard s.level ls, ∃ t, Prints m t := by
      intro m hm
      refine Classical.byContradiction fun hn => ?_
      rw [g2 o hs ⟨m, hm, fun t ht => hn ⟨t, ht⟩⟩] at hf
      cases hf
    obtain ⟨s2, k1, k2⟩ := g1 (.inr hp)
    rw [hf] at k2
    cases Res.ok.inj k2
    exact k1

/-- C114: at the level DEBUG a successful load writes, for each tensor of the directory, a line with the number and the
data of this tensor. -/
theorem C114_directory (pr : Printed) (w : World α) (path : List Nat) (c : Ctx α) (l : Ledger) (g : Gguf)
    (h : load w = .ok (some c, l)) (hg : w.gguf = some g) (ht : (tokensOf c.vocab).length ≤ INVALID) (hn : NamesOk g)
    (s s' : St) (r : Option (Ctx α) × Ledger) (hs : loadL pr w path s = .ok (r, s')) :
    ∃ lines, LinesWritten s lines s' ∧ ∀ i t, g.dir[i]? = some t →
      line 0 (bytes! "  tensor " ++ decimal i ++ bytes! "\n    name: " ++ t.name ++ bytes! " (" ++ t.name ++
        bytes! ")\n    n_dims: " ++ decimal t.ndims ++ bytes! "\n    size: " ++ decimal t.nbytes ++
        bytes! "\n    padded_size: " ++ decimal ((t.nbytes + w.gg.align - 1) / w.gg.align * w.gg.align) ++
        bytes! "\n    offset: " ++ decimal t.offset) ∈ lines := by
  obtain ⟨size, h1⟩ := load_lines pr path h hg ht
  refine ⟨_, says_heard h1 hs, fun i t hi => ?_⟩
  have hm : entryLine w.gg.align g t i ∈ loadLines pr w.gg.align path g size c := by
    unfold loadLines dirLines
    simp only [List.mem_append]
    exact .inl (.inl (.inl (.inl (.inl (.inr (List.mem_map.2 ⟨(t, i), List.mem_zipIdx_iff_getElem?.2 hi, rfl⟩))))))
  unfold entryLine at hm
  rw [entryFor_self hn (List.mem_of_getElem? hi)] at hm
  exact hm

/-- Some line says that a tensor is stored. -/
def SaidStored (lines : List (Int × List Nat)) (k : List Nat) : Prop := line 0 (bytes! "  store " ++ k) ∈ lines

theorem not_store_search (V : List (List Nat)) (g : Gguf) (k : String) (names : List (List Nat)) (x : List Nat) :
    line 0 x ∉ searchLines V g k names := by
  have hf : ∀ (names : List (List Nat)) (last : List Nat), line 0 x ∉ fallbackLines V last names := by
    intro names
    induction names with
    | nil => intro last; simp [fallbackLines, line]
    | cons a as ih =>
      intro last
      unfold fallbackLines
      split
      · simp [line]
      · simp only [List.mem_cons, not_or]
        exact ⟨by simp [line], by simp [line], ih a⟩
  unfold searchLines
  split
  · split
    · exact hf _ _
    · simp
  · exact hf _ _

theorem not_store_token (V : List (List Nat)) (id : Nat) (x : List Nat) : line 0 x ∉ noToken V id := by
  unfold noToken
  split <;> simp [line]

theorem not_store_option (b : Bool) (c : Bert.TokInfo) (x : List Nat) : line 0 x ∉ optionLines b c := by
  unfold optionLines
  simp only [List.mem_cons, List.not_mem_nil, or_false]
  rintro (h | h)
  · have e : (0 : Int) = 1 := congrArg Prod.fst h
    exact absurd e (by decide)
  · have e : (0 : Int) = 1 := congrArg Prod.fst h
    exact absurd e (by decide)

theorem not_store_vocab (g : Gguf) (v : VocabR) (x : List Nat) : line 0 x ∉ vocabLines g v := by
  intro h
  cases v with
  | bert v sp cond =>
    unfold vocabLines at h
    simp only [List.mem_append, List.mem_singleton] at h
    rcases h with (((((((((h | h) | h) | h) | h) | h | h) | h | h) | h | h) | h | h) | h | h) | h
    all_goals first
      | exact not_store_search _ _ _ _ _ h
      | exact not_store_token _ _ _ h
      | exact not_store_option _ _ _ h
      | simp [idLine, line] at h
  | roberta r =>
    unfold vocabLines at h
    simp only [List.mem_append, List.mem_flatMap] at h
    rcases h with ((((((((h | h) | h) | h) | h) | h) | h) | ⟨id, _, h⟩) | h) | h
    all_goals first
      | exact not_store_search _ _ _ _ _ h
      | exact not_store_token _ _ _ h
      | simp [idLine, line] at h

/-- The beginnings of the other lines of the level DEBUG. -/
def debugHeads : List (List Nat) :=
  [bytes! "  key ", bytes! "  tensor ", bytes! "  load ", bytes! "  vocab count: ", bytes! "  merge count: ",
   bytes! "loading BPE vocab", bytes! "  merge", bytes! "finish loading BPE vocab"]

theorem debug_lines (pr : Printed) (align : Nat) (path : List Nat) (g : Gguf) (size : Nat) (c : Ctx α) (x : List Nat)
    (hx : ∀ p ∈ debugHeads, p.isPrefixOf x = false) :
    line 0 x ∈ loadLines pr align path g size c ↔
      line 0 x = objectLine (bytes! "gguf_init") (pr.addr .gguf) ∨
      line 0 x = objectLine (bytes! "ggml_init") (pr.addr .weights) ∨
      line 0 x ∈ weightLines g c.hp.hp.nLayers ∨ line 0 x = objectLine (bytes! "ggml_free") (pr.addr .meta) := by
  have hst : ∀ (p m : List Nat), p ∈ debugHeads → line 0 (p ++ m) ≠ line 0 x := by
    intro p m hp e
    have h := hx p hp
    have e : p ++ m = x := congrArg Prod.snd e
    rw [← e, List.isPrefixOf_iff_prefix.2 (List.prefix_append p m)] at h
    cases h
  have h1 : ∀ {m : List Nat}, line 1 m ≠ line 0 x := by
    intro m e
    exact absurd (congrArg Prod.fst e) (by simp [line])
  have b2 : line 0 x ∉ fileLines g c.type := by
    unfold fileLines
    simp only [List.mem_append, List.mem_cons, List.not_mem_nil, or_false, not_or, List.mem_map]
    exact ⟨⟨fun e => h1 e.symm, fun e => h1 e.symm⟩, fun ⟨p, _, e⟩ => hst (bytes! "  key ") _ (by simp [debugHeads])
      (by simpa only [List.append_assoc] using e)⟩
  have b3 : line 0 x ∉ dirLines align g := by
    unfold dirLines entryLine
    simp only [List.mem_map]
    exact fun ⟨p, _, e⟩ => hst (bytes! "  tensor ") _ (by simp [debugHeads]) (by simpa only [List.append_assoc] using e)
  have b5 : line 0 x ∉ readLines g := by
    unfold readLines
    simp only [List.mem_map]
    exact fun ⟨p, _, e⟩ => hst (bytes! "  load ") _ (by simp [debugHeads]) (by simpa only [List.append_assoc] using e)
  have b6 : line 0 x ∉ [hparamsLine pr.dbl c.hp] := by
    simp only [List.mem_cons, List.not_mem_nil, or_false]
    exact fun e => h1 e.symm
  have b7 : line 0 x ∉
      [line 1 (bytes! "loading vocab"), line 0 (bytes! "  vocab count: " ++ decimal (tokensOf c.vocab).length)] := by
    simp only [List.mem_cons, List.not_mem_nil, or_false, not_or]
    exact ⟨fun e => h1 e.symm, fun e => hst _ _ (by simp [debugHeads]) e.symm⟩
  have b8 := not_store_vocab g c.vocab x
  have b9 : line 0 x ∉ mergeLines c.tensors c.vocab := by
    have hs : ∀ p ∈ debugHeads, line 0 p ≠ line 0 x := fun p hp => by simpa using hst p [] hp
    cases c.vocab with
    | bert => simp [mergeLines]
    | roberta r =>
      simp only [mergeLines, List.mem_cons, List.not_mem_nil, or_false, not_or]
      exact ⟨fun e => hst _ _ (by simp [debugHeads]) e.symm, fun e => hs _ (by simp [debugHeads]) e.symm,
        fun e => hs _ (by simp [debugHeads]) e.symm, fun e => hs _ (by simp [debugHeads]) e.symm⟩
  have b10 : line 0 x ∉ [line 1 (bytes! "finish loading vocab"), line 1 (bytes! "initializing weights")] := by
    simp only [List.mem_cons, List.not_mem_nil, or_false, not_or]
    exact ⟨fun e => h1 e.symm, fun e => h1 e.symm⟩
  have b11 : line 0 x ∉ [line 1 (bytes! "finish initializing weights")] := by
    simp only [List.mem_cons, List.not_mem_nil, or_false]
    exact fun e => h1 e.symm
  have b12 : ∀ m, (line 0 x = line 1 m) ↔ False := fun m => ⟨fun e => h1 e.symm, False.elim⟩
  unfold loadLines createLines sizeLine
  rw [List.mem_append, List.mem_append, List.mem_append, List.mem_append, List.mem_append, List.mem_append,
    List.mem_append, List.mem_append, List.mem_append, List.mem_append, List.mem_append, List.mem_append]
  simp only [b2, b3, b5, b6, b7, b8, b9, b10, b11, or_false, false_or, List.mem_cons, List.not_mem_nil, b12, or_assoc]

theorem line_inj {a b : List Nat} : line 0 a = line 0 b ↔ a = b := by simp [line]

theorem stored_lines (pr : Printed) (align : Nat) (path : List Nat) (g : Gguf) (size : Nat) (c : Ctx α) (k : List Nat) :
    SaidStored (loadLines pr align path g size c) k ↔ k ∈ lookedUp c.hp.hp.nLayers ++ headNames := by
  unfold SaidStored
  have hp : ∀ p ∈ debugHeads, p.isPrefixOf (bytes! "  store " ++ k) = false := by
    intro p hp
    simp only [debugHeads, List.mem_cons, List.not_mem_nil, or_false] at hp
    rcases hp with rfl | rfl | rfl | rfl | rfl | rfl | rfl | rfl <;> rfl
  rw [debug_lines _ _ _ _ _ _ _ hp]
  have no : ∀ what addr, (bytes! "  ").isPrefixOf (what ++ bytes! " @ " ++ hex 16 addr) = false →
      (line 0 (bytes! "  store " ++ k) = objectLine what addr ↔ False) := by
    intro what addr h
    unfold objectLine
    rw [line_inj]
    refine ⟨fun e => ?_, False.elim⟩
    rw [← e] at h
    simp [List.isPrefixOf] at h
  rw [no _ _ rfl, no _ _ rfl, no _ _ rfl]
  simp only [false_or, or_false]
  unfold weightLines storeLine
  simp only [List.mem_append, List.mem_map, List.mem_flatMap, List.mem_singleton]
  have h1 : ∀ {m : List Nat}, line 1 m ≠ line 0 (bytes! "  store " ++ k) := by
    intro m e
    exact absurd (congrArg Prod.fst e) (by simp [line])
  constructor
  · rintro ((⟨a, ha, e⟩ | ⟨a, ha, h | e⟩) | ⟨a, ha, e⟩)
    · rw [line_inj, List.append_cancel_left_eq] at e
      exact .inl (e ▸ ha)
    · split at h
      · cases h
      · exact absurd (List.mem_singleton.1 h).symm h1
    · rw [line_inj, List.append_cancel_left_eq] at e
      exact .inr (e ▸ ha)
    · exact absurd e h1
  · rintro (h | h)
    · exact .inl (.inl ⟨k, h, rfl⟩)
    · exact .inl (.inr ⟨k, h, .inr rfl⟩)

theorem looked_required (n : Nat) (k : List Nat) : k ∈ lookedUp n ↔ k ∈ requiredNames n := by
  rw [← needed_looked]
  exact mem_needed n k

/-- C114, exactly: the names that a successful load says it stores are those of the weights every model needs, and those
of the language-model head. -/
theorem C114_stored_exact (pr : Printed) (w : World α) (path : List Nat) (c : Ctx α) (l : Ledger) (g : Gguf)
    (h : load w = .ok (some c, l)) (hg : w.gguf = some g) (ht : (tokensOf c.vocab).length ≤ INVALID)
    (s s' : St) (r : Option (Ctx α) × Ledger) (hs : loadL pr w path s = .ok (r, s')) :
    ∃ lines, LinesWritten s lines s' ∧
      ∀ k, SaidStored lines k ↔ k ∈ requiredNames c.hp.hp.nLayers ∨ k ∈ headNames := by
  obtain ⟨size, h1⟩ := load_lines pr path h hg ht
  refine ⟨_, says_heard h1 hs, fun k => ?_⟩
  rw [stored_lines, List.mem_append, looked_required]

theorem load_found {w : World α} {c : Ctx α} {l : Ledger} (h : load w = .ok (some c, l)) {g : Gguf}
    (hg : w.gguf = some g) {k : List Nat} (hk : k ∈ requiredNames c.hp.hp.nLayers) : k ∈ g.dir.map (·.name) := by
  have o := load_cases h
  generalize hr : some c = r at o
  generalize l.acq = acq at o
  generalize l.h.freed = freed at o
  cases o with
  | noFile => cases hr
  | noPool => cases hr
  | noStream => cases hr
  | truncated => cases hr
  | finished g' size bytes' ts r acq freed hg' hi hp hf' hl f =>
    rw [hg] at hg'
    cases Option.some.inj hg'
    have hnames := loop_names _ _ _ _ _ _ _ _ _ _ hl
    cases f with
    | act => cases hr
    | arch => cases hr
    | create hp type r hh ha hb ht hft cr =>
      cases cr with
      | fail => cases hr
      | noWeights => cases hr
      | ok v ws hv hw =>
        cases hr
        have := (named_iff _ _).1 ⟨ws, (initWeights_iff _ _ _).1 hw⟩ k hk
        rw [List.map_nil, List.nil_append] at hnames
        rw [← hnames]
        exact (found_iff ts k).1 (by simpa using this)

/-- C114, partial: a tensor that a successful load says it stores is in the file, unless it belongs to the language-model
head.  (Missing: the head; see `C114_head_counterexample`.) -/
theorem C114_stored_partial (pr : Printed) (w : World α) (path : List Nat) (c : Ctx α) (l : Ledger) (g : Gguf)
    (h : load w = .ok (some c, l)) (hg : w.gguf = some g) (ht : (tokensOf c.vocab).length ≤ INVALID)
    (s s' : St) (r : Option (Ctx α) × Ledger) (hs : loadL pr w path s = .ok (r, s')) :
    ∃ lines, LinesWritten s lines s' ∧
      ∀ k, SaidStored lines k → k ∉ headNames → k ∈ g.dir.map (·.name) := by
  obtain ⟨lines, h1, h2⟩ := C114_stored_exact pr w path c l g h hg ht s s' r hs
  refine ⟨lines, h1, fun k hk hn => ?_⟩
  rcases (h2 k).1 hk with hk | hk
  · exact load_found h hg hk
  · exact absurd hk hn

/-- C114 fails: a model without a language-model head is loaded, and at the level DEBUG its tensors are said to be stored,
right after they were said to be missing. -/
theorem C114_head_counterexample :
    let w := loadWorld (loadGguf 0 0) loadBytes
    loads w = some true ∧ (∀ k ∈ headNames, k ∉ (loadGguf 0 0).dir.map (·.name)) ∧
    (match loadL anyPrinted w (ascii "model.gguf") (setLevel St.init 0) with
      | .ok ((some _, _), s) => decide ((headNames.flatMap fun k => bytes! "failed to read tensor: " ++ k ++ [10] ++
          bytes! "  store " ++ k ++ [10]) <:+: s.out 0)
      | _ => false) = true := by
  decide +kernel

/-! ## C115 -/

theorem hex_inj : ∀ (k a b : Nat), a < 16 ^ k → b < 16 ^ k → hex k a = hex k b → a = b
  | 0, a, b, ha, hb, _ => by simp at ha hb; omega
  | k + 1, a, b, ha, hb, h => by
    rw [hex, hex] at h
    have h := List.append_inj' h rfl
    have h1 := hex_inj k (a / 16) (b / 16) (by rw [Nat.pow_succ] at ha; omega) (by rw [Nat.pow_succ] at hb; omega) h.1
    have hd : ∀ i, i < 16 → ∀ j, j < 16 → (bytes! "0123456789abcdef").getD i 0 = (bytes! "0123456789abcdef").getD j 0 →
        i = j := by decide
    have h2 := hd _ (Nat.mod_lt a (by decide)) _ (Nat.mod_lt b (by decide)) (by simpa using h.2)
    omega

theorem object_inj {what : List Nat} {a b : Fin (2 ^ 63)} (h : objectLine what a = objectLine what b) : a = b := by
  unfold objectLine at h
  rw [line_inj, List.append_cancel_left_eq] at h
  exact Fin.ext (hex_inj 16 _ _ (Nat.lt_trans a.2 (by decide)) (Nat.lt_trans b.2 (by decide)) h)

/-- C115, partial: the quantizer announces the model and the new gguf context before it says that they are freed, with the
same addresses, and frees them in the reverse order.  (Missing: the ggml context of the header; see
`C115_header_counterexample`.) -/
theorem C115_quantizer_partial (pr : Printed) (cv : Quantize.Conv F) (sh : Quantize.Show F) (ver : Nat)
    (header : List (List Nat × Kv) → Nat → List Nat) (w : World α) (room : Option Nat) (qtype : Nat)
    (inPath outPath : List Nat) (hh : ∀ q xs, (sh.hist q xs).length = 16) (f : Option Quantize.Out)
    (h : Quantize.bertsModelQuantize cv ver header w room qtype = .ok (true, f)) (s s' : St) (r : Bool × Option Quantize.Out)
    (hs : Quantize.bertsModelQuantizeL pr cv sh ver header w room qtype inPath outPath s = .ok (r, s')) :
    ∃ a b c, LinesWritten s (a ++ [objectLine (bytes! "berts_init") (pr.addr .ctx)] ++ b ++
      [objectLine (bytes! "gguf_init") sh.dst] ++ c ++
      [objectLine (bytes! "gguf_free") sh.dst, objectLine (bytes! "berts_free") (pr.addr .ctx)]) s' := by
  obtain ⟨ls, h1, -, h3⟩ := Quantize.bertsModelQuantizeL_tells (C := False) pr cv sh ver header w room qtype inPath outPath
    hh (fun h => h.elim)
  obtain ⟨c, l, g, rs, loaded, -, -, -, -, -, e⟩ := (h3 _ h).1 rfl
  rw [List.nil_append] at e
  subst e
  rw [h] at h1
  have hw := says_heard h1 hs
  refine ⟨[line 1 (bytes! "start quantization")] ++ loaded, [line 1 (bytes! "model loaded: " ++ inPath)],
    [line 1 (bytes! "converting...")] ++ rs.map (reportLine sh) ++
    [line 1 (bytes! "writing metadata..."), summaryLine sh rs, line 1 (bytes! "quantization completed")], ?_⟩
  unfold quantizeLines quantizeFreed at hw
  simpa only [List.append_assoc, List.cons_append, List.nil_append] using hw

/-- C115 for the context in which a model is evaluated: it is announced, and freed at the very end.  (That these are the
lines of `berts_eval` is C103; in the other cases there is no context.) -/
theorem C115_eval (c : EvalCall) (e : EvalEnd) (he : e = .activation ∨ e = .done) :
    ∃ a b, c.lines e = a ++ [objectLine (bytes! "ggml_init") c.addr] ++ b ++ [objectLine (bytes! "ggml_free") c.addr] := by
  rcases he with rfl | rfl
  · exact ⟨[_, _, _, _, _], [_, _], rfl⟩
  · exact ⟨[_, _, _, _, _], [_, _], rfl⟩

/-- C115 for the context of the language-model head. -/
theorem C115_eval_lm (c : LmCall) (e : LmEnd) (he : e = .weights ∨ e = .geluNew ∨ e = .done) :
    ∃ a b, c.lines e = a ++ [objectLine (bytes! "ggml_init") c.addr] ++ b ++ [objectLine (bytes! "ggml_free") c.addr] := by
  have : ∀ l, ∃ a b, line 1 (bytes! "start LM " ++ c.name) :: (c.shape ++ c.pool ++ [l] ++
      [objectLine (bytes! "ggml_free") c.addr]) =
      a ++ [objectLine (bytes! "ggml_init") c.addr] ++ b ++ [objectLine (bytes! "ggml_free") c.addr] := by
    intro l
    refine ⟨line 1 (bytes! "start LM " ++ c.name) :: (c.shape ++
      (if c.Complains then [line 3 (bytes! "gelu_new is not implmented yet")] else [])),
      [line 0 (bytes! "  context buffer size = " ++ decimal c.size), l], ?_⟩
    unfold LmCall.pool
    simp
  rcases he with rfl | rfl | rfl <;> exact this _

/-- C115 fails: a successful load says that it frees the ggml context of the header, which was never announced (it is
stored in its handle directly). -/
theorem C115_header_counterexample (pr : Printed) (w : World α) (path : List Nat) (c : Ctx α) (l : Ledger) (g : Gguf)
    (h : load w = .ok (some c, l)) (hg : w.gguf = some g) (ht : (tokensOf c.vocab).length ≤ INVALID)
    (ha : pr.addr .meta ≠ pr.addr .weights)
    (s s' : St) (r : Option (Ctx α) × Ledger) (hs : loadL pr w path s = .ok (r, s')) :
    ∃ lines, LinesWritten s lines s' ∧ objectLine (bytes! "ggml_free") (pr.addr .meta) ∈ lines ∧
      objectLine (bytes! "ggml_init") (pr.addr .meta) ∉ lines := by
  obtain ⟨size, h1⟩ := load_lines pr path h hg ht
  refine ⟨_, says_heard h1 hs, ?_, ?_⟩
  · unfold loadLines
    simp
  · intro hm
    have hp : ∀ p ∈ debugHeads, p.isPrefixOf (bytes! "ggml_init" ++ bytes! " @ " ++ hex 16 (pr.addr .meta)) = false := by
      intro p hp
      simp only [debugHeads, List.mem_cons, List.not_mem_nil, or_false] at hp
      rcases hp with rfl | rfl | rfl | rfl | rfl | rfl | rfl | rfl <;> rfl
    rcases (debug_lines pr _ path g size c _ hp).1 hm with e | e | e | e
    · have := congrArg (fun x => x.2.take 9) e
      exact absurd this (by simp [objectLine, line])
    · exact ha (object_inj e)
    · unfold weightLines storeLine at e
      simp only [List.mem_append, List.mem_map, List.mem_flatMap, List.mem_singleton] at e
      rcases e with (⟨a, _, e⟩ | ⟨a, _, e | e⟩) | ⟨a, _, e⟩
      · exact absurd (congrArg (fun x => x.2.take 5) e) (by simp [line])
      · split at e
        · cases e
        · exact absurd (congrArg (fun x => x.1) (List.mem_singleton.1 e)) (by simp [line])
      · exact absurd (congrArg (fun x => x.2.take 5) e) (by simp [line])
      · exact absurd (congrArg (fun x => x.1) e) (by simp [line])
    · have := congrArg (fun x => x.2.take 9) e
      exact absurd this (by simp [objectLine, line])

/-- The hypotheses are met by the small model at the level DEBUG. -/
example : (match loadL anyPrinted (loadWorld (loadGguf 0 0) loadBytes) (ascii "model.gguf") (setLevel St.init 0) with
      | .ok ((some c, _), _) => decide ((tokensOf c.vocab).length ≤ INVALID)
      | _ => false) = true ∧
    (match load (loadWorld (loadGguf 0 0) loadBytes) with | .ok (some _, _) => true | _ => false) = true := by
  decide +kernel

example : NamesOk (loadGguf 0 0) := loadNamesOk 0 0

/-- Distinct addresses. -/
example : let pr : Printed := ⟨fun _ => [], fun r => match r with | .gguf => 16 | .meta => 32 | .weights => 48 | _ => 64⟩
    pr.addr .meta ≠ pr.addr .weights := by decide

end Berts.Props
