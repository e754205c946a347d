import Verif.Proofs.BpeWords

/-! # Properties C19–C27 and C60: byte pair encoding

The queue is an oracle `pick` (position of the top element in each iteration); `draw` are the
random numbers.  `RightPick` is the contract of `std::priority_queue`. -/

namespace Berts.Props

open Berts.Bpe Berts.Spec Berts.Unicode

/-- The top is some element of the queue. -/
def AnyPick (pick : Nat → List Entry → Nat) : Prop := ∀ t q, q ≠ [] → pick t q < q.length

/-- The top is an element of the queue and no element is greater. -/
def RightPick (pick : Nat → List Entry → Nat) : Prop :=
  ∀ t q, q ≠ [] → ∃ e, q[pick t q]? = some e ∧ ∀ f ∈ q, e.less f = false

/-- A correct priority queue. -/
def heapPick : Nat → List Entry → Nat := fun _ q => topIdx q

theorem heapPick_right : RightPick heapPick := fun _ q hq => topIdx_spec q hq

theorem RightPick.any {pick : Nat → List Entry → Nat} (h : RightPick pick) : AnyPick pick := by
  intro t q hq
  obtain ⟨e, he, _⟩ := h t q hq
  exact getElem?_lt he

/-- The merge table of an object as a function. -/
def table (b : Bpe) : MergeTable Nat := fun i j => find b.merge (i, j)

/-- Ids of the symbols before any merge. -/
def startIds (b : Bpe) (text : Str) : List Nat := (initialSymbols b text).map (·.id)

/-- `t0 t1 ↦` merged token for a continuation prefix of `n` code points. -/
def mergedToken (n : Nat) (t0 t1 : Str) : Str := if n = 0 then t0 ++ t1 else joined n t0 t1

/-- A vocabulary that maps different tokens to different ids (and is a map). -/
structure OneToOne (vocab : List (Str × Nat)) : Prop where
  keys : (vocab.map (·.1)).Nodup
  ids : (vocab.map (·.2)).Nodup
  units : ∀ p ∈ vocab, ∀ u ∈ p.1, u < 0x10000

/-- The vocabulary used in the examples. -/
def exBpeVocab : List (Str × Nat) :=
  [([97], 0), ([98], 1), ([99], 2), ([97, 98], 3), ([98, 99], 4), ([97, 98, 99], 5), ([63], 6)]

theorem exVocab_oneToOne : OneToOne exBpeVocab := ⟨by decide, by decide, by decide⟩

/-- The object obtained by loading the example vocabulary with merges b+c, a+b, a+bc. -/
def exBpe (dropout : Rat) (fuse : Bool) : Bpe :=
  match (Bpe.new [63] dropout fuse).loadVocab exBpeVocab [(1, 2), (0, 1), (0, 4)] with
  | .ok (_, b) => b
  | _ => Bpe.new [] 0 false

theorem exBpe_load (dropout : Rat) (fuse : Bool) :
    (Bpe.new [63] dropout fuse).loadVocab exBpeVocab [(1, 2), (0, 1), (0, 4)] =
      .ok (true, exBpe dropout fuse) := rfl

/-! ## C19 -/

/-- C19: for every vocabulary, merge table, dropout, stream of random numbers and even for a queue
that returns arbitrary elements, the loop ends within `9·len²` iterations and is free of undefined
behaviour. -/
theorem C19_terminates (b : Bpe) (draw : Nat → Rat) (pick : Nat → List Entry → Nat)
    (hp : AnyPick pick) (text : Str) (fuel : Nat)
    (hf : 9 * codepoints text * codepoints text ≤ fuel) :
    ∃ n S, n ≤ 9 * codepoints text * codepoints text ∧
      mergeAll ⟨b.merge, b.dropout, draw, pick⟩ fuel (initialSymbols b text) = .ok (S, n) := by
  obtain ⟨n, S, _, h1, h2, _⟩ := word_run b draw pick hp text fuel hf
  exact ⟨n, S, h1, h2⟩

/-- C19, the part of the linear bound that holds: without dropout at most `3·(len - 1)`
iterations.  With dropout the bound is quadratic, see `C19_linear_counterexample`. -/
theorem C19_linear_partial (b : Bpe) (draw : Nat → Rat) (pick : Nat → List Entry → Nat)
    (hp : AnyPick pick) (hd : b.dropout ≤ 0) (text : Str) (fuel : Nat)
    (hf : 3 * (codepoints text - 1) ≤ fuel) :
    ∃ n S, n ≤ 3 * (codepoints text - 1) ∧
      mergeAll ⟨b.merge, b.dropout, draw, pick⟩ fuel (initialSymbols b text) = .ok (S, n) := by
  have hlen := initIds_length b text
  obtain ⟨n, S, _, h1, h2, _⟩ := mergeAll_linear ⟨b.merge, b.dropout, draw, pick⟩ hp hd fuel
    (initIds b text) (initIds_pos b text) (by omega)
  rw [initialSymbols_eq]
  exact ⟨n, S, by omega, h2⟩

/-- The tokenizer for `a` and `aa` with dropout 1/2. -/
def slowBpe : Bpe :=
  ⟨[], 1 / 2, false, [([97], 0), ([97, 97], 1)], [(0, [97]), (1, [97, 97])], [((0, 0), (0, 1))], [], []⟩

theorem slow_initIds (m : Nat) : initIds slowBpe (List.replicate m 97) = List.replicate m (0, 1) := by
  have h1 : ∀ m, eachCp false (List.replicate m 97) = List.replicate m ⟨97, 0, 0⟩ := by
    intro m
    induction m with
    | zero => rfl
    | succ m ih =>
      rw [List.replicate_succ, List.replicate_succ, ← ih]
      have e : eachCpStep false 0 97 = (0, [⟨97, 0, 0⟩]) := by decide
      simp [eachCp, eachCpFrom, e]
  have h2 : ∀ n i m, charStrings slowBpe n i (List.replicate m ⟨97, 0, 0⟩) =
      List.replicate m ([97], 1) := by
    intro n i m
    induction m generalizing i with
    | zero => rfl
    | succ m ih =>
      rw [List.replicate_succ, List.replicate_succ, charStrings, ih]
      congr 1
      simp only [slowBpe]
      have e : codepoints [] = 0 := rfl
      split <;> split <;> simp [e, utf16Of]
  have h3 : ∀ m acc, addIds slowBpe acc (List.replicate m ([97], 1)) =
      acc ++ List.replicate m (0, 1) := by
    intro m
    induction m with
    | zero => intro acc; simp [addIds]
    | succ m ih =>
      intro acc
      have e : slowBpe.tokenToId [97] = some 0 := by decide
      rw [List.replicate_succ, addIds, e]
      simp only
      rw [ih]; simp [List.replicate_succ]
  unfold initIds
  rw [h1, h2, h3]; rfl

theorem slow_queue (k m : Nat) :
    (absQueue slowBpe.merge (blks k (List.replicate (m + 1) (0, 1)))).length = m := by
  induction m generalizing k with
  | zero => rfl
  | succ m ih =>
    rw [List.replicate_succ, List.replicate_succ, blks, blks, absQueue, List.length_append]
    have := ih (k + 1)
    rw [List.replicate_succ, blks] at this
    rw [this]
    simp only
    have e : find slowBpe.merge (0, 0) = some (0, 1) := by decide
    simp [pushPair, e]; omega

theorem slow_new (L : List Blk) (e : Entry) (L' : List Blk) (new : List Entry)
    (h : Fate slowBpe.merge L e L' new) : new = [] := by
  have hfind : ∀ i j, find slowBpe.merge (i, j) = if (0, 0) = (i, j) then some (0, 1) else none := by
    intro i j; rfl
  cases h with
  | stale => rfl
  | merge A x y B r hL hx hf =>
    have hid : e.newId = 1 := by
      rw [hfind] at hf
      split at hf
      · simp at hf; omega
      · cases hf
    have hp : ∀ k i, pushPair slowBpe.merge k i 1 = [] := by
      intro k i; unfold pushPair; rw [hfind, if_neg (by simp)]
    have hn : ∀ k i, pushPair slowBpe.merge k 1 i = [] := by
      intro k i; unfold pushPair; rw [hfind, if_neg (by simp)]
    rw [hid]
    unfold pushPrev pushNext
    cases A.getLast? <;> cases B <;> simp [hp, hn]

/-- The linear bound of C19 fails with dropout: for every constant `c` there is a text and a stream
of random numbers in `[0, 1)` for which more than `c·len` iterations are made (with dropout 1/2,
the merge a+a and a text of a's). -/
theorem C19_linear_counterexample (c : Nat) :
    ∃ (text : Str) (draw : Nat → Rat) (fuel n : Nat) (S : List Sym),
      (∀ t, 0 ≤ draw t ∧ draw t < 1) ∧ codepoints text ≠ 0 ∧
      mergeAll ⟨slowBpe.merge, slowBpe.dropout, draw, heapPick⟩ fuel (initialSymbols slowBpe text) =
        .ok (S, n) ∧ c * codepoints text < n := by
  have hcp : ∀ m, codepoints (List.replicate m 97) = m := by
    intro m
    induction m with
    | zero => rfl
    | succ m ih =>
      have : codepoints (97 :: List.replicate m 97) = codepoints (List.replicate m 97) + 1 := rfl
      rw [List.replicate_succ, this, ih]
  let draw : Nat → Rat := fun t => if sched (2 * c + 1) t then 0 else 1 / 2
  obtain ⟨n, S, a', h1, h2, h3, h4, h5⟩ := word_run slowBpe draw heapPick heapPick_right.any
    (List.replicate (2 * c + 2) 97) _ (Nat.le_refl _)
  refine ⟨List.replicate (2 * c + 2) 97, draw, _, n, S, ?_, by rw [hcp]; omega, h2, ?_⟩
  · intro t
    simp only [draw]
    split
    · exact ⟨by decide +kernel, by decide +kernel⟩
    · exact ⟨by decide +kernel, by decide +kernel⟩
  · rw [hcp]
    have hdr : ∀ t, Cfg.drops ⟨slowBpe.merge, slowBpe.dropout, draw, heapPick⟩ t ↔
        sched (2 * c + 1) t = true := by
      intro t
      simp only [Cfg.drops, draw, slowBpe]
      cases sched (2 * c + 1) t
      · simp only [Bool.false_eq_true, if_false, iff_false]
        intro h; exact absurd h.2 (by decide +kernel)
      · simp only [if_true, iff_true]; exact ⟨by decide +kernel, by decide +kernel⟩
    have hg := good_sched (Cfg.drops ⟨slowBpe.merge, slowBpe.dropout, draw, heapPick⟩) (2 * c + 1) 0
      (fun i => by rw [Nat.zero_add]; exact hdr i)
    rw [slow_initIds] at h3
    obtain ⟨g1, g2, g3⟩ := hg
    have := h3.slow slow_new h4 (2 * c) (2 * c) (Nat.le_refl _) (slow_queue 0 (2 * c + 1)) (by simp [absInit])
      g1 g2 g3
    have e : 2 * c * (2 * c + 1) = 2 * (c * (2 * c + 1)) := Nat.mul_assoc 2 c _
    have e2 : c * (2 * c + 2) = c * (2 * c + 1) + c := by
      rw [show 2 * c + 2 = (2 * c + 1) + 1 by omega, Nat.mul_add]; simp
    omega

example : ∃ S, mergeAll ⟨(exBpe 0 false).merge, 0, fun _ => 0, heapPick⟩ 81
    (initialSymbols (exBpe 0 false) [97, 98, 99]) = .ok (S, 3) ∧ S.map (·.id) = [5] := by
  refine ⟨[⟨5, none, none, 3⟩], by decide +kernel, by decide⟩

/-! ## C21 -/

/-- C21: without dropout no two adjacent symbols of the result are a pair of the merge table
(whatever the table, whatever the queue returns). -/
theorem C21_normal (b : Bpe) (draw : Nat → Rat) (pick : Nat → List Entry → Nat)
    (hp : AnyPick pick) (hd : b.dropout ≤ 0) (text : Str) (fuel : Nat)
    (hf : 9 * codepoints text * codepoints text ≤ fuel) :
    ∃ n S, mergeAll ⟨b.merge, b.dropout, draw, pick⟩ fuel (initialSymbols b text) = .ok (S, n) ∧
      Normal (table b) (S.map (·.id)) := by
  obtain ⟨n, S, a', h1, h2, h3, h4, h5⟩ := word_run b draw pick hp text fuel hf
  refine ⟨n, S, h2, ?_⟩
  rw [h5]
  exact (h3.covered (blks_sorted 0 _) (covered_init _ _)).1.normal h4 (h3.no_skip hd rfl)

example : AnyPick heapPick ∧ (exBpe 0 true).dropout ≤ 0 ∧
    9 * codepoints [97, 98] * codepoints [97, 98] ≤ 36 ∧ table (exBpe 0 true) 0 1 = some (1, 3) :=
  ⟨heapPick_right.any, by decide, by decide, by decide⟩

/-! ## C24 -/

/-- C24: with dropout 1 and random numbers below 1 the symbols stay those before any merge. -/
theorem C24_full_dropout (b : Bpe) (draw : Nat → Rat) (pick : Nat → List Entry → Nat)
    (hp : AnyPick pick) (hd : b.dropout = 1) (hdr : ∀ t, draw t < 1) (text : Str) (fuel : Nat)
    (hf : 9 * codepoints text * codepoints text ≤ fuel) :
    ∃ n S, mergeAll ⟨b.merge, b.dropout, draw, pick⟩ fuel (initialSymbols b text) = .ok (S, n) ∧
      S.map (·.id) = startIds b text := by
  obtain ⟨n, S, a', h1, h2, h3, h4, h5⟩ := word_run b draw pick hp text fuel hf
  refine ⟨n, S, h2, ?_⟩
  rw [h5, h3.all_drop, startIds, initSyms_ids]
  · exact absInit_ids _ _
  · intro t
    refine ⟨?_, ?_⟩
    · simp only [hd]; decide
    · simp only [hd]; exact hdr t

/-- C24: for every dropout value the result is reached from the characters by merges of the table
only. -/
theorem C24_reachable (b : Bpe) (draw : Nat → Rat) (pick : Nat → List Entry → Nat)
    (hp : AnyPick pick) (text : Str) (fuel : Nat)
    (hf : 9 * codepoints text * codepoints text ≤ fuel) :
    ∃ n S, mergeAll ⟨b.merge, b.dropout, draw, pick⟩ fuel (initialSymbols b text) = .ok (S, n) ∧
      Star (MergeStep (table b)) (startIds b text) (S.map (·.id)) := by
  obtain ⟨n, S, a', h1, h2, h3, h4, h5⟩ := word_run b draw pick hp text fuel hf
  refine ⟨n, S, h2, ?_⟩
  rw [h5, startIds, initSyms_ids, ← absInit_ids b.merge]
  exact h3.merges

/-- C24: with dropout 1 every character is its own token, if the vocabulary was loaded into a new
object and contains all characters of the text. -/
theorem C24_full_dropout_tokens (unk : Str) (fuse : Bool) (vocab : List (Str × Nat))
    (ms : List (Nat × Nat)) (b : Bpe) (hv : OneToOne vocab)
    (hload : (Bpe.new unk 1 fuse).loadVocab vocab ms = .ok (true, b)) (v : Env)
    (hp : AnyPick v.pick) (hdr : ∀ t, v.draw t < 1) (text : Str)
    (hf : 9 * codepoints text * codepoints text ≤ v.fuel)
    (hk : ∀ c ∈ toCodePoints text, utf16Of c ∈ vocab.map (·.1)) :
    tokensOf b v text = .ok ((toCodePoints text).map utf16Of) := by
  obtain ⟨hl, _, f2, _, f4, f5⟩ := loaded_of_load (by simp [Bpe.new]) hv.keys hv.ids hv.units hload
  obtain ⟨n, S, h1, h2⟩ := C24_full_dropout b v.draw v.pick hp f2 hdr text v.fuel hf
  unfold tokensOf
  rw [h1]
  simp only [Res.bind]
  rw [wordToTokens_eq, h2, startIds]
  have hc : charTokens b.prefx b.suffix (toCodePoints text) = (toCodePoints text).map utf16Of := by
    rw [f4, f5]; exact charTokens_plain _
  have hk' : ∀ s ∈ charTokens b.prefx b.suffix (toCodePoints text), ∃ id, b.tokenToId s = some id := by
    rw [hc]
    intro s hs
    obtain ⟨c, hc, rfl⟩ := List.mem_map.mp hs
    obtain ⟨⟨t, id⟩, hp, e⟩ := List.mem_map.mp (hk c hc)
    simp only at e
    exact ⟨id, (hl.tok _ _).mpr (e ▸ hp)⟩
  have := known_ids b text hk'
  rw [hc, List.map_map] at this
  congr 1
  apply List.ext_getElem?
  intro i
  have hi := congrArg (fun l => l[i]?) this
  simp only [List.getElem?_map] at hi ⊢
  cases h3 : (toCodePoints text)[i]? with
  | none => rw [h3] at hi; cases h4 : (initialSymbols b text)[i]? <;> simp_all
  | some c =>
    rw [h3] at hi
    cases h4 : (initialSymbols b text)[i]? with
    | none => rw [h4] at hi; simp at hi
    | some s =>
      rw [h4] at hi
      simp only [Option.map_some, Option.some.injEq, Function.comp_apply] at hi
      have := (hl.idt _ _).mpr ((hl.tok _ _).mp hi.symm)
      simp [Bpe.shown, this]

example : (∀ c ∈ toCodePoints [97, 98, 99], utf16Of c ∈ exBpeVocab.map (·.1)) ∧
    tokensOf (exBpe 1 false) ⟨fun _ => 1 / 2, heapPick, 81⟩ [97, 98, 99] = .ok [[97], [98], [99]] :=
  ⟨by decide, by decide +kernel⟩

/-! ## C20 -/

/-- C20 (partial: requires that different tokens have different ids): loading into a new object and
tokenizing a text whose characters are all in the vocabulary gives tokens that concatenate to the
text; for a text that is not well-formed UTF-16 the ill-formed units appear as U+FFFD. -/
theorem C20_lossless_partial (unk : Str) (dropout : Rat) (fuse : Bool) (vocab : List (Str × Nat))
    (ms : List (Nat × Nat)) (b : Bpe) (hv : OneToOne vocab)
    (hload : (Bpe.new unk dropout fuse).loadVocab vocab ms = .ok (true, b)) (v : Env)
    (hp : AnyPick v.pick) (text : Str)
    (hf : 9 * codepoints text * codepoints text ≤ v.fuel)
    (hk : ∀ c ∈ toCodePoints text, utf16Of c ∈ vocab.map (·.1)) :
    ∃ toks, tokensOf b v text = .ok toks ∧ toks.flatten = utf16Encode (toCodePoints text) := by
  obtain ⟨hl, _, f2, _, f4, f5⟩ := loaded_of_load (by simp [Bpe.new]) hv.keys hv.ids hv.units hload
  obtain ⟨n, S, h1, h2⟩ := C24_reachable b v.draw v.pick hp text v.fuel hf
  refine ⟨wordToTokens b S, by unfold tokensOf; rw [h1]; rfl, ?_⟩
  rw [wordToTokens_eq, ← List.flatMap_def]
  have hshown : ∀ t id, (t, id) ∈ vocab → b.shown id = t := by
    intro t id h
    unfold Bpe.shown
    rw [(hl.idt t id).mpr h]
  rw [mergeStep_string b.shown ?_ h2]
  · have hc : charTokens b.prefx b.suffix (toCodePoints text) = (toCodePoints text).map utf16Of := by
      rw [f4, f5]; exact charTokens_plain _
    have hk' : ∀ s ∈ charTokens b.prefx b.suffix (toCodePoints text),
        ∃ id, b.tokenToId s = some id := by
      rw [hc]
      intro s hs
      obtain ⟨c, hc, rfl⟩ := List.mem_map.mp hs
      obtain ⟨⟨t, id⟩, hp, e⟩ := List.mem_map.mp (hk c hc)
      simp only at e
      exact ⟨id, (hl.tok _ _).mpr (e ▸ hp)⟩
    have hid := known_ids b text hk'
    rw [hc] at hid
    have gen : ∀ (ids : List Nat) (cs : List Nat),
        ids.map some = (cs.map utf16Of).map b.tokenToId → ids.flatMap b.shown = utf16Encode cs := by
      intro ids
      induction ids with
      | nil =>
        intro cs h
        cases cs with
        | nil => rfl
        | cons c cs => simp at h
      | cons i ids ih =>
        intro cs h
        cases cs with
        | nil => simp at h
        | cons c cs =>
          simp only [List.map_cons, List.cons.injEq] at h
          rw [List.flatMap_cons, ih cs h.2, hshown _ _ ((hl.tok _ _).mp h.1.symm)]
          rfl
    exact gen _ _ hid
  · intro i j r n hij
    obtain ⟨s, t, m1, m2, m3⟩ := hl.mrg i j r n hij
    rw [hshown s i m1, hshown t j m2, hshown _ n m3]
    have : codepoints b.prefx = 0 := by rw [f4]; rfl
    simp [joinTok, this]

/-- C20 for well-formed text. -/
theorem C20_lossless_text_partial (unk : Str) (dropout : Rat) (fuse : Bool)
    (vocab : List (Str × Nat)) (ms : List (Nat × Nat)) (b : Bpe) (hv : OneToOne vocab)
    (hload : (Bpe.new unk dropout fuse).loadVocab vocab ms = .ok (true, b)) (v : Env)
    (hp : AnyPick v.pick) (cs : List Nat) (hcs : ∀ c ∈ cs, IsScalar c)
    (hf : 9 * cs.length * cs.length ≤ v.fuel)
    (hk : ∀ c ∈ cs, utf16Of c ∈ vocab.map (·.1)) :
    ∃ toks, tokensOf b v (utf16Encode cs) = .ok toks ∧ toks.flatten = utf16Encode cs := by
  have e : toCodePoints (utf16Encode cs) = cs := toCodePoints_encode cs hcs false
  have e2 : codepoints (utf16Encode cs) = cs.length := by
    have := congrArg List.length e
    simpa [codepoints, toCodePoints] using this
  have := C20_lossless_partial unk dropout fuse vocab ms b hv hload v hp (utf16Encode cs)
    (by rw [e2]; exact hf) (by rw [e]; exact hk)
  rw [e] at this
  exact this

example : (∀ c ∈ [97, 98, 99], utf16Of c ∈ exBpeVocab.map (·.1)) ∧
    tokensOf (exBpe 0 false) ⟨fun _ => 0, heapPick, 81⟩ [98, 99, 97, 98] =
      .ok [[98, 99], [97, 98]] := ⟨by decide, by decide +kernel⟩

/-- C20 fails if two tokens share an id: with `{a: 0, b: 0}` the text `a` becomes `b`. -/
theorem C20_alias_counterexample :
    ∃ b, (Bpe.new [] 0 false).loadVocab [([97], 0), ([98], 0)] [] = .ok (true, b) ∧
      tokensOf b ⟨fun _ => 0, heapPick, 9⟩ [97] = .ok [[98]] :=
  ⟨⟨[], 0, false, [([97], 0), ([98], 0)], [(0, [98])], [], [], []⟩, rfl, by decide +kernel⟩

/-! ## C22 -/

/-- What C22 assumes about the configuration: the object was new, prefix, suffix and unknown token
are well-formed, and the unknown token is not shorter than the prefix plus one character. -/
structure GoodConfig (b : Bpe) : Prop where
  empty : b.vocab = [] ∧ b.vocabR = [] ∧ b.merge = []
  pre : ∃ cs, b.prefx = utf16Encode cs ∧ ∀ c ∈ cs, IsScalar c
  suf : ∃ cs, b.suffix = utf16Encode cs ∧ ∀ c ∈ cs, IsScalar c
  unk : ∃ cs, b.unk = utf16Encode cs ∧ ∀ c ∈ cs, IsScalar c
  len : b.unk ≠ [] → codepoints b.prefx < codepoints b.unk

theorem GoodConfig.lens {b : Bpe} (h : GoodConfig b) {pc uc : List Nat}
    (h1 : b.prefx = utf16Encode pc) (h2 : ∀ c ∈ pc, IsScalar c) (h3 : b.unk = utf16Encode uc)
    (h4 : ∀ c ∈ uc, IsScalar c) (h5 : uc ≠ []) : pc.length < uc.length := by
  have cp : ∀ cs : List Nat, (∀ c ∈ cs, IsScalar c) → codepoints (utf16Encode cs) = cs.length := by
    intro cs hcs
    have := congrArg List.length (toCodePoints_encode cs hcs false)
    simpa [codepoints] using this
  have := h.len (by
    rw [h3]
    intro h0
    have := cp uc h4
    rw [h0] at this
    have e : codepoints [] = 0 := rfl
    rw [e] at this
    exact h5 (List.length_eq_zero_iff.mp this.symm))
  rwa [h1, h3, cp pc h2, cp uc h4] at this

/-- C22 (partial: requires that different tokens have different ids): with a correct priority queue
and without dropout the result is that of the textbook algorithm on the loaded merge table. -/
theorem C22_reference_partial (b0 b : Bpe) (h0 : GoodConfig b0) (vocab : List (Str × Nat))
    (ms : List (Nat × Nat)) (hv : OneToOne vocab) (hload : b0.loadVocab vocab ms = .ok (true, b))
    (hd : b0.dropout ≤ 0) (draw : Nat → Rat) (pick : Nat → List Entry → Nat) (hp : RightPick pick)
    (text : Str) (ht : ∀ u ∈ text, u < 0x10000) (fuel : Nat)
    (hf : 9 * codepoints text * codepoints text ≤ fuel) :
    ∃ n S, mergeAll ⟨b.merge, b.dropout, draw, pick⟩ fuel (initialSymbols b text) = .ok (S, n) ∧
      RefBpe (table b) (startIds b text) (S.map (·.id)) := by
  obtain ⟨hl, f1, f2, f3, f4, f5⟩ := loaded_of_load h0.empty hv.keys hv.ids hv.units hload
  obtain ⟨pc, p1, p2⟩ := h0.pre
  obtain ⟨sc, s1, s2⟩ := h0.suf
  obtain ⟨uc, u1, u2⟩ := h0.unk
  exact word_ref hl hv.ids draw pick (by rw [f2]; exact hd) hp pc sc uc (by rw [f4, p1]) p2
    (by rw [f5, s1]) s2 (by rw [f1, u1]) u2 (fun h => h0.lens p1 p2 u1 u2 h) text ht fuel hf

/-- The textbook algorithm has at most one result, so C22 determines the output. -/
theorem C22_reference_unique {α : Type} (tbl : MergeTable α) (w v v' : List α)
    (h : RefBpe tbl w v) (h' : RefBpe tbl w v') : v = v' := refBpe_unique h h'

/-- C22: the result does not depend on how the priority queue orders equal elements or on the
random numbers. -/
theorem C22_deterministic_partial (b0 b : Bpe) (h0 : GoodConfig b0) (vocab : List (Str × Nat))
    (ms : List (Nat × Nat)) (hv : OneToOne vocab) (hload : b0.loadVocab vocab ms = .ok (true, b))
    (hd : b0.dropout ≤ 0) (v v' : Env) (hp : RightPick v.pick) (hp' : RightPick v'.pick)
    (text : Str) (ht : ∀ u ∈ text, u < 0x10000)
    (hf : 9 * codepoints text * codepoints text ≤ v.fuel)
    (hf' : 9 * codepoints text * codepoints text ≤ v'.fuel) :
    tokensOf b v text = tokensOf b v' text := by
  obtain ⟨n, S, h1, h2⟩ := C22_reference_partial b0 b h0 vocab ms hv hload hd v.draw v.pick hp text ht
    v.fuel hf
  obtain ⟨n', S', h1', h2'⟩ := C22_reference_partial b0 b h0 vocab ms hv hload hd v'.draw v'.pick hp'
    text ht v'.fuel hf'
  have := refBpe_unique h2 h2'
  unfold tokensOf
  rw [h1, h1']
  simp only [Res.bind]
  rw [wordToTokens_eq, wordToTokens_eq, this]

/-- `tbl` is the textbook merge table of a list of token pairs. -/
def IsTableOf (pairs : List (Str × Str)) (tbl : MergeTable Str) : Prop :=
  ∀ s t r u, tbl s t = some (r, u) ↔ IsLastAt pairs (s, t) r ∧ u = s ++ t

/-- C22 from end to end on strings (partial: different tokens have different ids, all characters
known): load a vocabulary and a list of token pairs into a new tokenizer, tokenize a text; the
tokens are those of the textbook algorithm applied to the characters of the text. -/
theorem C22_strings_partial (unk : List Nat) (hunk : ∀ c ∈ unk, IsScalar c) (fuse : Bool)
    (vocab : List (Str × Nat)) (pairs : List (Str × Str)) (b : Bpe) (hv : OneToOne vocab)
    (hload : (Bpe.new (utf16Encode unk) 0 fuse).loadVocabPairs vocab pairs = .ok (true, b))
    (hlen : pairs.length ≤ 2 ^ 32) (v : Env) (hp : RightPick v.pick) (text : Str)
    (ht : ∀ u ∈ text, u < 0x10000) (hf : 9 * codepoints text * codepoints text ≤ v.fuel)
    (hk : ∀ c ∈ toCodePoints text, utf16Of c ∈ vocab.map (·.1))
    (tbl : MergeTable Str) (htbl : IsTableOf pairs tbl) :
    ∃ toks, tokensOf b v text = .ok toks ∧ RefBpe tbl ((toCodePoints text).map utf16Of) toks := by
  unfold Bpe.loadVocabPairs at hload
  cases hpi : pairIds vocab pairs with
  | none => rw [hpi] at hload; simp at hload
  | some ms =>
  rw [hpi] at hload
  simp only at hload
  have hcfg : GoodConfig (Bpe.new (utf16Encode unk) 0 fuse) := by
    refine ⟨by simp [Bpe.new], ⟨[], rfl, by simp⟩, ⟨[], rfl, by simp⟩, ⟨unk, rfl, hunk⟩, ?_⟩
    intro hne
    have h1 : codepoints (utf16Encode unk) = unk.length := by
      have := congrArg List.length (toCodePoints_encode unk hunk false)
      simpa [codepoints] using this
    simp only [Bpe.new]
    rw [h1]
    have h2 : codepoints [] = 0 := rfl
    rw [h2]
    apply List.length_pos_iff.mpr
    intro h; rw [h] at hne; exact hne rfl
  obtain ⟨n, S, h1, h2⟩ := C22_reference_partial _ b hcfg vocab ms hv hload (by decide : (0 : Rat) ≤ 0)
    v.draw v.pick hp text ht v.fuel hf
  obtain ⟨hl, _, _, _, f4, f5⟩ := loaded_of_load hcfg.empty hv.keys hv.ids hv.units hload
  obtain ⟨_, _, lf⟩ := load_frame hv.units
    (by intro id t h; simp [Bpe.idToToken, Bpe.new, find_nil] at h) hload
  have lf := lf rfl
  refine ⟨wordToTokens b S, by unfold tokensOf; rw [h1]; rfl, ?_⟩
  have hshown : ∀ t id, (t, id) ∈ vocab → b.shown id = t := by
    intro t id h
    unfold Bpe.shown
    rw [(hl.idt t id).mpr h]
  have hpre : codepoints b.prefx = 0 := by rw [f4]; rfl
  have hfv : ∀ t id, find vocab t = some id ↔ (t, id) ∈ vocab := by
    suffices H : ∀ (vocab : List (Str × Nat)), (vocab.map (·.1)).Nodup → ∀ t id,
        find vocab t = some id ↔ (t, id) ∈ vocab from H vocab hv.keys
    intro vocab hn t id
    induction vocab with
    | nil => simp [find]
    | cons p vocab ih =>
      obtain ⟨k, w⟩ := p
      simp only [List.map_cons, List.nodup_cons] at hn
      rw [find]
      split
      · rename_i hkt
        subst hkt
        simp only [Option.some.injEq, List.mem_cons, Prod.mk.injEq, true_and]
        constructor
        · intro h; left; exact h.symm
        · rintro (h | h)
          · exact h.symm
          · exact absurd (List.mem_map.mpr ⟨(k, id), h, rfl⟩) hn.1
      · rename_i hkt
        rw [ih hn.2]
        simp only [List.mem_cons, Prod.mk.injEq]
        constructor
        · exact Or.inr
        · rintro (h | h)
          · exact absurd h.1.symm hkt
          · exact h
  have hpm := (pairIds_spec vocab pairs ms).mp hpi
  have hpos : ∀ (k i j : Nat), ms[k]? = some (i, j) ↔
      ∃ s t, pairs[k]? = some (s, t) ∧ (s, i) ∈ vocab ∧ (t, j) ∈ vocab := by
    intro k i j
    have := congrArg (fun l => l[k]?) hpm
    simp only [List.getElem?_map] at this
    constructor
    · intro h
      rw [h] at this
      cases hpk : pairs[k]? with
      | none => rw [hpk] at this; simp at this
      | some st =>
        obtain ⟨s, t⟩ := st
        rw [hpk] at this
        simp only [Option.map_some, Option.some.injEq, Prod.mk.injEq] at this
        exact ⟨s, t, rfl, (hfv _ _).mp this.1.symm, (hfv _ _).mp this.2.symm⟩
    · rintro ⟨s, t, h1, h2, h3⟩
      rw [h1] at this
      cases hmk : ms[k]? with
      | none => rw [hmk] at this; simp at this
      | some ij =>
        obtain ⟨i', j'⟩ := ij
        rw [hmk] at this
        simp only [Option.map_some, Option.some.injEq, Prod.mk.injEq] at this
        rw [(hfv _ _).mpr h2, (hfv _ _).mpr h3] at this
        simp only [Option.some.injEq] at this
        rw [this.1, this.2]
  have hvinj : ∀ s t id, (s, id) ∈ vocab → (t, id) ∈ vocab → s = t := by
    intro s t id h1 h2
    rw [← hshown s id h1, hshown t id h2]
  have hlast : ∀ s t i j r, (s, i) ∈ vocab → (t, j) ∈ vocab →
      (IsLastAt pairs (s, t) r ↔ IsLastAt ms (i, j) r) := by
    intro s t i j r hs ht
    have hb : ∀ k : Nat, pairs[k]? = some (s, t) ↔ ms[k]? = some (i, j) := by
      intro k
      rw [hpos]
      constructor
      · intro h; exact ⟨s, t, h, hs, ht⟩
      · rintro ⟨s', t', h1, h2, h3⟩
        rw [h1, hvinj s' s i h2 hs, hvinj t' t j h3 ht]
    simp only [IsLastAt, hb]
  have hmslen : ms.length = pairs.length := by simpa using congrArg List.length hpm
  have hrank : ∀ i j r, IsLastAt ms (i, j) r → r % 2 ^ 32 = r := by
    intro i j r h
    have := getElem?_lt h.1
    exact Nat.mod_eq_of_lt (by omega)
  -- translate
  have hmap := refBpe_map b.shown (table b) tbl (fun id => ∃ s, (s, id) ∈ vocab) ?_ ?_ h2 ?_
  · rw [wordToTokens_eq]
    have hstart : (startIds b text).map b.shown = (toCodePoints text).map utf16Of := by
      have hc : charTokens b.prefx b.suffix (toCodePoints text) = (toCodePoints text).map utf16Of := by
        rw [f4, f5]; exact charTokens_plain _
      have hk' : ∀ s ∈ charTokens b.prefx b.suffix (toCodePoints text),
          ∃ id, b.tokenToId s = some id := by
        rw [hc]
        intro s hs
        obtain ⟨c, hc, rfl⟩ := List.mem_map.mp hs
        obtain ⟨⟨t, id⟩, hp, e⟩ := List.mem_map.mp (hk c hc)
        simp only at e
        exact ⟨id, (hl.tok _ _).mpr (e ▸ hp)⟩
      have hid := known_ids b text hk'
      rw [hc] at hid
      have gen : ∀ (ids : List Nat) (cs : List Str),
          ids.map some = cs.map b.tokenToId → ids.map b.shown = cs := by
        intro ids
        induction ids with
        | nil => intro cs h; cases cs with
          | nil => rfl
          | cons c cs => simp at h
        | cons i ids ih =>
          intro cs h
          cases cs with
          | nil => simp at h
          | cons c cs =>
            simp only [List.map_cons, List.cons.injEq] at h
            rw [List.map_cons, ih cs h.2, hshown _ _ ((hl.tok _ _).mp h.1.symm)]
      exact gen _ _ hid
    rw [hstart] at hmap
    exact hmap
  · rintro i j r m ⟨s, hs⟩ ⟨t, ht⟩ hm
    rw [hshown s i hs, hshown t j ht]
    obtain ⟨g1, g2⟩ := lf (i, j)
    have hmem : (i, j) ∈ ms := by
      apply Classical.byContradiction
      intro hne
      have := g1 hne
      unfold table at hm
      rw [this] at hm
      simp [Bpe.new, find_nil] at hm
    obtain ⟨k, hk⟩ := lastAt_exists ms (i, j) hmem
    obtain ⟨m', _, k2⟩ := g2 k hk
    unfold table at hm
    obtain ⟨s', t', m1, m2, m3⟩ := hl.mrg i j r m hm
    rw [k2] at hm
    simp only [Option.some.injEq, Prod.mk.injEq] at hm
    have hr : k = r := by
      rw [← hm.1]
      have h0 : (Bpe.new (utf16Encode unk) 0 fuse).merge.length = 0 := rfl
      rw [h0, Nat.zero_add, hrank i j k hk]
    subst hr
    have e1 := hvinj _ _ _ m1 hs
    have e2 := hvinj _ _ _ m2 ht
    subst e1; subst e2
    have hj : joinTok b s' t' = s' ++ t' := by simp [joinTok, hpre]
    rw [hj] at m3
    exact ⟨(htbl _ _ _ _).mpr ⟨(hlast _ _ _ _ _ hs ht).mpr hk, hshown _ _ m3⟩, _, m3⟩
  · rintro i j ⟨s, hs⟩ ⟨t, ht⟩ hn
    rw [hshown s i hs, hshown t j ht]
    cases hts : tbl s t with
    | none => rfl
    | some ru =>
      obtain ⟨r, u⟩ := ru
      have h3 := ((hlast s t i j r hs ht).mp ((htbl s t r u).mp hts).1)
      obtain ⟨m', _, k2⟩ := (lf (i, j)).2 r h3
      unfold table at hn
      rw [hn] at k2; cases k2
  · intro id hid
    have hc : charTokens b.prefx b.suffix (toCodePoints text) = (toCodePoints text).map utf16Of := by
      rw [f4, f5]; exact charTokens_plain _
    have hk' : ∀ s ∈ charTokens b.prefx b.suffix (toCodePoints text),
        ∃ id, b.tokenToId s = some id := by
      rw [hc]
      intro s hs
      obtain ⟨c, hc, rfl⟩ := List.mem_map.mp hs
      obtain ⟨⟨t, id⟩, hp, e⟩ := List.mem_map.mp (hk c hc)
      simp only at e
      exact ⟨id, (hl.tok _ _).mpr (e ▸ hp)⟩
    have hid2 := known_ids b text hk'
    have : some id ∈ (startIds b text).map some := List.mem_map.mpr ⟨id, hid, rfl⟩
    unfold startIds at this
    rw [hid2] at this
    obtain ⟨s, _, hs⟩ := List.mem_map.mp this
    exact ⟨s, (hl.tok s id).mp hs⟩

example : GoodConfig (Bpe.new [63] 0 true) ∧ RightPick heapPick ∧
    (Bpe.new [63] 0 true).loadVocabPairs exBpeVocab [([98], [99]), ([97], [98]), ([97], [98, 99])] =
      .ok (true, exBpe 0 true) ∧ (∀ c ∈ toCodePoints [97, 98, 99], utf16Of c ∈ exBpeVocab.map (·.1)) := by
  refine ⟨⟨by decide, ⟨[], rfl, by simp⟩, ⟨[], rfl, by simp⟩, ⟨[63], rfl, by simp [IsScalar]⟩, ?_⟩,
    heapPick_right, rfl, by decide⟩
  intro _; decide

/-- A textbook table of a list of pairs, for the example below. -/
def lastTable (pairs : List (Str × Str)) : MergeTable Str := fun s t =>
  ((List.range pairs.length).reverse.find? (fun i => pairs[i]? == some (s, t))).map (fun i => (i, s ++ t))

theorem lastTable_ok (pairs : List (Str × Str)) : IsTableOf pairs (lastTable pairs) := by
  intro s t r u
  unfold lastTable
  simp only [Option.map_eq_some_iff, Prod.mk.injEq]
  have hfind : ∀ r, (List.range pairs.length).reverse.find? (fun i => pairs[i]? == some (s, t)) = some r ↔
      IsLastAt pairs (s, t) r := by
    intro r
    have gen : ∀ n, (∀ j, pairs[j]? = some (s, t) → j < n) →
        ((List.range n).reverse.find? (fun i => pairs[i]? == some (s, t)) = some r ↔
          IsLastAt pairs (s, t) r) := by
      intro n
      induction n with
      | zero =>
        intro h
        simp only [List.range_zero, List.reverse_nil, List.find?_nil]
        constructor
        · intro h; cases h
        · intro hl; have := h r hl.1; omega
      | succ n ih =>
        intro h
        rw [List.range_succ, List.reverse_append]
        simp only [List.reverse_cons, List.reverse_nil, List.nil_append, List.singleton_append,
          List.find?_cons]
        by_cases hn : pairs[n]? = some (s, t)
        · simp only [hn, BEq.rfl]
          constructor
          · intro e
            simp only [Option.some.injEq] at e
            subst e
            exact ⟨hn, fun j hj => by have := h j hj; omega⟩
          · intro hl
            have h1 := hl.2 n hn
            have h2 := h r hl.1
            simp; omega
        · have : (pairs[n]? == some (s, t)) = false := by simpa using hn
          simp only [this]
          apply ih
          intro j hj
          have := h j hj
          rcases Nat.lt_or_ge j n with h' | h'
          · exact h'
          · have : j = n := by omega
            subst this; exact absurd hj hn
    apply gen
    intro j hj
    exact getElem?_lt hj
  constructor
  · rintro ⟨i, h1, rfl, rfl⟩
    exact ⟨(hfind _).mp h1, rfl⟩
  · rintro ⟨h1, rfl⟩
    exact ⟨r, (hfind _).mpr h1, rfl, rfl⟩

/-- C22 fails if two tokens share an id: `ab` and `abc` both have id 5, merges b+c, a+b, bc+d, a+bc.
After b+c the outdated entry for a+b passes the check `new_id` and a+bc is merged before bc+d. -/
theorem C22_alias_counterexample :
    ∃ b S n, (Bpe.new [] 0 false).loadVocab
        [([97], 0), ([98], 1), ([99], 2), ([100], 3), ([98, 99], 4), ([97, 98], 5), ([97, 98, 99], 5),
          ([98, 99, 100], 6)] [(1, 2), (0, 1), (4, 3), (0, 4)] = .ok (true, b) ∧
      mergeAll ⟨b.merge, b.dropout, fun _ => 0, heapPick⟩ 144 (initialSymbols b [97, 98, 99, 100]) =
        .ok (S, n) ∧ S.map (·.id) = [5, 3] ∧ startIds b [97, 98, 99, 100] = [0, 1, 2, 3] ∧
      RefBpe (table b) [0, 1, 2, 3] [0, 6] ∧ ¬ RefBpe (table b) [0, 1, 2, 3] [5, 3] := by
  refine ⟨⟨[], 0, false, [([97], 0), ([98], 1), ([99], 2), ([100], 3), ([98, 99], 4), ([97, 98], 5),
      ([97, 98, 99], 5), ([98, 99, 100], 6)],
    [(0, [97]), (1, [98]), (2, [99]), (3, [100]), (4, [98, 99]), (5, [97, 98, 99]), (6, [98, 99, 100])],
    [((1, 2), (0, 4)), ((0, 1), (1, 5)), ((4, 3), (2, 6)), ((0, 4), (3, 5))], [], []⟩,
    [⟨5, none, some 3, 3⟩, ⟨3, some 0, none, 1⟩], 4, rfl, by decide +kernel, rfl,
    by decide +kernel, ?_⟩
  have hT : ∀ i j, find [((1, 2), (0, 4)), ((0, 1), (1, 5)), ((4, 3), (2, 6)), ((0, 4), (3, 5))] (i, j) =
      if (1, 2) = (i, j) then some (0, 4) else if (0, 1) = (i, j) then some (1, 5) else
      if (4, 3) = (i, j) then some (2, 6) else if (0, 4) = (i, j) then some (3, 5) else none := by
    intro i j; rfl
  have key : RefBpe (fun i j => find [((1, 2), (0, 4)), ((0, 1), (1, 5)), ((4, 3), (2, 6)), ((0, 4), (3, 5))]
      (i, j)) [0, 1, 2, 3] [0, 6] := by
    have split : ∀ {w : List Nat} {p : List Nat} {i j : Nat} {q : List Nat},
        w = p ++ i :: j :: q → w[p.length]? = some i ∧ w[p.length + 1]? = some j ∧
          p.length + 1 < w.length := by
      intro w p i j q h
      subst h
      simp
    refine ⟨Star.head (b := [0, 4, 3]) ⟨[0], 1, 2, [3], 0, 4, rfl, by decide, rfl, ?_⟩
      (Star.head (b := [0, 6]) ⟨[0], 4, 3, [], 2, 6, rfl, by decide, rfl, ?_⟩ (Star.refl _)), ?_⟩
    · intro p i j q r n h1 h2
      obtain ⟨s1, s2, s3⟩ := split h1
      simp only [List.length_cons, List.length_nil] at s3
      have hp : p.length = 0 ∨ p.length = 1 ∨ p.length = 2 := by omega
      rcases hp with hp | hp | hp <;> rw [hp] at s1 s2 <;> simp at s1 s2 <;> subst s1 <;> subst s2 <;>
        simp only [hT] at h2 <;> simp at h2 ⊢ <;> omega
    · intro p i j q r n h1 h2
      obtain ⟨s1, s2, s3⟩ := split h1
      simp only [List.length_cons, List.length_nil] at s3
      have hp : p.length = 0 ∨ p.length = 1 := by omega
      rcases hp with hp | hp <;> rw [hp] at s1 s2 <;> simp at s1 s2 <;> subst s1 <;> subst s2 <;>
        simp only [hT] at h2 <;> simp at h2 ⊢ <;> omega
    · intro p i j q h1
      obtain ⟨s1, s2, s3⟩ := split h1
      simp only [List.length_cons, List.length_nil] at s3
      have hp : p.length = 0 := by omega
      rw [hp] at s1 s2
      simp at s1 s2
      subst s1; subst s2; decide
  refine ⟨key, fun h => ?_⟩
  have := refBpe_unique key h
  simp at this

/-! ## C23 -/

/-- A sequence of calls sharing one cache (`none`: no cache). -/
def tokenizeAll (b : Bpe) (v : Nat → Env) : List Str → Option (List (Str × List Str)) →
    Res (List (List Str))
  | [], _ => .ok []
  | t :: ts, cache =>
    (tokenize b (v ts.length) t [] cache).bind fun r =>
      (tokenizeAll b v ts r.2).bind fun rs => .ok (r.1 :: rs)

/-- The calls agree with a fixed environment. -/
theorem cache_invisible (b : Bpe) (v : Nat → Env) (w : Env)
    (hvw : ∀ i t, tokensOf b (v i) t = tokensOf b w t) (texts : List Str)
    (m : List (Str × List Str))
    (hm : ∀ t r, find m t = some r → tokensOf b w t = .ok r) :
    tokenizeAll b v texts (some m) = tokenizeAll b v texts none := by
  induction texts generalizing m with
  | nil => rfl
  | cons t ts ih =>
    rw [tokenizeAll, tokenizeAll]
    unfold tokenize
    by_cases h0 : t = []
    · simp only [h0, if_true, Res.bind]
      rw [ih m hm]
    · simp only [if_neg h0]
      rw [hvw]
      by_cases hd : b.dropout = 0
      · simp only [hd, if_true]
        cases hf : find m t with
        | some r =>
          simp only [hm t r hf, Res.bind]
          rw [ih m hm]
        | none =>
          simp only
          cases hr : tokensOf b w t with
          | ub => rfl
          | abort => rfl
          | hang => rfl
          | ok r =>
            simp only [Res.bind]
            rw [ih (assign m t r) (fun t' r' h => ?_)]
            rw [find_assign] at h
            split at h
            · rename_i e
              simp only [Option.some.injEq] at h
              rw [← h, e]; exact hr
            · exact hm t' r' h
      · simp only [if_neg hd]
        cases hr : tokensOf b w t with
        | ub => rfl
        | abort => rfl
        | hang => rfl
        | ok r =>
          simp only [Res.bind]
          rw [ih m hm]

/-- C23: any sequence of calls with a shared cache that starts empty gives the same results as
without a cache (also if dropout is not 0, where the cache is not used). -/
theorem C23_cache_invisible (b : Bpe) (v : Env) (texts : List Str) :
    tokenizeAll b (fun _ => v) texts (some []) = tokenizeAll b (fun _ => v) texts none :=
  cache_invisible b (fun _ => v) v (fun _ _ => rfl) texts [] (by simp [find])

/-- C23: the result of a call without a cache is appended to the result vector, and does not depend
on what was there. -/
theorem C23_uncached (b : Bpe) (v : Env) (text : Str) (result : List Str) :
    tokenize b v text result none =
      if text = [] then .ok (result, none)
      else (tokensOf b v text).bind fun ts => .ok (result ++ ts, none) := by
  unfold tokenize
  split <;> rfl

/-- C23 with a different tie-breaking and different random numbers in each call (partial: different
tokens have different ids). -/
theorem C23_cache_any_queue_partial (b0 b : Bpe) (h0 : GoodConfig b0) (vocab : List (Str × Nat))
    (ms : List (Nat × Nat)) (hv : OneToOne vocab) (hload : b0.loadVocab vocab ms = .ok (true, b))
    (hd : b0.dropout = 0) (v : Nat → Env) (hp : ∀ i, RightPick (v i).pick) (texts : List Str)
    (ht : ∀ t ∈ texts, ∀ u ∈ t, u < 0x10000)
    (hf : ∀ i, ∀ t ∈ texts, 9 * codepoints t * codepoints t ≤ (v i).fuel) :
    tokenizeAll b v texts (some []) = tokenizeAll b v texts none := by
  have gen : ∀ (m : List (Str × List Str)), (∀ t r, find m t = some r → ∀ i, t ∈ texts → tokensOf b (v i) t = .ok r) →
      ∀ ts, (∀ t ∈ ts, t ∈ texts) → tokenizeAll b v ts (some m) = tokenizeAll b v ts none := by
    intro m hm ts hts
    induction ts generalizing m with
    | nil => rfl
    | cons t ts ih =>
      have htin := hts t (by simp)
      have hts' : ∀ t ∈ ts, t ∈ texts := fun t h => hts t (by simp [h])
      rw [tokenizeAll, tokenizeAll]
      unfold tokenize
      by_cases he : t = []
      · simp only [he, if_true, Res.bind]
        rw [ih m hm hts']
      · have hbd : b.dropout = 0 := by
          obtain ⟨_, _, f2, _⟩ := loaded_of_load h0.empty hv.keys hv.ids hv.units hload
          rw [f2]; exact hd
        simp only [if_neg he, hbd, if_true]
        cases hfm : find m t with
        | some r =>
          simp only [hm t r hfm _ htin, Res.bind]
          rw [ih m hm hts']
        | none =>
          simp only
          cases hr : tokensOf b (v ts.length) t with
          | ub => rfl
          | abort => rfl
          | hang => rfl
          | ok r =>
            simp only [Res.bind]
            rw [ih (assign m t r) (fun t' r' h i hin => ?_) hts']
            rw [find_assign] at h
            split at h
            · rename_i e
              simp only [Option.some.injEq] at h
              rw [← h, e, ← hr]
              exact C22_deterministic_partial b0 b h0 vocab ms hv hload (by rw [hd]; decide) (v i)
                (v ts.length) (hp _) (hp _) t (ht t htin) (hf _ t htin) (hf _ t htin)
            · exact hm t' r' h i hin
  exact gen [] (by simp [find]) texts (fun _ h => h)

example : tokenizeAll (exBpe 0 false) (fun _ => ⟨fun _ => 0, heapPick, 81⟩)
    [[97, 98], [97, 98, 99], [97, 98]] (some []) = .ok [[[97, 98]], [[97, 98, 99]], [[97, 98]]] := by
  decide +kernel

/-! ## C25 -/

/-- C25: after loading into an empty object, lookups by token and by id are the given
vocabulary. -/
theorem C25_lookup (b0 b : Bpe) (h0 : b0.vocab = [] ∧ b0.vocabR = [] ∧ b0.merge = [])
    (vocab : List (Str × Nat)) (ms : List (Nat × Nat)) (hv : OneToOne vocab)
    (hload : b0.loadVocab vocab ms = .ok (true, b)) (t : Str) (id : Nat) :
    (b.tokenToId t = some id ↔ (t, id) ∈ vocab) ∧ (b.idToToken id = some t ↔ (t, id) ∈ vocab) := by
  obtain ⟨hl, _⟩ := loaded_of_load h0 hv.keys hv.ids hv.units hload
  exact ⟨hl.tok t id, hl.idt t id⟩

theorem pairResult_isSome (b : Bpe) (p : Nat × Nat) :
    (pairResult b p).isSome ↔ ∃ t0 t1 n, b.idToToken p.1 = some t0 ∧ b.idToToken p.2 = some t1 ∧
      b.tokenToId (mergedToken (codepoints b.prefx) t0 t1) = some n := by
  unfold pairResult
  cases h0 : b.idToToken p.1 with
  | none => simp
  | some t0 =>
    cases h1 : b.idToToken p.2 with
    | none => simp
    | some t1 =>
      simp only [Option.isSome_iff_exists]
      constructor
      · rintro ⟨n, hn⟩; exact ⟨t0, t1, n, rfl, rfl, hn⟩
      · rintro ⟨t0', t1', n, e0, e1, hn⟩
        simp only [Option.some.injEq] at e0 e1
        subst e0; subst e1
        exact ⟨n, hn⟩

/-- C25: loading into a new object ends with success or failure, and succeeds exactly if for each
pair the two ids and the id of the merged token are known.  (The lookups are those of the object
after the vocabulary was added; `C25_lookup` says what they are.) -/
theorem C25_success (unk : Str) (d : Rat) (fuse : Bool) (pre suf : Str) (vocab : List (Str × Nat))
    (hv : OneToOne vocab) (ms : List (Nat × Nat)) :
    ∃ ok b, ({ Bpe.new unk d fuse with prefx := pre, suffix := suf }).loadVocab vocab ms =
        .ok (ok, b) ∧
      (ok = true ↔ ∀ p ∈ ms, ∃ t0 t1 n, (t0, p.1) ∈ vocab ∧ (t1, p.2) ∈ vocab ∧
        (mergedToken (codepoints pre) t0 t1, n) ∈ vocab) := by
  let b0 : Bpe := { Bpe.new unk d fuse with prefx := pre, suffix := suf }
  have hbase : ∀ id t, b0.idToToken id = some t → ∀ u ∈ t, u < 0x10000 := by
    intro id t h; simp [b0, Bpe.idToToken, Bpe.new, find_nil] at h
  obtain ⟨l0, bl, hl0⟩ : ∃ ok b, b0.loadVocab vocab [] = .ok (ok, b) := ⟨true, b0.addVocab vocab, rfl⟩
  have hl0' : b0.loadVocab vocab [] = .ok (true, b0.addVocab vocab) := rfl
  obtain ⟨hl, _⟩ := loaded_of_load (b := b0) (by simp [b0, Bpe.new]) hv.keys hv.ids hv.units hl0'
  have huu : ∀ id t, (b0.addVocab vocab).idToToken id = some t → ∀ u ∈ t, u < 0x10000 :=
    fun id t h => hv.units (t, id) ((hl.idt t id).mp h)
  obtain ⟨ok, b, h1, h2, h3, h4⟩ := addMerges_spec b0.merge.length (b0.addVocab vocab) 0 ms huu
  refine ⟨ok, b, h1, ?_⟩
  rw [h3]
  have hpre : (b0.addVocab vocab).prefx = pre := by rw [addVocab_frame]
  apply forall_congr'
  intro p
  apply forall_congr'
  intro _
  rw [pairResult_isSome, hpre]
  constructor
  · rintro ⟨t0, t1, n, e0, e1, e2⟩
    exact ⟨t0, t1, n, (hl.idt _ _).mp e0, (hl.idt _ _).mp e1, (hl.tok _ _).mp e2⟩
  · rintro ⟨t0, t1, n, e0, e1, e2⟩
    exact ⟨t0, t1, n, (hl.idt _ _).mpr e0, (hl.idt _ _).mpr e1, (hl.tok _ _).mpr e2⟩

/-- C25: after a successful load a pair has an entry exactly if it is in the list; its rank is its
last position and its result is the id of the merged token (for lists of at most 2³² pairs, ranks
being 32-bit). -/
theorem C25_entries (b0 b : Bpe) (h0 : b0.vocab = [] ∧ b0.vocabR = [] ∧ b0.merge = [])
    (vocab : List (Str × Nat)) (ms : List (Nat × Nat)) (hv : OneToOne vocab)
    (hlen : ms.length ≤ 2 ^ 32) (hload : b0.loadVocab vocab ms = .ok (true, b)) (i j r n : Nat) :
    find b.merge (i, j) = some (r, n) ↔
      IsLastAt ms (i, j) r ∧ ∃ t0 t1, (t0, i) ∈ vocab ∧ (t1, j) ∈ vocab ∧
        (mergedToken (codepoints b0.prefx) t0 t1, n) ∈ vocab := by
  obtain ⟨hl, _, _, _, f4, _⟩ := loaded_of_load h0 hv.keys hv.ids hv.units hload
  obtain ⟨_, _, lf⟩ := load_frame hv.units
    (by intro id t h; simp [Bpe.idToToken, h0.2.1, find_nil] at h) hload
  obtain ⟨g1, g2⟩ := lf rfl (i, j)
  have h0l : b0.merge.length = 0 := by rw [h0.2.2]; rfl
  constructor
  · intro hf
    obtain ⟨s, t, m1, m2, m3⟩ := hl.mrg i j r n hf
    have hmem : (i, j) ∈ ms := by
      apply Classical.byContradiction
      intro hne
      rw [g1 hne, h0.2.2] at hf
      cases hf
    obtain ⟨k, hk⟩ := lastAt_exists ms (i, j) hmem
    obtain ⟨n', _, k2⟩ := g2 k hk
    rw [k2, h0l, Nat.zero_add] at hf
    simp only [Option.some.injEq, Prod.mk.injEq] at hf
    have hlt := getElem?_lt hk.1
    rw [Nat.mod_eq_of_lt (by omega)] at hf
    rw [← hf.1]
    refine ⟨hk, s, t, m1, m2, ?_⟩
    rw [← f4]; exact m3
  · rintro ⟨hk, t0, t1, m1, m2, m3⟩
    obtain ⟨n', p1, k2⟩ := g2 r hk
    have hlt := getElem?_lt hk.1
    rw [h0l, Nat.zero_add, Nat.mod_eq_of_lt (by omega)] at k2
    rw [k2]
    obtain ⟨s, t, q1, q2, q3⟩ := hl.mrg i j r n' k2
    have e1 : s = t0 := by
      have a := (hl.idt s i).mpr q1
      rw [(hl.idt t0 i).mpr m1] at a; simpa using a.symm
    have e2 : t = t1 := by
      have a := (hl.idt t j).mpr q2
      rw [(hl.idt t1 j).mpr m2] at a; simpa using a.symm
    subst e1; subst e2
    have a := (hl.tok _ _).mpr q3
    have c := (hl.tok _ _).mpr m3
    rw [← f4] at c
    have : joinTok b s t = mergedToken (codepoints b.prefx) s t := rfl
    rw [this, c] at a
    simp only [Option.some.injEq] at a
    rw [a]

/-- C25 for token pairs: the pairs are translated to ids through the vocabulary, and the load fails
exactly if a token is missing or the load of the translated pairs fails. -/
theorem C25_token_pairs (b : Bpe) (vocab : List (Str × Nat)) (pairs : List (Str × Str)) :
    (∀ ms, pairs.map (fun p => (find vocab p.1, find vocab p.2)) =
        ms.map (fun p => (some p.1, some p.2)) →
      b.loadVocabPairs vocab pairs = b.loadVocab vocab ms) ∧
    ((∃ p ∈ pairs, find vocab p.1 = none ∨ find vocab p.2 = none) →
      b.loadVocabPairs vocab pairs = .ok (false, b)) := by
  constructor
  · intro ms h
    unfold Bpe.loadVocabPairs
    rw [(pairIds_spec vocab pairs ms).mpr h.symm]
  · rintro ⟨p, hp, h⟩
    unfold Bpe.loadVocabPairs
    cases hpi : pairIds vocab pairs with
    | none => rfl
    | some ms =>
      have := (pairIds_spec vocab pairs ms).mp hpi
      have hm : (find vocab p.1, find vocab p.2) ∈ pairs.map (fun p => (find vocab p.1, find vocab p.2)) :=
        List.mem_map.mpr ⟨p, hp, rfl⟩
      rw [← this] at hm
      obtain ⟨q, _, hq⟩ := List.mem_map.mp hm
      simp only [Prod.mk.injEq] at hq
      rcases h with h | h
      · rw [h] at hq; cases hq.1
      · rw [h] at hq; cases hq.2

example : (exBpe 0 false).tokenToId [97, 98] = some 3 ∧
    find (exBpe 0 false).merge (0, 4) = some (2, 5) ∧ IsLastAt [(1, 2), (0, 1), (0, 4)] (0, 4) 2 := by
  refine ⟨by decide, by decide, rfl, ?_⟩
  intro j hj
  have := getElem?_lt hj
  simp only [List.length_cons, List.length_nil] at this
  omega

/-! ## C26 -/

/-- C26 (partial: lookups by token, merges and tokenization only): after `clear` no token is known
and no merge is left, whatever was loaded before; every text is tokenized to nothing. -/
theorem C26_clear_partial (b : Bpe) (v : Env) (t : Str) (p : Nat × Nat) :
    b.clear.tokenToId t = none ∧ find b.clear.merge p = none ∧
      tokensOf b.clear v t = .ok [] := by
  refine ⟨rfl, rfl, ?_⟩
  have hids : initIds b.clear t = [] := by
    have := addIds_nounk b.clear [] (charStrings b.clear (eachCp false t).length 0 (eachCp false t))
      (Or.inr rfl)
    rw [List.map_nil, List.nil_append] at this
    have h2 : ∀ cs : List (Str × Nat), cs.filterMap (fun c => b.clear.tokenToId c.1) = [] := by
      intro cs
      induction cs with
      | nil => rfl
      | cons c cs ih =>
        rw [List.filterMap_cons]
        have : b.clear.tokenToId c.1 = none := rfl
        rw [this]; exact ih
    rw [h2] at this
    exact List.map_eq_nil_iff.mp this
  unfold tokensOf
  rw [initialSymbols_eq, hids]
  have : linked [] = [] := rfl
  rw [this]
  unfold mergeAll mainLoop
  simp [initQueue, Res.bind, wordToTokens]

/-- C26 fails for lookups by id: `clear` does not clear the reverse table. -/
theorem C26_clear_counterexample :
    ∃ b, (Bpe.new [] 0 false).loadVocab [([97], 7)] [] = .ok (true, b) ∧
      b.clear.idToToken 7 = some [97] :=
  ⟨⟨[], 0, false, [([97], 7)], [(7, [97])], [], [], []⟩, rfl, rfl⟩

/-- The left-over ids let a later load succeed that fails on a new object. -/
theorem C26_stale_load_counterexample :
    ∃ b b', (Bpe.new [] 0 false).loadVocab [([97], 7), ([98], 8)] [] = .ok (true, b) ∧
      b.clear.loadVocab [([97, 98], 9)] [(7, 8)] = .ok (true, b') ∧
      ∃ b'', (Bpe.new [] 0 false).loadVocab [([97, 98], 9)] [(7, 8)] = .ok (false, b'') :=
  ⟨⟨[], 0, false, [([97], 7), ([98], 8)], [(7, [97]), (8, [98])], [], [], []⟩,
    ⟨[], 0, false, [([97, 98], 9)], [(7, [97]), (8, [98]), (9, [97, 98])], [((7, 8), (0, 9))], [], []⟩,
    rfl, rfl, ⟨[], 0, false, [([97, 98], 9)], [(9, [97, 98])], [], [], []⟩, rfl⟩

/-! ## C27 -/

/-- The tokens looked up for the characters of a word. -/
def charIds (b : Bpe) (text : Str) : List (Option Nat) :=
  (charTokens b.prefx b.suffix (toCodePoints text)).map b.tokenToId

/-- C27: without fusing, each unknown character yields exactly one unknown token, in place. -/
theorem C27_each (b : Bpe) (u : Nat) (text : Str) (h0 : b.unk ≠ [])
    (hu : b.tokenToId b.unk = some u) (hf : b.fuseUnk = false) :
    startIds b text = (charIds b text).map (·.getD u) := by
  rw [startIds, initSyms_ids, initIds, addIds_each b u [] _ h0 hu hf, List.map_nil, List.nil_append]
  have : charIds b text = lookups b text := rfl
  rw [this, ← lookups_eq, List.map_map]
  rfl

/-- C27 (partial: no character of the text is itself the unknown token): with fusing, each maximal
run of unknown characters yields exactly one unknown token. -/
theorem C27_fused_partial (b : Bpe) (u : Nat) (text : Str) (h0 : b.unk ≠ [])
    (hu : b.tokenToId b.unk = some u) (hf : b.fuseUnk = true)
    (hne : some u ∉ charIds b text) :
    startIds b text = fusedIds u (charIds b text) := by
  rw [startIds, initSyms_ids, initIds]
  have he : charIds b text = lookups b text := rfl
  have := (addIds_fused b u [] (charStrings b (eachCp false text).length 0 (eachCp false text)) h0 hu hf
    (fun c hc h => hne (by
      rw [he, ← lookups_eq]
      exact List.mem_map.mpr ⟨c, hc, h⟩))).1 (by simp)
  rw [this, List.map_nil, List.nil_append, he, lookups_eq]

/-- C27: if no unknown token is configured or it is not in the vocabulary, unknown characters are
dropped and nothing else is. -/
theorem C27_dropped (b : Bpe) (text : Str) (h : b.unk = [] ∨ b.tokenToId b.unk = none) :
    startIds b text = (charIds b text).filterMap id := by
  rw [startIds, initSyms_ids, initIds, addIds_nounk b [] _ h, List.map_nil, List.nil_append]
  have : charIds b text = lookups b text := rfl
  rw [this, ← lookups_eq, List.filterMap_map]
  rfl

/-- C27: merging keeps the number of unknown tokens if no merge involves the unknown token. -/
theorem C27_merges_keep_unknown (b : Bpe) (draw : Nat → Rat) (pick : Nat → List Entry → Nat)
    (hp : AnyPick pick) (text : Str) (fuel : Nat)
    (hf : 9 * codepoints text * codepoints text ≤ fuel) (u : Nat)
    (hu : ∀ i j r n, find b.merge (i, j) = some (r, n) → i ≠ u ∧ j ≠ u ∧ n ≠ u) :
    ∃ n S, mergeAll ⟨b.merge, b.dropout, draw, pick⟩ fuel (initialSymbols b text) = .ok (S, n) ∧
      (S.map (·.id)).count u = (startIds b text).count u := by
  obtain ⟨n, S, h1, h2⟩ := C24_reachable b draw pick hp text fuel hf
  exact ⟨n, S, h1, mergeStep_count u hu h2⟩

example : charIds (exBpe 0 true) [97, 120, 121, 98] = [some 0, none, none, some 1] ∧
    startIds (exBpe 0 true) [97, 120, 121, 98] = [0, 6, 1] ∧
    startIds (exBpe 0 false) [97, 120, 121, 98] = [0, 6, 6, 1] := by
  refine ⟨by decide +kernel, by decide +kernel, by decide +kernel⟩

/-- C27 fails with fusing if the unknown token is also a character of the text: in `?x` with unknown
token `?` the unknown `x` yields no unknown token of its own. -/
theorem C27_fused_counterexample :
    charIds (exBpe 0 true) [63, 120] = [some 6, none] ∧ startIds (exBpe 0 true) [63, 120] = [6] :=
  ⟨by decide +kernel, by decide +kernel⟩

/-! ## C60 -/

theorem sliceLoop_some (n b i : Nat) (acc : List Nat) (ps : List Cp) (hacc : acc.length ≤ n) :
    sliceLoop b (some n) i acc ps = acc ++ ((ps.map (·.c)).drop (b - i)).take (n - acc.length) := by
  induction ps generalizing i acc with
  | nil => simp [sliceLoop]
  | cons p ps ih =>
    rw [sliceLoop]
    by_cases hi : i < b
    · rw [if_pos hi, ih _ _ hacc]
      rw [show b - i = (b - (i + 1)) + 1 by omega]; simp
    · rw [if_neg hi]
      have e1 : b - i = 0 := by omega
      have e2 : b - (i + 1) = 0 := by omega
      simp only [decide_eq_true_eq]
      by_cases hl : acc.length < n
      · rw [if_pos hl, ih _ _ (by simp; omega), e1, e2]
        rw [show n - acc.length = (n - (acc ++ [p.c]).length) + 1 by simp; omega]
        simp
      · rw [if_neg hl, ih _ _ hacc, e2]
        rw [show n - acc.length = 0 by omega]; simp

theorem sliceLoop_none (b i : Nat) (acc : List Nat) (ps : List Cp) :
    sliceLoop b none i acc ps = acc ++ (ps.map (·.c)).drop (b - i) := by
  induction ps generalizing i acc with
  | nil => simp [sliceLoop]
  | cons p ps ih =>
    rw [sliceLoop]
    by_cases hi : i < b
    · rw [if_pos hi, ih]
      rw [show b - i = (b - (i + 1)) + 1 by omega]; simp
    · rw [if_neg hi, ih]
      have e1 : b - i = 0 := by omega
      have e2 : b - (i + 1) = 0 := by omega
      simp [e1, e2]

/-- C60: slicing returns exactly the code points at the positions `[b, b + n)`, or from `b` on if no
length is given. -/
theorem C60_slice (s : Str) (hs : ∀ u ∈ s, u < 0x10000) (b : Nat) (len : Option Nat) :
    (slice s b len).readUnits = .ok (utf16Encode (match len with
      | none => (toCodePoints s).drop b
      | some n => ((toCodePoints s).drop b).take n)) := by
  have hsc := scalar_of_eachCp s hs
  unfold slice
  apply readUnits_rep
  cases len with
  | none =>
    rw [sliceLoop_none]
    exact rep_ofUtf32 _ (fun c hc => hsc c (List.mem_of_mem_drop hc))
  | some n =>
    rw [sliceLoop_some n b 0 [] _ (by simp)]
    exact rep_ofUtf32 _ (fun c hc => hsc c (List.mem_of_mem_drop (List.mem_of_mem_take hc)))

/-- C60: indexing an initialised string gives the unit at the index, U+FFFD outside, and never
reads out of bounds. -/
theorem C60_index (u : UImpl) (l : List Nat) (h : Rep u l) (i : Nat) :
    u.index i = .ok (l[i]?.getD 0xFFFD) := by
  unfold UImpl.index
  rw [readSize_rep h]
  simp only [Res.bind_ok]
  obtain ⟨h1, h2⟩ := h
  by_cases hi : i < l.length
  · rw [if_pos hi]
    have hg : l[i]? = some l[i] := List.getElem?_eq_getElem hi
    have hne : l ≠ [] := by intro h; rw [h] at hi; simp at hi
    rw [h2, if_neg hne]
    simp [hg]
  · rw [if_neg hi, List.getElem?_eq_none (by omega)]
    rfl

example : (slice [97, 0xD83D, 0xDE00, 98, 99] 1 (some 2)).readUnits = .ok [0xD83D, 0xDE00, 98] := by
  decide +kernel

end Berts.Props
