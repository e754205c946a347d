import Verif.Model.Pointers
import Verif.Spec.Pointers
import Verif.Props.Eval

/-!
# Properties of the input pointers of the C interface
-/

namespace Berts.Props

open Berts.Pointers Berts.Spec
open Berts.Api Berts.Eval Berts.Graph

variable {α : Type}

theorem scan_ok {mem s : List Nat} : scan mem = .ok s ↔ CString mem s := by
  induction mem generalizing s with
  | nil => simp [scan, CString]
  | cons b r ih =>
    unfold scan
    by_cases hb : b = 0
    · subst hb
      simp only [if_pos, Res.ok.injEq]
      constructor
      · rintro rfl; exact ⟨⟨r, rfl⟩, by simp⟩
      · rintro ⟨⟨rest, h1⟩, h2⟩
        cases s with
        | nil => rfl
        | cons c t => simp at h1; simp [← h1.1] at h2
    · simp only [if_neg hb]
      cases hr : scan r with
      | ok t =>
        simp only [Res.bind, Res.ok.injEq]
        have := (ih (s := t)).1 hr
        constructor
        · rintro rfl
          obtain ⟨⟨rest, h1⟩, h2⟩ := this
          exact ⟨⟨rest, by simp [h1]⟩, by simp [h2]; omega⟩
        · rintro ⟨⟨rest, h1⟩, h2⟩
          cases s with
          | nil => simp at h1; omega
          | cons c u =>
            simp at h1 h2
            have h3 : scan r = .ok u := ih.2 ⟨⟨rest, h1.2⟩, h2.2⟩
            rw [hr] at h3
            cases h3
            rw [h1.1]
      | ub | abort | hang =>
        simp only [Res.bind]
        constructor
        · intro h; cases h
        · rintro ⟨⟨rest, h1⟩, h2⟩
          cases s with
          | nil => simp at h1; omega
          | cons c u =>
            simp at h1 h2
            have h3 : scan r = .ok u := ih.2 ⟨⟨rest, h1.2⟩, h2.2⟩
            rw [hr] at h3
            cases h3

theorem scan_cases (mem : List Nat) : (∃ s, scan mem = .ok s) ∨ scan mem = .ub := by
  induction mem with
  | nil => exact .inr rfl
  | cons b r ih =>
    unfold scan
    split
    · exact .inl ⟨[], rfl⟩
    · rcases ih with ⟨s, h⟩ | h <;> rw [h]
      · exact .inl ⟨_, rfl⟩
      · exact .inr rfl

theorem cstr_ub {p : Option (List Nat)} (h : ∀ mem s, p = some mem → ¬ CString mem s) : cstr p = .ub := by
  cases p with
  | none => rfl
  | some mem =>
    rcases scan_cases mem with ⟨s, hs⟩ | hs
    · exact absurd (scan_ok.1 hs) (h mem s rfl)
    · exact hs

theorem readArray_ok {β : Type} {p : Option (List β)} {n : Nat} {h : List β} :
    readArray p n = .ok h ↔ Points p n h := by
  unfold readArray Points
  cases p with
  | none =>
    by_cases hn : n = 0
    · simp [hn, eq_comm]
    · simp [hn]
  | some mem =>
    by_cases hl : n ≤ mem.length
    · simp only [if_pos hl, Res.ok.injEq]
      constructor
      · rintro rfl
        exact ⟨by simp; omega, .inr ⟨mem.drop n, by simp⟩⟩
      · rintro ⟨rfl, h0 | ⟨rest, hr⟩⟩
        · rw [h0, List.take_zero]; exact (List.eq_nil_of_length_eq_zero h0).symm
        · cases hr; simp
    · simp only [if_neg hl, reduceCtorEq, false_iff]
      rintro ⟨rfl, h0 | ⟨rest, hr⟩⟩
      · omega
      · cases hr; simp at hl

theorem readArray_ub {β : Type} {p : Option (List β)} {n : Nat} (h : ∀ l, ¬ Points p n l) : readArray p n = .ub := by
  cases hr : readArray p n with
  | ok l => exact absurd (readArray_ok.1 hr) (h l)
  | ub => rfl
  | abort | hang => unfold readArray at hr; split at hr <;> split at hr <;> cases hr

/-! ## Texts -/

/-- C123: of a text that ends with a null byte the calls see exactly the bytes before the first one. -/
theorem C123_text (ctx : Option Ctx) (mem s : List Nat) (h : CString mem s) (buf : Option (List Nat)) (len : Option Nat) :
    tokenizeC ctx (some mem) buf len = bertsTokenize ctx s buf len ∧
    tokenToIdC ctx (some mem) = bertsTokenToId ctx s := by
  have hc : cstr (some mem) = .ok s := scan_ok.2 h
  constructor
  · unfold tokenizeC bertsTokenize
    cases getModel ctx with
    | none => rfl
    | some m =>
      simp only [hc]
      split
      · rfl
      split
      · rfl
      simp only [Res.bind]
      cases m.tokenize s with
      | ok r => rcases r with ⟨_ | _, ts⟩ <;> rfl
      | ub | abort | hang => rfl
  · unfold tokenToIdC bertsTokenToId
    cases getModel ctx with
    | none => rfl
    | some m => simp only [hc]; rfl

/-- C123: with a text that is null or does not end, `berts_tokenize` either fails before it looks at the text, because
there is no model or one without CLS or SEP, or its behaviour is undefined. -/
theorem C123_bad_text (ctx : Option Ctx) (text : Option (List Nat)) (h : ∀ mem s, text = some mem → ¬ CString mem s)
    (buf : Option (List Nat)) (len : Option Nat) :
    ((∃ c m, ctx = some c ∧ c.model = some m ∧ m.clsId ≠ INVALID ∧ m.sepId ≠ INVALID) →
      tokenizeC ctx text buf len = .ub) ∧
    ((∀ c m, ctx = some c → c.model = some m → m.clsId = INVALID ∨ m.sepId = INVALID) →
      tokenizeC ctx text buf len = .ok ⟨false, buf, len⟩) := by
  constructor
  · rintro ⟨c, m, rfl, hm, h1, h2⟩
    simp [tokenizeC, getModel, hm, h1, h2, cstr_ub h, Res.bind]
  · intro hbad
    unfold tokenizeC
    cases hg : getModel ctx with
    | none => rfl
    | some m =>
      cases ctx with
      | none => simp [getModel] at hg
      | some c =>
        rcases hbad c m rfl hg with h1 | h1 <;> simp [h1]

/-- C123: `berts_token_to_id` reads the token whenever there is a model. -/
theorem C123_bad_token (ctx : Option Ctx) (token : Option (List Nat)) (h : ∀ mem s, token = some mem → ¬ CString mem s) :
    ((∃ c m, ctx = some c ∧ c.model = some m) → tokenToIdC ctx token = .ub) ∧
    ((∀ c, ctx = some c → c.model = none) → tokenToIdC ctx token = .ok 0) := by
  constructor
  · rintro ⟨c, m, rfl, hm⟩
    simp [tokenToIdC, getModel, hm, cstr_ub h, Res.bind]
  · intro hno
    unfold tokenToIdC
    cases ctx with
    | none => rfl
    | some c => simp [getModel, hno c rfl]

/-! ## Arrays -/

/-- C123: given arrays of `count` tokens and segments (or no segments), `berts_eval` is the evaluation of these
lists, whatever the memory holds behind them. -/
theorem C123_eval (A : Arith α) (g : Gg) (ctx : Option (ECtx α)) (tokens : Option (List Nat)) (count : Nat)
    (hn : count < 2 ^ 61) (t : List Nat) (ht : Points tokens count t) (cond : Option (Int × Nat)) (out : Option (List α))
    (outCount : Option Nat) :
    evalC A g ctx tokens none count cond out outCount = bertsEval A g ctx t none cond out outCount ∧
    ∀ segs s, Points (some segs) count s →
      evalC A g ctx tokens (some segs) count cond out outCount = bertsEval A g ctx t (some s) cond out outCount := by
  have h1 : newVector count = .ok () := by simp [newVector]; omega
  have h2 := readArray_ok.2 ht
  unfold evalC bertsEval
  cases ctx.bind (·.model) with
  | none => exact ⟨rfl, fun _ _ _ => rfl⟩
  | some m =>
    rcases cond with _ | ⟨l, p⟩
    · exact ⟨rfl, fun _ _ _ => rfl⟩
    rcases outCount with _ | c
    · exact ⟨rfl, fun _ _ _ => rfl⟩
    constructor
    · simp [h1, h2, Res.bind]
    · intro segs s hs
      simp [h1, h2, readArray_ok.2 hs, Res.bind]

/-- C123: without a model, settings or `out_count` the arrays are not looked at and the call fails. -/
theorem C123_eval_refused (A : Arith α) (g : Gg) (ctx : Option (ECtx α)) (tokens segs : Option (List Nat)) (count : Nat)
    (cond : Option (Int × Nat)) (out : Option (List α)) (outCount : Option Nat)
    (h : (∀ c, ctx = some c → c.model = none) ∨ cond = none ∨ outCount = none) :
    evalC A g ctx tokens segs count cond out outCount = .ok (false, out, outCount) := by
  unfold evalC
  cases hm : ctx.bind (·.model) with
  | none => rfl
  | some m =>
    rcases h with h | h | h
    · cases ctx with
      | none => cases hm
      | some c => simp [h c rfl] at hm
    · subst h; rfl
    · subst h; cases cond <;> rfl

/-- C123: in all other cases a null or too short array of tokens, or a too short array of segments, is undefined behaviour.
This is so for every number of tokens, also one the model does not allow, and in a dry run. -/
theorem C123_eval_bad (A : Arith α) (g : Gg) (c : ECtx α) (m : EModel α) (hm : c.model = some m)
    (tokens segs : Option (List Nat)) (count : Nat) (hn : count < 2 ^ 61) (l : Int) (p : Nat) (out : Option (List α)) (k : Nat)
    (h : (∀ t, ¬ Points tokens count t) ∨ (∃ s, segs = some s ∧ s.length < count)) :
    evalC A g (some c) tokens segs count (some (l, p)) out (some k) = .ub := by
  have h1 : newVector count = .ok () := by simp [newVector]; omega
  unfold evalC
  simp only [Option.bind_some, hm, h1, Res.bind]
  rcases h with h | ⟨s, rfl, hs⟩
  · rw [readArray_ub h]
  · have h3 : readArray (some s) count = .ub := by simp [readArray]; omega
    cases ht : readArray tokens count with
    | ok t => simp [h3]
    | ub => rfl
    | abort | hang => unfold readArray at ht; split at ht <;> split at ht <;> cases ht

/-- C123: a number of tokens that no vector can hold leaves `berts_eval` with an exception instead of the error for too
many tokens. -/
theorem C123_eval_throws (A : Arith α) (g : Gg) (c : ECtx α) (m : EModel α) (hm : c.model = some m)
    (tokens segs : Option (List Nat)) (count : Nat) (hn : 2 ^ 61 ≤ count) (l : Int) (p : Nat) (out : Option (List α)) (k : Nat) :
    evalC A g (some c) tokens segs count (some (l, p)) out (some k) = .abort := by
  have h1 : newVector count = .abort := by simp [newVector]; omega
  unfold evalC
  simp only [Option.bind_some, hm, h1, Res.bind]

/-! ## Hidden states -/

theorem newTensor1d_cases (e : Env α) (n : Nat) (f : Nat → α) :
    (e.g.objectSize + pad (e.g.tensorSize + 4 * n) e.g.align ≤ e.mem →
      ∃ r, newTensor1d e 4 n f 0 = .ok r) ∧
    (¬ e.g.objectSize + pad (e.g.tensorSize + 4 * n) e.g.align ≤ e.mem → newTensor1d e 4 n f 0 = .abort) := by
  have h : newTensor1d e 4 n f 0 = (alloc e (4 * (n * 1 * 1 * 1)) 0).bind fun q => .ok (⟨n, 1, 1, 1, 4, true, fun i _ _ _ => f i⟩, q.2) := rfl
  rw [h]
  unfold alloc
  simp only [Nat.mul_one, Nat.zero_add]
  constructor
  · intro hu; rw [if_pos hu]; exact ⟨_, rfl⟩
  · intro hu; rw [if_neg hu]; rfl

theorem lmProg_abort (e : Env α) (m : EModel α) (hidden : List α) (dflt : α) (lm : LmWeights α) (hw : m.w.lm = some lm)
    (h : ∀ f : Nat → α, newTensor1d e 4 hidden.length f 0 = .abort) : lmProg e m hidden dflt 0 = .abort := by
  have h1 : buildLm e m.isBert m.hp m.w m.vocabCount hidden dflt 0 = .abort := by
    unfold buildLm
    rw [hw]
    show (newTensor1d e 4 hidden.length (fun i => hidden.getD i dflt) 0).bind _ = _
    rw [h]; rfl
  show (buildLm e m.isBert m.hp m.w m.vocabCount hidden dflt 0).bind _ = _
  rw [h1]; rfl

theorem lmRunC_ok (A : Arith α) (g : Gg) (m : EModel α) (p : Option (List α)) (count : Nat) (h : List α)
    (hp : Points p count h) (dflt : α) (k : Int) (ids : List Nat) (probs : List α) (given needed : Nat) :
    lmRunC A g m p count dflt k ids probs given needed = lmRun A g m h dflt k ids probs given needed := by
  have hl : h.length = count := hp.1
  unfold lmRunC
  rw [readArray_ok.2 hp]
  subst hl
  cases hs : lmBufferSize g m.isBert m.hp m.vocabCount (h.length / m.hp.hidden) with
  | ok size =>
    simp only [Res.bind]
    cases hw : m.w.lm with
    | none =>
      simp only [lmRun, hs, Res.bind, lmProg, buildLm, hw]
      rfl
    | some lm =>
      simp only
      by_cases hu : g.objectSize + pad (g.tensorSize + 4 * h.length) g.align ≤ size.calc 0
      · obtain ⟨r, hr⟩ := (newTensor1d_cases ⟨A, g, size.calc 0⟩ h.length (fun _ => dflt)).1 hu
        rw [hr]
      · rw [(newTensor1d_cases ⟨A, g, size.calc 0⟩ h.length (fun _ => dflt)).2 hu]
        simp only [lmRun, hs, Res.bind]
        rw [lmProg_abort ⟨A, g, size.calc 0⟩ m h dflt lm hw fun f => (newTensor1d_cases _ _ f).2 hu]
  | ub | abort | hang => simp only [lmRun, hs, Res.bind]

/-- C123: given `count` hidden states, `berts_eval_lm` is the evaluation of this list. -/
theorem C123_lm (A : Arith α) (g : Gg) (ctx : Option (ECtx α)) (p : Option (List α)) (count : Nat) (h : List α)
    (hp : Points p count h) (dflt : α) (cond : Option Int) (ids : Option (List Nat)) (probs : Option (List α))
    (outCount : Option Nat) :
    evalLmC A g ctx p count dflt cond ids probs outCount = bertsEvalLm A g ctx h dflt cond ids probs outCount := by
  have hl : h.length = count := hp.1
  unfold evalLmC bertsEvalLm
  cases ctx.bind (·.model) with
  | none => rfl
  | some m =>
    rcases cond with _ | k
    · rfl
    rcases outCount with _ | c
    · rfl
    simp only [evalLm, hl]
    split
    · rfl
    split
    · rfl
    rcases ids with _ | i <;> rcases probs with _ | q <;> try rfl
    simp only
    rw [lmRunC_ok A g m p count h hp]

/-- C123: the calls of `berts_eval_lm` that end before the hidden states are read, whatever their pointer is; the last
three report the size needed. -/
inductive Unread (ctx : Option (ECtx α)) (count : Nat) (cond : Option Int) (ids : Option (List Nat))
    (probs : Option (List α)) (outCount : Option Nat) : Bool → Option Nat → Prop where
  | noModel : (∀ c, ctx = some c → c.model = none) → Unread ctx count cond ids probs outCount false outCount
  | noCond : cond = none → Unread ctx count cond ids probs outCount false outCount
  | noCount : outCount = none → Unread ctx count cond ids probs outCount false outCount
  | size (c : ECtx α) (m : EModel α) (k : Int) (o : Nat) : ctx = some c → c.model = some m → cond = some k → outCount = some o →
      0 < m.hp.hidden → ¬ m.hp.hidden ∣ count → Unread ctx count cond ids probs outCount false outCount
  | dry (c : ECtx α) (m : EModel α) (k : Int) (o : Nat) : ctx = some c → c.model = some m → cond = some k → outCount = some o →
      0 < m.hp.hidden → m.hp.hidden ∣ count → ids = none → probs = none →
      Unread ctx count cond ids probs outCount true
        (some ((if k ≤ 0 then m.vocabCount else min k.toNat m.vocabCount) * (count / m.hp.hidden)))
  | oneBuffer (c : ECtx α) (m : EModel α) (k : Int) (o : Nat) : ctx = some c → c.model = some m → cond = some k →
      outCount = some o → 0 < m.hp.hidden → m.hp.hidden ∣ count → (ids = none ↔ probs ≠ none) →
      Unread ctx count cond ids probs outCount false
        (some ((if k ≤ 0 then m.vocabCount else min k.toNat m.vocabCount) * (count / m.hp.hidden)))
  | noHead (c : ECtx α) (m : EModel α) (k : Int) (o : Nat) : ctx = some c → c.model = some m → cond = some k →
      outCount = some o → 0 < m.hp.hidden → m.hp.hidden ∣ count → ids ≠ none → probs ≠ none → m.w.lm = none →
      (m.isBert = true → m.hp.act ≤ 3) →
      Unread ctx count cond ids probs outCount false
        (some ((if k ≤ 0 then m.vocabCount else min k.toNat m.vocabCount) * (count / m.hp.hidden)))

/-- C123: with hidden states that are null or too few, `berts_eval_lm` returns exactly in the cases `Unread`, with
the result given there and the buffers as they were; in all other cases it does not return. -/
theorem C123_bad_lm (A : Arith α) (g : Gg) (ctx : Option (ECtx α)) (p : Option (List α)) (count : Nat)
    (hp : ∀ h, ¬ Points p count h) (dflt : α) (cond : Option Int) (ids : Option (List Nat)) (probs : Option (List α))
    (outCount : Option Nat) (r : Bool × Option (List Nat) × Option (List α) × Option Nat) :
    evalLmC A g ctx p count dflt cond ids probs outCount = .ok r ↔
      Unread ctx count cond ids probs outCount r.1 r.2.2.2 ∧ r.2.1 = ids ∧ r.2.2.1 = probs := by
  have hrun : ∀ (m : EModel α) (k : Int) (i : List Nat) (q : List α) (c needed : Nat) o,
      lmRunC A g m p count dflt k i q c needed = .ok o ↔
        (m.isBert = true → m.hp.act ≤ 3) ∧ m.w.lm = none ∧ o = ⟨false, some i, some q, needed⟩ := by
    intro m k i q c needed o
    unfold lmRunC lmBufferSize
    rw [readArray_ub hp]
    by_cases ha : (m.isBert && decide (3 < m.hp.act)) = true
    · rw [if_pos ha]
      simp only [Bool.and_eq_true, decide_eq_true_eq] at ha
      simp only [Res.bind, reduceCtorEq, false_iff]
      intro h
      have := h.1 ha.1
      omega
    · rw [if_neg ha]
      simp only [Bool.and_eq_true, decide_eq_true_eq, not_and, Nat.not_lt] at ha
      simp only [Res.bind]
      cases hw : m.w.lm with
      | none =>
        simp only [Res.ok.injEq, true_and]
        exact ⟨fun h => ⟨ha, h.symm⟩, fun h => h.2.symm⟩
      | some lm =>
        simp only [reduceCtorEq, false_and, and_false, iff_false]
        split <;> simp
  have hlast : ∀ (m : EModel α) (k : Int), outputTokens m.vocabCount k * (count / m.hp.hidden) =
      (if k ≤ 0 then m.vocabCount else min k.toNat m.vocabCount) * (count / m.hp.hidden) := fun m k => rfl
  obtain ⟨r1, r2, r3, r4⟩ := r
  simp only
  constructor
  · unfold evalLmC
    cases hm : ctx.bind (·.model) with
    | none =>
      intro h
      cases h
      refine ⟨.noModel fun c hc => ?_, rfl, rfl⟩
      subst hc; simpa using hm
    | some m =>
      obtain ⟨c, rfl, hc⟩ := Option.bind_eq_some_iff.1 hm
      rcases cond with _ | k
      · intro h; cases h; exact ⟨.noCond rfl, rfl, rfl⟩
      rcases outCount with _ | o
      · intro h; cases h; exact ⟨.noCount rfl, rfl, rfl⟩
      simp only
      split
      · intro h; cases h
      rename_i h0
      have h0 : 0 < m.hp.hidden := by omega
      split
      · rename_i h1
        intro h; cases h
        exact ⟨.size c m k o rfl hc rfl rfl h0 (fun hd => h1 (Nat.mod_eq_zero_of_dvd hd)), rfl, rfl⟩
      rename_i h1
      have h1 : m.hp.hidden ∣ count := Nat.dvd_of_mod_eq_zero (by omega)
      rcases ids with _ | i <;> rcases probs with _ | q
      · intro h; cases h
        exact ⟨.dry c m k o rfl hc rfl rfl h0 h1 rfl rfl, rfl, rfl⟩
      · intro h; cases h
        exact ⟨.oneBuffer c m k o rfl hc rfl rfl h0 h1 (by simp), rfl, rfl⟩
      · intro h; cases h
        exact ⟨.oneBuffer c m k o rfl hc rfl rfl h0 h1 (by simp), rfl, rfl⟩
      · simp only
        intro h
        cases hl : lmRunC A g m p count dflt k i q o (outputTokens m.vocabCount k * (count / m.hp.hidden)) with
        | ok out =>
          rw [hl] at h
          obtain ⟨h2, h3, rfl⟩ := (hrun _ _ _ _ _ _ _).1 hl
          cases h
          exact ⟨.noHead c m k o rfl hc rfl rfl h0 h1 (by simp) (by simp) h3 h2, rfl, rfl⟩
        | ub | abort | hang => rw [hl] at h; cases h
  · rintro ⟨hu, rfl, rfl⟩
    cases hu with
    | noModel h =>
      unfold evalLmC
      cases ctx with
      | none => rfl
      | some c => simp [h c rfl]
    | noCond h =>
      subst h; unfold evalLmC
      cases ctx.bind (·.model) <;> rfl
    | noCount h =>
      subst h; unfold evalLmC
      cases ctx.bind (·.model) with
      | none => rfl
      | some m => cases cond <;> rfl
    | size c m k o hc hm hk ho h0 h1 =>
      subst hc hk ho
      have h0' : m.hp.hidden ≠ 0 := by omega
      have h1' : count % m.hp.hidden ≠ 0 := fun h => h1 (Nat.dvd_of_mod_eq_zero h)
      simp [evalLmC, hm, h0', h1']
    | dry c m k o hc hm hk ho h0 h1 hi hq =>
      subst hc hk ho hi hq
      have h0' : m.hp.hidden ≠ 0 := by omega
      simp [evalLmC, hm, h0', Nat.mod_eq_zero_of_dvd h1, outputTokens]
    | oneBuffer c m k o hc hm hk ho h0 h1 hi =>
      subst hc hk ho
      have h0' : m.hp.hidden ≠ 0 := by omega
      rcases r2 with _ | i <;> rcases r3 with _ | q
      · simp at hi
      · simp [evalLmC, hm, h0', Nat.mod_eq_zero_of_dvd h1, outputTokens]
      · simp [evalLmC, hm, h0', Nat.mod_eq_zero_of_dvd h1, outputTokens]
      · simp at hi
    | noHead c m k o hc hm hk ho h0 h1 hi hq hw ha =>
      subst hc hk ho
      have h0' : m.hp.hidden ≠ 0 := by omega
      rcases r2 with _ | i <;> rcases r3 with _ | q <;> simp at hi hq
      have := (hrun m k i q o (outputTokens m.vocabCount k * (count / m.hp.hidden)) _).2 ⟨ha, hw, rfl⟩
      simp [evalLmC, hm, h0', Nat.mod_eq_zero_of_dvd h1, this, Res.bind]
      rfl

/-- C123: a model with a head reads the hidden states as soon as both buffers are there: with null or too few of them the
behaviour is undefined. -/
theorem C123_lm_ub (A : Arith α) (g : Gg) (c : ECtx α) (m : EModel α) (hm : c.model = some m) (lm : LmWeights α)
    (hw : m.w.lm = some lm) (ha : m.isBert = true → m.hp.act ≤ 3) (hh : 0 < m.hp.hidden) (p : Option (List α)) (count : Nat)
    (hd : m.hp.hidden ∣ count) (hp : ∀ h, ¬ Points p count h) (dflt : α) (k : Int) (ids : List Nat) (probs : List α) (o : Nat) :
    evalLmC A g (some c) p count dflt (some k) (some ids) (some probs) (some o) = .ub := by
  have h0 : m.hp.hidden ≠ 0 := by omega
  have h1 := Nat.mod_eq_zero_of_dvd hd
  have h2 : (m.isBert && decide (3 < m.hp.act)) = false := by
    cases hb : m.isBert
    · rfl
    · have := ha hb; simp; omega
  have h3 : count / m.hp.hidden * m.hp.hidden = count := Nat.div_mul_cancel hd
  have h4 : lmRunC A g m p count dflt k ids probs o (outputTokens m.vocabCount k * (count / m.hp.hidden)) = .ub := by
    unfold lmRunC
    cases hs : lmBufferSize g m.isBert m.hp m.vocabCount (count / m.hp.hidden) with
    | ok size =>
      have h5 : g.objectSize + pad (g.tensorSize + 4 * count) g.align ≤ size.calc 0 := by
        simp only [lmBufferSize, h2, Bool.false_eq_true, if_false, Res.ok.injEq] at hs
        subst hs
        simp only [SizeInfo.calc, tensorSize, h3, Nat.mul_one, Nat.add_comm (4 * count)]
        omega
      obtain ⟨r, hr⟩ := (newTensor1d_cases ⟨A, g, size.calc 0⟩ count (fun _ => dflt)).1 h5
      simp only [Res.bind, hw, hr, readArray_ub hp]
    | ub | abort | hang => simp [lmBufferSize, h2] at hs
  simp [evalLmC, hm, h0, h1, h4, Res.bind]

/-- The hypotheses of the theorems can be met: a text with bytes behind its end, a text without end, two tokens of three, a
null array for one token. -/
example : CString [104, 105, 0, 33] [104, 105] ∧ (∀ mem s, some [104, 105] = some mem → ¬ CString mem s) ∧
    Points (some [1, 2, 0]) 2 [1, 2] ∧ (∀ t : List Nat, ¬ Points none 1 t) := by
  refine ⟨⟨⟨[33], rfl⟩, by simp⟩, ?_, ⟨rfl, .inr ⟨[0], rfl⟩⟩, ?_⟩
  · rintro _ s ⟨⟩ h
    have := scan_ok.2 h
    simp [scan, Res.bind] at this
  · rintro t ⟨h1, h2⟩
    rcases h2 with h2 | ⟨_, h2⟩ <;> cases h2

/-- ... and a model: a null array of five tokens, more than it allows, in a dry run; one segment for two tokens; a null
array of two hidden states, of which the size alone can be asked. -/
example :
    evalC tinyA tinyG (some ⟨some (tiny true 4)⟩) none none 5 (some (0, 0)) none (some 0) = .ub ∧
    evalC tinyA tinyG (some ⟨some (tiny true 4)⟩) (some [1, 2]) (some [0]) 2 (some (0, 0)) none (some 0) = .ub ∧
    evalLmC tinyA tinyG (some ⟨some (tiny true 4)⟩) none 2 0 (some 1) (some [0]) (some [0]) (some 1) = .ub ∧
    evalLmC tinyA tinyG (some ⟨some (tiny true 4)⟩) none 2 0 (some 1) none none (some 0) = .ok (true, none, none, some 1) := by
  have h : ∀ {β : Type} n (t : List β), 0 < n → ¬ Points none n t := by
    rintro β n t hn ⟨_, h2⟩
    rcases h2 with h2 | ⟨_, h2⟩
    · omega
    · cases h2
  refine ⟨C123_eval_bad tinyA tinyG ⟨some (tiny true 4)⟩ _ rfl none none 5 (by omega) 0 0 none 0 (.inl fun t => h 5 t (by omega)),
    C123_eval_bad tinyA tinyG ⟨some (tiny true 4)⟩ _ rfl _ _ 2 (by omega) 0 0 none 0 (.inr ⟨[0], rfl, by simp⟩),
    C123_lm_ub tinyA tinyG ⟨some (tiny true 4)⟩ _ rfl tinyLm rfl (fun _ => by decide) (by decide) none 2 ⟨1, rfl⟩
      (fun t => h 2 t (by omega)) 0 1 _ _ 1, ?_⟩
  exact (C123_bad_lm tinyA tinyG _ none 2 (fun t => h 2 t (by omega)) 0 (some 1) none none (some 0) _).2
    ⟨.dry ⟨some (tiny true 4)⟩ (tiny true 4) 1 0 rfl rfl rfl rfl (by decide) ⟨1, rfl⟩ rfl rfl, rfl, rfl⟩

end Berts.Props
