import Verif.Proofs.EvalRef

/-!
# Properties of the evaluation calls

`Fits` and `Accepted` (Spec/EvalCalls) are the standing assumptions: the weights have the shapes the
hyperparameters say, numbers fit `int32_t`; the input passes the documented checks.
-/

namespace Berts.Props

open Berts.Spec (Arith Mat col)
open Berts.Graph
open Berts.Eval

variable {α : Type}

/-! ## A small model for the examples -/

/-- Insertion of an index into a list of indices, larger elements of `l` first. -/
def insertDesc (l : List Int) (a : Nat) : List Nat → List Nat
  | [] => [a]
  | b :: r => if l.getD b 0 ≤ l.getD a 0 then a :: b :: r else b :: insertDesc l a r

def sortDesc (l : List Int) : List Nat → List Nat
  | [] => []
  | a :: r => insertDesc l a (sortDesc l r)

/-- Some arithmetic on integers; `argsort` sorts in descending order. -/
def tinyA : Arith Int where
  add := (· + ·)
  mul := (· * ·)
  dot x y := (x.zipWith (· * ·) y).sum
  norm _ l i := l.getD i 0 - l.sum
  softmax s l i := s * l.getD i 0
  scale d := d
  one := 1
  gelu x := max x 0
  relu x := max x 0
  silu x := max x 0
  tanh x := x
  avg l := l.sum / l.length
  max l := l.foldl max 0
  argsort l i := (sortDesc l (List.range l.length)).getD i 0

def tinyG : Gg := ⟨3, 1, 4, 100⟩

/-- A weight tensor with distinct elements. -/
def tinyT (n0 n1 : Nat) : T Int := ⟨n0, n1, 1, 1, 4, true, fun i j _ _ => i + 2 * j + 1⟩

def tinyL : Layer Int :=
  ⟨tinyT 2 2, tinyT 2 1, tinyT 2 2, tinyT 2 1, tinyT 2 2, tinyT 2 1, tinyT 2 2, tinyT 2 1, tinyT 2 1, tinyT 2 1,
    tinyT 2 3, tinyT 3 1, tinyT 3 2, tinyT 2 1, tinyT 2 1, tinyT 2 1⟩

def tinyLm : LmWeights Int := ⟨tinyT 2 2, tinyT 2 1, tinyT 2 1, tinyT 2 1, tinyT 2 3, tinyT 3 1⟩

/-- Hidden size 2, two heads, one layer, 3 tokens, 4 positions, 2 segments. -/
def tiny (isBert : Bool) (maxTokens : Nat) : EModel Int where
  isBert := isBert
  hp := ⟨3, 2, 1, 2, maxTokens, 3, 2, 0, 0⟩
  w := ⟨tinyT 2 3, tinyT 2 2, tinyT 2 4, tinyT 2 1, tinyT 2 1, [tinyL], tinyT 2 2, tinyT 2 1, some tinyLm⟩
  vocabCount := 3
  padId := 1

theorem tinyT_w (n0 n1 : Nat) : IsW (tinyT n0 n1) n0 n1 := ⟨rfl, rfl, rfl, rfl, rfl⟩
theorem tinyT_v (n : Nat) : IsVec (tinyT n 1) n := ⟨rfl, rfl, rfl, rfl, rfl⟩

theorem tiny_ok (b : Bool) (k : Nat) : ModelOK (tiny b k) 3 4 2 := by
  refine ⟨⟨tinyT_w 2 3, tinyT_w 2 4, tinyT_w 2 2, tinyT_v 2, tinyT_v 2, ?_, rfl, tinyT_w 2 2, tinyT_v 2⟩,
    by simp [tiny], ⟨1, rfl⟩, by simp [tiny], rfl⟩
  intro l hl
  simp only [tiny, List.mem_singleton] at hl
  subst hl
  exact ⟨tinyT_w 2 2, tinyT_v 2, tinyT_w 2 2, tinyT_v 2, tinyT_w 2 2, tinyT_v 2, tinyT_w 2 2, tinyT_v 2,
    tinyT_v 2, tinyT_v 2, tinyT_w 2 3, tinyT_v 3, tinyT_w 3 2, tinyT_v 2, tinyT_v 2, tinyT_v 2⟩

theorem tiny_head (b : Bool) (k : Nat) : HeadOK (tiny b k) tinyLm :=
  ⟨rfl, ⟨tinyT_w 2 2, tinyT_v 2, tinyT_v 2, tinyT_v 2, tinyT_w 2 3, tinyT_v 3⟩, by simp [tiny], by simp [tiny],
    fun _ => by simp [tiny]⟩

theorem tiny_fits (b : Bool) (k : Nat) (tokens : List Nat) (h : ∀ t ∈ tokens, t < 2 ^ 32)
    (hl : tokens.length < 100) : Fits (tiny b k) 3 4 2 tokens :=
  ⟨⟨tiny_ok b k, by decide, by decide, by decide, by simp [tiny], by simp [tiny],
    by cases b <;> simp [tiny] <;> omega, h⟩, by simp [tiny]⟩

/-! ## C40: sizes and buffers -/

/-- C40: whatever the model, a successful evaluation reports the hidden size times the number of rows,
and changes exactly the first `min(given, needed)` elements of the buffer, which exist. -/
theorem C40_size (A : Arith α) (g : Gg) (m : EModel α) (tokens segs : List Nat) (L : Int) (poolType : Nat)
    (out : Option (List α)) (given : Nat) (o : EvalOut α)
    (h : eval A g m tokens segs L poolType out given = .ok o) (hret : o.ret = true) :
    o.count = m.hp.hidden * (if poolType = 0 then tokens.length else 1) ∧
    (out = none → o.buf = none) ∧
    (∀ buf, out = some buf → min given o.count ≤ buf.length ∧ ∃ data : List α, data.length = min given o.count ∧
      o.buf = some (data ++ buf.drop (min given o.count))) := by
  by_cases ha : Accepted m tokens segs poolType
  · rw [eval_accepted ha] at h
    cases out with
    | none =>
      cases h
      exact ⟨rfl, fun _ => rfl, by intro b hb; simp at hb⟩
    | some buf =>
      simp only at h
      unfold evalRun at h
      cases hl : lastLayer m.hp.nLayers L with
      | ok l =>
        rw [hl, res_ok] at h
        cases l with
        | none => cases h; simp at hret
        | some last =>
          simp only at h
          unfold evalWith at h
          generalize graphProg _ _ _ _ _ _ _ _ _ = r at h
          cases r with
          | ok r =>
            rw [res_ok] at h
            cases hx : r.1 with
            | none => rw [hx] at h; cases h; simp at hret
            | some x =>
              rw [hx] at h
              simp only at h
              generalize expandGraph _ _ _ = cg at h
              cases cg <;> try (cases h; done)
              rw [res_ok] at h
              unfold readRange at h
              split at h
              · rw [res_ok] at h
                unfold Api.copyInto at h
                split at h
                · rename_i hb
                  rw [res_ok] at h
                  cases h
                  refine ⟨rfl, by intro h; simp at h, ?_⟩
                  intro b hb'
                  cases hb'
                  refine ⟨hb, _, ?_, rfl⟩
                  simp
                · cases h
              · cases h
          | ub => cases h
          | abort => cases h
          | hang => cases h
      | ub => rw [hl] at h; cases h
      | abort => rw [hl] at h; cases h
      | hang => rw [hl] at h; cases h
  · rw [eval_rejected ha] at h
    cases h
    simp at hret

/-- C40: inputs that fail a check are rejected without touching the buffer or the count. -/
theorem C40_reject (A : Arith α) (g : Gg) (m : EModel α) (tokens segs : List Nat) (L : Int) (poolType : Nat)
    (out : Option (List α)) (given : Nat)
    (h : m.hp.maxTokens < tokens.length ∨ tokens.length ≠ segs.length ∨ (∃ s ∈ segs, m.hp.segments ≤ s) ∨
      4 ≤ poolType) :
    eval A g m tokens segs L poolType out given = .ok ⟨false, out, given⟩ := by
  apply eval_rejected
  rintro ⟨h1, h2, h3, h4⟩
  rcases h with h | h | ⟨s, hs, h⟩ | h
  · omega
  · omega
  · have := h3 s hs; omega
  · omega

/-- C40: a call without a buffer reports the size and does nothing else. -/
theorem C40_dry (A : Arith α) (g : Gg) (m : EModel α) (tokens segs : List Nat) (L : Int) (poolType : Nat)
    (given : Nat) (ha : Accepted m tokens segs poolType) :
    eval A g m tokens segs L poolType none given =
      .ok ⟨true, none, m.hp.hidden * (if poolType = 0 then tokens.length else 1)⟩ := by
  rw [eval_accepted ha]; rfl

/-- C40: the size fits `size_t` (hyperparameters are 32-bit numbers). -/
theorem C40_no_overflow (m : EModel α) (tokens segs : List Nat) (poolType : Nat)
    (hh : m.hp.hidden < 2 ^ 32) (hm : m.hp.maxTokens < 2 ^ 32) (ha : Accepted m tokens segs poolType) :
    m.hp.hidden * (if poolType = 0 then tokens.length else 1) < 2 ^ 64 := by
  have h1 : (if poolType = 0 then tokens.length else 1) < 2 ^ 32 := by
    have := ha.count
    split <;> omega
  have h2 := Nat.mul_lt_mul'' hh h1
  rwa [← Nat.pow_add] at h2

example : (Eval.eval tinyA tinyG (tiny true 4) [1, 2] [0, 1] (-1) 0 (some [7, 7, 7]) 2).bind (fun o => .ok (o.ret, o.count)) =
    .ok (true, 4) := by
  decide +kernel

/-! ## C34: rows of the embedding tables -/

/-- C34 (exact): an accepted BERT input is undefined behaviour iff one of its tokens is not in the table;
positions and segments are always in theirs. -/
theorem C34_bert_iff (A : Arith α) (g : Gg) (m : EModel α) (V P S : Nat) (tokens segs : List Nat)
    (poolType : Nat) (hf : Fits m V P S tokens) (hb : m.isBert = true) (hP : m.hp.maxTokens ≤ P)
    (ha : Accepted m tokens segs poolType) (hn : 0 < tokens.length)
    (L : Int) (h1 : -(m.hp.nLayers : Int) ≤ L) (h2 : L ≤ m.hp.nLayers) (buf : List α) (given : Nat)
    (hbuf : given ≤ buf.length) :
    eval A g m tokens segs L poolType (some buf) given = .ub ↔ ∃ t ∈ tokens, V ≤ t := by
  have hpos : ∀ t, t < tokens.length → refPos m tokens t < P := by
    intro t ht
    have := ha.count
    simp only [refPos, hb, if_true]
    omega
  by_cases hr : RowsExist m V P tokens
  · rw [eval_value hf.toShaped ha hn hr L h1 h2 (Nat.le_trans (layersOf_le h1 h2) hf.depth) buf given hbuf]
    constructor
    · intro h; cases h
    · rintro ⟨t, ht, hv⟩
      have := hr.1 t ht
      omega
  · rw [eval_ub hf.toShaped ha hn hr L h1 h2]
    simp only [true_iff]
    apply Classical.byContradiction
    intro hne
    apply hr
    refine ⟨?_, hpos⟩
    intro t ht
    apply Nat.lt_of_not_le
    intro hle
    exact hne ⟨t, ht, hle⟩

/-- C34 (exact): an accepted RoBERTa input is undefined behaviour iff a token is not in the table or the
last position is not. -/
theorem C34_roberta_iff (A : Arith α) (g : Gg) (m : EModel α) (V P S : Nat) (tokens segs : List Nat)
    (poolType : Nat) (hf : Fits m V P S tokens) (hb : m.isBert = false) (hP : 0 < P)
    (ha : Accepted m tokens segs poolType) (hn : 0 < tokens.length)
    (L : Int) (h1 : -(m.hp.nLayers : Int) ≤ L) (h2 : L ≤ m.hp.nLayers) (buf : List α) (given : Nat)
    (hbuf : given ≤ buf.length) :
    eval A g m tokens segs L poolType (some buf) given = .ub ↔
      (∃ t ∈ tokens, V ≤ t) ∨
      ((∃ t ∈ tokens, t ≠ m.padId) ∧ P ≤ m.padId + tokens.countP (· ≠ m.padId)) := by
  have key : RowsExist m V P tokens ↔ ¬ ((∃ t ∈ tokens, V ≤ t) ∨
      ((∃ t ∈ tokens, t ≠ m.padId) ∧ P ≤ m.padId + tokens.countP (· ≠ m.padId))) := by
    constructor
    · rintro ⟨h3, h4⟩ (⟨t, ht, hv⟩ | ⟨⟨t, ht, hne⟩, hle⟩)
      · have := h3 t ht; omega
      · -- the last token that is not a pad has the largest position
        have hlast : ∀ l : List Nat, (∃ t ∈ l, t ≠ m.padId) → ∃ i, i < l.length ∧ l.getD i 0 ≠ m.padId ∧
            (l.take (i + 1)).countP (· ≠ m.padId) = l.countP (· ≠ m.padId) := by
          intro l
          induction l with
          | nil => rintro ⟨t, ht, _⟩; simp at ht
          | cons x xs ih =>
            rintro ⟨t, ht, hne⟩
            by_cases hx : ∃ t ∈ xs, t ≠ m.padId
            · obtain ⟨i, hi, h5, h6⟩ := ih hx
              refine ⟨i + 1, by simpa using hi, by simpa using h5, ?_⟩
              rw [List.take_succ_cons, List.countP_cons, List.countP_cons, h6]
            · have hxs : xs.countP (· ≠ m.padId) = 0 := by
                rw [List.countP_eq_zero]
                intro a ha' hc
                exact hx ⟨a, ha', by simpa using hc⟩
              have hxe : x ≠ m.padId := by
                simp only [List.mem_cons] at ht
                rcases ht with rfl | ht
                · exact hne
                · exact absurd ⟨t, ht, hne⟩ hx
              refine ⟨0, by simp, by simpa using hxe, ?_⟩
              simp only [Nat.zero_add, List.take_succ_cons, List.take_zero, List.countP_cons, hxs]
              simp
        obtain ⟨i, hi, h5, h6⟩ := hlast tokens ⟨t, ht, hne⟩
        have := h4 i hi
        rw [refPos, hb] at this
        simp only [Bool.false_eq_true, if_false, robertaPos, if_neg h5, h6] at this
        omega
    · intro h
      refine ⟨?_, ?_⟩
      · intro t ht
        apply Nat.lt_of_not_le
        intro hle
        exact h (.inl ⟨t, ht, hle⟩)
      · intro t ht
        rw [refPos, hb]
        simp only [Bool.false_eq_true, if_false, robertaPos]
        split
        · exact hP
        · rename_i hne
          apply Nat.lt_of_not_le
          intro hle
          apply h
          refine .inr ⟨⟨_, getD_mem ht, hne⟩, ?_⟩
          have : (tokens.take (t + 1)).countP (· ≠ m.padId) ≤ tokens.countP (· ≠ m.padId) :=
            (List.take_sublist _ _).countP_le
          omega
  by_cases hr : RowsExist m V P tokens
  · rw [eval_value hf.toShaped ha hn hr L h1 h2 (Nat.le_trans (layersOf_le h1 h2) hf.depth) buf given hbuf]
    constructor
    · intro h; cases h
    · intro h; exact absurd h (key.mp hr)
  · rw [eval_ub hf.toShaped ha hn hr L h1 h2]
    simp only [true_iff]
    apply Classical.byContradiction
    intro hne
    exact hr (key.mpr hne)

/-- C34 (partial: tokens must be checked by the caller, RoBERTa texts must leave room for the padding
offset): the evaluation only addresses existing rows. -/
theorem C34_rows_partial (A : Arith α) (g : Gg) (m : EModel α) (V P S : Nat) (tokens segs : List Nat)
    (poolType : Nat) (hf : Fits m V P S tokens) (ha : Accepted m tokens segs poolType)
    (hn : 0 < tokens.length) (htok : ∀ t ∈ tokens, t < V)
    (hpos : if m.isBert then m.hp.maxTokens ≤ P else m.padId + tokens.length < P)
    (L : Int) (h1 : -(m.hp.nLayers : Int) ≤ L) (h2 : L ≤ m.hp.nLayers) (buf : List α) (given : Nat)
    (hbuf : given ≤ buf.length) :
    ∃ o, eval A g m tokens segs L poolType (some buf) given = .ok o ∧ o.ret = true := by
  refine ⟨_, eval_value hf.toShaped ha hn ⟨htok, ?_⟩ L h1 h2 (Nat.le_trans (layersOf_le h1 h2) hf.depth) buf given hbuf, rfl⟩
  intro t ht
  have := ha.count
  cases hb : m.isBert
  · rw [hb] at hpos
    simp only [Bool.false_eq_true, if_false] at hpos
    simp only [refPos, hb, Bool.false_eq_true, if_false, robertaPos]
    have h3 : (tokens.take (t + 1)).countP (· ≠ m.padId) ≤ tokens.length :=
      Nat.le_trans List.countP_le_length (by simp; omega)
    split <;> omega
  · rw [hb] at hpos
    simp only [if_true] at hpos
    simp only [refPos, hb, if_true]
    omega

example : Fits (tiny true 4) 3 4 2 [1, 2] ∧ Accepted (tiny true 4) [1, 2] [0, 1] 0 :=
  ⟨tiny_fits _ _ _ (by decide) (by decide), by decide, rfl, by decide, by decide⟩

/-- C34 fails: a token outside the table is accepted and read. -/
theorem C34_token_counterexample :
    eval tinyA tinyG (tiny true 4) [5] [0] (-1) 0 (some [0, 0]) 2 = .ub := by decide +kernel

/-- C34 fails: a RoBERTa input that is not longer than `max_tokens`, the size of the position table. -/
theorem C34_position_counterexample :
    eval tinyA tinyG (tiny false 4) [0, 2, 0, 2] [0, 0, 0, 0] (-1) 0 (some [0, 0]) 2 = .ub := by decide +kernel

/-! ## C41: layers -/

/-- C41 (partial: not for the smallest 64-bit number): a real evaluation succeeds iff the layer is in
range. -/
theorem C41_accept_partial (A : Arith α) (g : Gg) (m : EModel α) (V P S : Nat) (tokens segs : List Nat)
    (poolType : Nat) (hf : Fits m V P S tokens) (ha : Accepted m tokens segs poolType)
    (hn : 0 < tokens.length) (hr : RowsExist m V P tokens) (L : Int) (hmin : L ≠ -2 ^ 63)
    (buf : List α) (given : Nat) (hbuf : given ≤ buf.length) :
    (∃ o, eval A g m tokens segs L poolType (some buf) given = .ok o ∧ o.ret = true) ↔
      -(m.hp.nLayers : Int) ≤ L ∧ L ≤ m.hp.nLayers := by
  constructor
  · rintro ⟨o, h, ho⟩
    apply Classical.byContradiction
    intro hc
    rw [eval_accepted ha] at h
    simp only at h
    rw [evalRun_bad_layer L hmin hc] at h
    cases h
    simp at ho
  · rintro ⟨h1, h2⟩
    exact ⟨_, eval_value hf.toShaped ha hn hr L h1 h2 (Nat.le_trans (layersOf_le h1 h2) hf.depth) buf given hbuf, rfl⟩

/-- C41 (partial: not for the smallest 64-bit number): a layer out of range is refused and the buffer is
left alone. -/
theorem C41_reject_partial (A : Arith α) (g : Gg) (m : EModel α) (tokens segs : List Nat)
    (poolType : Nat) (ha : Accepted m tokens segs poolType) (L : Int) (hmin : L ≠ -2 ^ 63)
    (h : L < -(m.hp.nLayers : Int) ∨ m.hp.nLayers < L) (buf : List α) (given : Nat) :
    ∃ c, eval A g m tokens segs L poolType (some buf) given = .ok ⟨false, some buf, c⟩ := by
  rw [eval_accepted ha]
  exact ⟨_, evalRun_bad_layer L hmin (by omega) _ _ _⟩

/-- C41: `L` from 0 to the number of layers is the output of layer `L`, 0 being the embeddings.  (For more than 44 layers
see C86.) -/
theorem C41_from_front (A : Arith α) (g : Gg) (m : EModel α) (V P S : Nat) (tokens segs : List Nat)
    (poolType : Nat) (hf : Shaped m V P S tokens) (ha : Accepted m tokens segs poolType)
    (hn : 0 < tokens.length) (hr : RowsExist m V P tokens) (L : Nat) (hL : L ≤ m.hp.nLayers) (hd : L ≤ 44)
    (buf : List α) (hbuf : buf.length = m.hp.hidden * outRows poolType tokens.length) :
    eval A g m tokens segs L poolType (some buf) buf.length =
      .ok ⟨true, some (expected A m L poolType tokens segs), buf.length⟩ := by
  have hlen : (expected A m L poolType tokens segs).length = buf.length := by simp [expected, flatten, hbuf]
  have e1 : layersOf m.hp.nLayers (L : Int) = L := by unfold layersOf; rw [if_neg (by omega)]; omega
  rw [eval_value hf ha hn hr L (by omega) (by omega) (by rw [e1]; exact hd) buf buf.length (Nat.le_refl _), e1, ← hbuf, Nat.min_self,
    List.drop_length, List.append_nil, List.take_of_length_le (by omega)]

/-- C41: `-k` is the output of the `k`-th last layer. -/
theorem C41_from_back (A : Arith α) (g : Gg) (m : EModel α) (V P S : Nat) (tokens segs : List Nat)
    (poolType : Nat) (hf : Shaped m V P S tokens) (ha : Accepted m tokens segs poolType)
    (hn : 0 < tokens.length) (hr : RowsExist m V P tokens) (k : Nat) (h1 : 1 ≤ k) (hk : k ≤ m.hp.nLayers)
    (hd : m.hp.nLayers + 1 - k ≤ 44)
    (buf : List α) (hbuf : buf.length = m.hp.hidden * outRows poolType tokens.length) :
    eval A g m tokens segs (-(k : Int)) poolType (some buf) buf.length =
      .ok ⟨true, some (expected A m (m.hp.nLayers + 1 - k) poolType tokens segs), buf.length⟩ := by
  have hlen : (expected A m (m.hp.nLayers + 1 - k) poolType tokens segs).length = buf.length := by
    simp [expected, flatten, hbuf]
  have e1 : layersOf m.hp.nLayers (-(k : Int)) = m.hp.nLayers + 1 - k := by
    unfold layersOf; rw [if_pos (by omega)]; omega
  rw [eval_value hf ha hn hr _ (by omega) (by omega) (by rw [e1]; exact hd) buf buf.length (Nat.le_refl _), e1, ← hbuf, Nat.min_self,
    List.drop_length, List.append_nil, List.take_of_length_le (by omega)]

/-- C41 fails for the smallest 64-bit number: its negation overflows. -/
theorem C41_min_counterexample (A : Arith α) (g : Gg) (m : EModel α) (tokens segs : List Nat)
    (poolType : Nat) (ha : Accepted m tokens segs poolType) (buf : List α) (given : Nat) :
    eval A g m tokens segs (-2 ^ 63) poolType (some buf) given = .ub := by
  rw [eval_accepted ha]
  rfl

example : RowsExist (tiny true 4) 3 4 [1, 2] := by
  refine ⟨by decide, ?_⟩
  intro t ht
  simp only [List.length_cons, List.length_nil] at ht
  show t < 4
  omega

/-! ## C42: dry runs -/

/-- C42 (partial: the layer must be in range): after a dry run reporting `s`, the real run with a buffer
of size `s` succeeds, reports `s` and fills the whole buffer. -/
theorem C42_dry_run_partial (A : Arith α) (g : Gg) (m : EModel α) (V P S : Nat) (tokens segs : List Nat)
    (poolType : Nat) (hf : Fits m V P S tokens) (hn : 0 < tokens.length) (hr : RowsExist m V P tokens)
    (L : Int) (h1 : -(m.hp.nLayers : Int) ≤ L) (h2 : L ≤ m.hp.nLayers) (given : Nat) (d : EvalOut α)
    (hdry : eval A g m tokens segs L poolType none given = .ok d) (hret : d.ret = true)
    (buf : List α) (hb : buf.length = d.count) :
    ∃ data : List α, data.length = d.count ∧
      eval A g m tokens segs L poolType (some buf) d.count = .ok ⟨true, some data, d.count⟩ := by
  have ha : Accepted m tokens segs poolType := by
    apply Classical.byContradiction
    intro hc
    rw [eval_rejected hc] at hdry
    cases hdry
    simp at hret
  rw [eval_accepted ha] at hdry
  cases hdry
  simp only at hb ⊢
  rw [eval_value hf.toShaped ha hn hr L h1 h2 (Nat.le_trans (layersOf_le h1 h2) hf.depth) buf _ (by omega), Nat.min_self, List.drop_of_length_le (by omega),
    List.append_nil]
  refine ⟨_, ?_, rfl⟩
  simp [expected, flatten]

/-- C42 fails: a dry run does not look at the layer. -/
theorem C42_layer_counterexample (A : Arith α) (g : Gg) (m : EModel α) (tokens segs : List Nat)
    (poolType : Nat) (ha : Accepted m tokens segs poolType) (L : Int) (hL : m.hp.nLayers < L)
    (buf : List α) (given : Nat) :
    (∃ c, eval A g m tokens segs L poolType none given = .ok ⟨true, none, c⟩) ∧
    (∃ c, eval A g m tokens segs L poolType (some buf) given = .ok ⟨false, some buf, c⟩) :=
  ⟨⟨_, C40_dry A g m tokens segs L poolType given ha⟩,
    C41_reject_partial A g m tokens segs poolType ha L (by omega) (.inr hL) buf given⟩

example : Accepted (tiny true 4) [1] [0] 1 ∧ ((tiny true 4).hp.nLayers : Int) < 2 :=
  ⟨⟨by decide, rfl, by decide, by decide⟩, by decide⟩

/-! ## C45, C46: memory of the graph -/

/-- C45: building the graph of a BERT model uses exactly the estimated memory: it succeeds if the pool has
at least that size, leaving the pool filled to exactly the estimate, and aborts otherwise. -/
theorem C45_bert_memory (e : Env α) (m : EModel α) (V P S : Nat) (tokens segs : List Nat) (poolType L : Nat)
    (hf : Shaped m V P S tokens) (_hb : m.isBert = true) (ha : Accepted m tokens segs poolType)
    (hn : 0 < tokens.length) (hr : RowsExist m V P tokens) (hL : L ≤ m.hp.nLayers) :
    ((bufferSize e.g m.hp poolType tokens.length).calc L ≤ e.mem →
      ∃ x, graphProg e m.hp m.w L poolType tokens segs (positionsOf m tokens) 0 =
        .ok (some x, (bufferSize e.g m.hp poolType tokens.length).calc L)) ∧
    (e.mem < (bufferSize e.g m.hp poolType tokens.length).calc L →
      graphProg e m.hp m.w L poolType tokens segs (positionsOf m tokens) 0 = .abort) := by
  have hy := graphProg_yields e hf.ok tokens segs hn L poolType hL ha.pool ((input_iff hf ha).mpr hr)
  constructor
  · intro h
    obtain ⟨o, h1, x, rfl, _⟩ := hy.1 0 (by omega)
    exact ⟨x, by rw [h1, Nat.zero_add]⟩
  · intro h
    exact hy.2 0 (by omega) (by omega)

/-- C46: the same for RoBERTa. -/
theorem C46_roberta_memory (e : Env α) (m : EModel α) (V P S : Nat) (tokens segs : List Nat) (poolType L : Nat)
    (hf : Shaped m V P S tokens) (_hb : m.isBert = false) (ha : Accepted m tokens segs poolType)
    (hn : 0 < tokens.length) (hr : RowsExist m V P tokens) (hL : L ≤ m.hp.nLayers) :
    ((bufferSize e.g m.hp poolType tokens.length).calc L ≤ e.mem →
      ∃ x, graphProg e m.hp m.w L poolType tokens segs (positionsOf m tokens) 0 =
        .ok (some x, (bufferSize e.g m.hp poolType tokens.length).calc L)) ∧
    (e.mem < (bufferSize e.g m.hp poolType tokens.length).calc L →
      graphProg e m.hp m.w L poolType tokens segs (positionsOf m tokens) 0 = .abort) := by
  have hy := graphProg_yields e hf.ok tokens segs hn L poolType hL ha.pool ((input_iff hf ha).mpr hr)
  constructor
  · intro h
    obtain ⟨o, h1, x, rfl, _⟩ := hy.1 0 (by omega)
    exact ⟨x, by rw [h1, Nat.zero_add]⟩
  · intro h
    exact hy.2 0 (by omega) (by omega)

example : Fits (tiny false 4) 3 4 2 [0, 2] ∧ RowsExist (tiny false 4) 3 4 [0, 2] := by
  refine ⟨tiny_fits _ _ _ (by decide) (by decide), by decide, ?_⟩
  intro t ht
  match t, ht with
  | 0, _ => decide
  | 1, _ => decide

/-! ## C61, C62: values -/

/-- C61: the attention sub-graph computes multi-head attention: out of queries, keys and values laid out
as (head size, heads, tokens) it makes the matrix whose feature `j` of token `t` is the sum of feature `j`
of the values weighted by the softmax of head `j / d`. -/
theorem C61_attention (e : Env α) (d heads n : Nat) (hd : 0 < d) (hh : 0 < heads) (x : T α) (X : Mat α)
    (hx : IsMat x (heads * d) n X) (hn : 0 < n) (qw qb kw kb vw vb : T α)
    (hqw : IsW qw (heads * d) (heads * d)) (hqb : IsVec qb (heads * d))
    (hkw : IsW kw (heads * d) (heads * d)) (hkb : IsVec kb (heads * d))
    (hvw : IsW vw (heads * d) (heads * d)) (hvb : IsVec vb (heads * d))
    (u : Nat) (hmem : u + (tensorSize e.g (heads * d) n * 15 + tensorSize e.g 0 * 8 +
      tensorSize e.g n n heads * 2) ≤ e.mem) :
    ∃ r u', (do
        let q ← project e x qw qb d heads n
        let k ← project e x kw kb d heads n
        let v ← project e x vw vb d heads n
        attend e (heads * d) d n q k v : M (T α)) u = .ok (r, u') ∧
      r.ne0 = heads * d ∧ r.ne1 = n ∧
      ∀ j t, j < heads * d → t < n → r.get j t 0 0 =
        Spec.attend e.A d n (Spec.dense e.A (heads * d) (wmat qw) (wvec qb) X)
          (Spec.dense e.A (heads * d) (wmat kw) (wvec kb) X)
          (Spec.dense e.A (heads * d) (wmat vw) (wvec vb) X) j t := by
  have hhd : 0 < heads * d := Nat.mul_pos hh hd
  have hy := (project_heads (e := e) hhd hn hx hqw hqb).bind fun q hq =>
    (project_heads hhd hn hx hkw hkb).bind fun k hk =>
    (project_heads hhd hn hx hvw hvb).bind fun v hv => attend_mat hd hh hq hk hv
  obtain ⟨r, h1, h2⟩ := hy.1 u (by omega)
  exact ⟨r, _, h1, h2.ne0, h2.ne1, h2.get⟩

/-- C61: without pooling, the output is the reference encoder's hidden states after the chosen layer, token
after token; with more layers than ggml's graph has room for there is no output (C86). -/
theorem C61_hidden_states (A : Arith α) (g : Gg) (m : EModel α) (V P S : Nat) (tokens segs : List Nat)
    (hf : Shaped m V P S tokens) (ha : Accepted m tokens segs 0) (hn : 0 < tokens.length)
    (hr : RowsExist m V P tokens) (L : Nat) (hL : L ≤ m.hp.nLayers) (buf : List α)
    (hbuf : buf.length = m.hp.hidden * tokens.length) :
    (44 < L ∧ eval A g m tokens segs L 0 (some buf) buf.length = .abort) ∨
    ∃ out, eval A g m tokens segs L 0 (some buf) buf.length = .ok ⟨true, some out, buf.length⟩ ∧
      out.length = m.hp.hidden * tokens.length ∧
      ∀ i t, i < m.hp.hidden → t < tokens.length →
        out[t * m.hp.hidden + i]? = some (Spec.refEncode A m.hp.eps m.hp.hidden (m.hp.hidden / m.hp.heads) tokens.length
          m.hp.interm ((m.w.layers.take L).map Layer.ref)
          (Spec.refEmbed A m.hp.eps m.hp.hidden (wmat m.w.tok) (wmat m.w.seg) (wmat m.w.pos) (wvec m.w.lnw)
            (wvec m.w.lnb) (tokens.getD · 0) (segs.getD · 0) (refPos m tokens)) i t) := by
  rcases Nat.lt_or_ge 44 L with hd | hd
  · exact .inl ⟨hd, eval_deep hf ha hn hr L (by omega) (by omega) (by rw [layersOf_nat]; exact hd) buf _⟩
  refine .inr ⟨_, C41_from_front A g m V P S tokens segs 0 hf ha hn hr L hL hd buf hbuf, ?_, ?_⟩
  · simp [expected, flatten, outRows]
  · intro i t hi ht
    have hlt : t * m.hp.hidden + i < m.hp.hidden * tokens.length := by
      have := row_in (V := m.hp.hidden) ht (show i + 1 ≤ m.hp.hidden from hi)
      omega
    unfold expected flatten
    rw [List.getElem?_map, List.getElem?_range (by simpa [outRows] using hlt)]
    simp only [Option.map_some, Option.some.injEq]
    rw [Nat.mul_comm t, Nat.mul_add_mod, Nat.mod_eq_of_lt hi, Nat.mul_add_div (by omega), Nat.div_eq_of_lt hi,
      Nat.add_zero]
    rfl

/-- C62: with pooling, the output is the pooling layer applied to the first token's hidden state, or the
average or maximum over all tokens, feature by feature. (No output with too many layers, C86.) -/
theorem C62_pooling (A : Arith α) (g : Gg) (m : EModel α) (V P S : Nat) (tokens segs : List Nat)
    (poolType : Nat) (hp0 : poolType ≠ 0) (hf : Shaped m V P S tokens) (ha : Accepted m tokens segs poolType)
    (hn : 0 < tokens.length) (hr : RowsExist m V P tokens) (L : Nat) (hL : L ≤ m.hp.nLayers)
    (buf : List α) (hbuf : buf.length = m.hp.hidden) :
    (44 < L ∧ eval A g m tokens segs L poolType (some buf) buf.length = .abort) ∨
    eval A g m tokens segs L poolType (some buf) buf.length =
      .ok ⟨true, some ((List.range m.hp.hidden).map (Spec.refPool A m.hp.hidden (wmat m.w.poolw)
        (wvec m.w.poolb) (fun i =>
          if poolType = 1 then hiddenStates A m L tokens segs i 0
          else if poolType = 2 then A.avg ((List.range tokens.length).map (hiddenStates A m L tokens segs i))
          else A.max ((List.range tokens.length).map (hiddenStates A m L tokens segs i))))), buf.length⟩ := by
  rcases Nat.lt_or_ge 44 L with hd | hd
  · exact .inl ⟨hd, eval_deep hf ha hn hr L (by omega) (by omega) (by rw [layersOf_nat]; exact hd) buf _⟩
  right
  have hrows : outRows poolType tokens.length = 1 := by simp [outRows, hp0]
  rw [C41_from_front A g m V P S tokens segs poolType hf ha hn hr L hL hd buf (by rw [hrows]; omega)]
  congr 2
  unfold expected flatten refOut
  rw [hrows, Nat.mul_one, if_neg hp0]
  congr 1
  apply map_range_congr
  intro k hk
  simp only [Nat.mod_eq_of_lt hk]
  congr 1
  funext i
  unfold Spec.poolInput
  have := ha.pool
  split
  · simp
  · simp
  · rename_i h1 h2
    rw [if_neg (by omega), if_neg (by omega)]

/-- C62: without pooling, all hidden states are returned unchanged. (No output with too many layers, C86.) -/
theorem C62_none (A : Arith α) (g : Gg) (m : EModel α) (V P S : Nat) (tokens segs : List Nat)
    (hf : Shaped m V P S tokens) (ha : Accepted m tokens segs 0) (hn : 0 < tokens.length)
    (hr : RowsExist m V P tokens) (L : Nat) (hL : L ≤ m.hp.nLayers) (buf : List α)
    (hbuf : buf.length = m.hp.hidden * tokens.length) :
    (44 < L ∧ eval A g m tokens segs L 0 (some buf) buf.length = .abort) ∨
    eval A g m tokens segs L 0 (some buf) buf.length =
      .ok ⟨true, some (flatten m.hp.hidden tokens.length (hiddenStates A m L tokens segs)), buf.length⟩ := by
  rcases Nat.lt_or_ge 44 L with hd | hd
  · exact .inl ⟨hd, eval_deep hf ha hn hr L (by omega) (by omega) (by rw [layersOf_nat]; exact hd) buf _⟩
  right
  rw [C41_from_front A g m V P S tokens segs 0 hf ha hn hr L hL hd buf hbuf]
  rfl

example : eval tinyA tinyG (tiny true 4) [1, 2] [0, 1] (-1) 1 (some [0, 0]) 2 =
    eval tinyA tinyG (tiny true 4) [1, 2] [0, 1] 1 1 (some [0, 0]) 2 := by decide +kernel

/-! ## C49: calls without a model -/

/-- C49: evaluation calls without a model fail and touch nothing. -/
theorem C49_eval (A : Arith α) (g : Gg) (ctx : Option (ECtx α)) (h : ∀ c, ctx = some c → c.model = none)
    (tokens : List Nat) (segs : Option (List Nat)) (cond : Option (Int × Nat)) (out : Option (List α))
    (count : Option Nat) :
    bertsEval A g ctx tokens segs cond out count = .ok (false, out, count) := by
  unfold bertsEval
  cases ctx with
  | none => rfl
  | some c => simp only [Option.bind_some, h c rfl]

/-- C49: the same for the language model head. -/
theorem C49_eval_lm (A : Arith α) (g : Gg) (ctx : Option (ECtx α)) (h : ∀ c, ctx = some c → c.model = none)
    (hidden : List α) (dflt : α) (cond : Option Int) (ids : Option (List Nat)) (probs : Option (List α))
    (count : Option Nat) :
    bertsEvalLm A g ctx hidden dflt cond ids probs count = .ok (false, ids, probs, count) := by
  unfold bertsEvalLm
  cases ctx with
  | none => rfl
  | some c => simp only [Option.bind_some, h c rfl]

/-- C40: the C call is the evaluation, null segments being zeros, and fails on null arguments. -/
theorem C40_api (A : Arith α) (g : Gg) (m : EModel α) (tokens : List Nat) (segs : Option (List Nat))
    (out : Option (List α)) :
    (∀ L p c o, eval A g m tokens (segs.getD (tokens.map fun _ => 0)) L p out c = .ok o →
      bertsEval A g (some ⟨some m⟩) tokens segs (some (L, p)) out (some c) = .ok (o.ret, o.buf, some o.count)) ∧
    (∀ c, bertsEval A g (some ⟨some m⟩) tokens segs none out c = .ok (false, out, c)) ∧
    (∀ q, bertsEval A g (some ⟨some m⟩) tokens segs q out none = .ok (false, out, none)) := by
  refine ⟨?_, ?_, ?_⟩
  · intro L p c o h
    unfold bertsEval
    have : tokens.map (fun _ => 0) = List.replicate tokens.length 0 := by simp [List.map_const']
    rw [this] at h
    simp only [Option.bind_some]
    rw [h, res_ok]
  · intro c; rfl
  · intro q; cases q <;> rfl

/-! ## C43, C44, C47: the language model head -/

/-- C47: building the graph of the head uses exactly the estimated memory, for BERT and RoBERTa and
whatever `top_k` is (it is not looked at). -/
theorem C47_lm_memory (e : Env α) (m : EModel α) (lm : LmWeights α) (hm : HeadOK m lm) (hidden : List α)
    (dflt : α) (n : Nat) (hn : 0 < n) (hlen : hidden.length = m.hp.hidden * n) :
    ∃ size, lmBufferSize e.g m.isBert m.hp m.vocabCount n = .ok size ∧
      (size.calc 0 ≤ e.mem → ∃ x, lmProg e m hidden dflt 0 = .ok (some x, size.calc 0)) ∧
      (e.mem < size.calc 0 → lmProg e m hidden dflt 0 = .abort) := by
  obtain ⟨size, hs, hc⟩ := lm_calc e.g m.isBert m.hp m.vocabCount n hm.act
  have hy := lmProg_yields e hm hidden dflt n hn hlen
  rw [← hc] at hy
  refine ⟨size, hs, ?_, ?_⟩
  · intro h
    obtain ⟨o, h1, p, x, rfl, _⟩ := hy.1 0 (by omega)
    exact ⟨(p, x), by rw [h1, Nat.zero_add]⟩
  · intro h
    exact hy.2 0 (by omega) (by omega)

/-- C43: a dry run reports `min(top_k, vocabulary)` (or the vocabulary size) per token. -/
theorem C43_dry (A : Arith α) (g : Gg) (m : EModel α) (hh : 0 < m.hp.hidden) (hidden : List α) (dflt : α)
    (n : Nat) (hlen : hidden.length = m.hp.hidden * n) (topK : Int) (given : Nat) :
    evalLm A g m hidden dflt topK none none given = .ok ⟨true, none, none,
      (if topK ≤ 0 then m.vocabCount else min topK.toNat m.vocabCount) * n⟩ := by
  have hdiv : hidden.length / m.hp.hidden = n := by rw [hlen]; exact Nat.mul_div_cancel_left n hh
  unfold evalLm
  rw [if_neg (by omega), if_neg (by rw [hlen]; simp)]
  simp only [hdiv]
  rfl

/-- C43: a number of hidden states that is not a multiple of the hidden size is rejected, nothing is
written; with exactly one null buffer the call fails and reports the size; likewise for a model without
the weights of the head. -/
theorem C43_reject (A : Arith α) (g : Gg) (m : EModel α) (hh : 0 < m.hp.hidden) (hidden : List α) (dflt : α)
    (topK : Int) (given : Nat) :
    ((∀ n, hidden.length ≠ m.hp.hidden * n) → ∀ ids probs,
      evalLm A g m hidden dflt topK ids probs given = .ok ⟨false, ids, probs, given⟩) ∧
    (∀ n, hidden.length = m.hp.hidden * n →
      let needed := (if topK ≤ 0 then m.vocabCount else min topK.toNat m.vocabCount) * n
      (∀ ids, evalLm A g m hidden dflt topK (some ids) none given = .ok ⟨false, some ids, none, needed⟩) ∧
      (∀ probs, evalLm A g m hidden dflt topK none (some probs) given = .ok ⟨false, none, some probs, needed⟩) ∧
      (m.w.lm = none → m.hp.act ≤ 3 → ∀ ids probs,
        evalLm A g m hidden dflt topK (some ids) (some probs) given =
          .ok ⟨false, some ids, some probs, needed⟩)) := by
  refine ⟨?_, ?_⟩
  · intro h ids probs
    unfold evalLm
    rw [if_neg (by omega), if_pos]
    intro h0
    refine h (hidden.length / m.hp.hidden) ?_
    have := Nat.div_add_mod hidden.length m.hp.hidden
    omega
  · intro n hlen
    have hdiv : hidden.length / m.hp.hidden = n := by rw [hlen]; exact Nat.mul_div_cancel_left n hh
    refine ⟨?_, ?_, ?_⟩
    · intro ids
      unfold evalLm
      rw [if_neg (by omega), if_neg (by rw [hlen]; simp)]
      simp only [hdiv]
      rfl
    · intro probs
      unfold evalLm
      rw [if_neg (by omega), if_neg (by rw [hlen]; simp)]
      simp only [hdiv]
      rfl
    · intro hw ha ids probs
      unfold evalLm
      rw [if_neg (by omega), if_neg (by rw [hlen]; simp)]
      simp only [hdiv]
      have hb : ¬ ((m.isBert && decide (3 < m.hp.act)) = true) := by
        simp only [Bool.and_eq_true, decide_eq_true_eq, not_and]
        omega
      unfold lmRun lmBufferSize lmProg buildLm
      simp only [if_neg hb]
      rw [hw]
      rfl

example : (0 : Nat) < (tiny true 4).hp.hidden ∧ (∀ n, [1, 2, 3].length ≠ (tiny true 4).hp.hidden * n) ∧
    ({ tiny true 4 with w := { (tiny true 4).w with lm := none } }).w.lm = none ∧ (tiny true 4).hp.act ≤ 3 := by
  refine ⟨by decide, ?_, rfl, by decide⟩
  intro n
  show 3 ≠ 2 * n
  omega

/-- C43: the C call is the evaluation of the head, and fails on null arguments. -/
theorem C43_api (A : Arith α) (g : Gg) (m : EModel α) (hidden : List α) (dflt : α) (ids : Option (List Nat))
    (probs : Option (List α)) :
    (∀ k c o, evalLm A g m hidden dflt k ids probs c = .ok o →
      bertsEvalLm A g (some ⟨some m⟩) hidden dflt (some k) ids probs (some c) =
        .ok (o.ret, o.ids, o.probs, some o.count)) ∧
    (∀ c, bertsEvalLm A g (some ⟨some m⟩) hidden dflt none ids probs c = .ok (false, ids, probs, c)) ∧
    (∀ q, bertsEvalLm A g (some ⟨some m⟩) hidden dflt q ids probs none = .ok (false, ids, probs, none)) := by
  refine ⟨?_, ?_, ?_⟩
  · intro k c o h
    unfold bertsEvalLm
    simp only [Option.bind_some]
    rw [h, res_ok]
  · intro c; rfl
  · intro q; cases q <;> rfl

/-- C43 fails for a model whose hidden size is 0 (the loader accepts it): the call divides by it. -/
theorem C43_zero_counterexample (A : Arith α) (g : Gg) (m : EModel α) (hh : m.hp.hidden = 0) (hidden : List α)
    (dflt : α) (topK : Int) (ids : Option (List Nat)) (probs : Option (List α)) (given : Nat) :
    evalLm A g m hidden dflt topK ids probs given = .ub := by
  unfold evalLm
  rw [if_pos hh]

/-- C43 (partial: `top_k <= 0`): exactly the first `min(given, needed)` elements of both buffers are
written. -/
theorem C43_all_partial (A : Arith α) (g : Gg) (m : EModel α) (lm : LmWeights α) (hm : HeadOK m lm)
    (hidden : List α) (dflt : α) (n : Nat) (hn : 0 < n) (hlen : hidden.length = m.hp.hidden * n)
    (topK : Int) (hk : topK ≤ 0) (ids : List Nat) (probs : List α) (given : Nat)
    (h1 : given ≤ ids.length) (h2 : given ≤ probs.length) :
    ∃ a b, a.length = min given (m.vocabCount * n) ∧ b.length = min given (m.vocabCount * n) ∧
      evalLm A g m hidden dflt topK (some ids) (some probs) given =
        .ok ⟨true, some (a ++ ids.drop a.length), some (b ++ probs.drop b.length), m.vocabCount * n⟩ := by
  obtain ⟨x, p, ht, he⟩ := evalLm_run (A := A) (g := g) hm hidden dflt n hn hlen topK ids probs given
  have hneed : outputTokens m.vocabCount topK * n = m.vocabCount * n := by unfold outputTokens; rw [if_pos hk]
  rw [he, hneed]
  unfold lmOutput readRange Api.copyInto
  rw [if_pos hk]
  rw [if_pos (by simp only [T.count, ht.x0, ht.x1, ht.x2, ht.x3]; omega), res_ok, if_pos (by omega), res_ok,
    if_pos (by simp only [T.count, ht.p.ne0, ht.p.ne1, ht.p.ne2, ht.p.ne3]; omega), res_ok, if_pos (by omega),
    res_ok, res_ok]
  refine ⟨(List.range (min given (m.vocabCount * n))).map fun i => x.flat (0 + i),
    (List.range (min given (m.vocabCount * n))).map fun i => p.flat (0 + i), ?_, ?_, ?_⟩
  · simp
  · simp
  · simp only [List.length_map, List.length_range]
    rw [List.take_of_length_le (by simp), List.take_of_length_le (by simp)]

theorem flatMap_len {β : Type} (f : Nat → List β) (k : Nat) (hf : ∀ t, (f t).length = k) (n s : Nat) :
    ((List.range' s n).flatMap f).length = n * k := by
  induction n generalizing s with
  | zero => simp
  | succ n ih => rw [List.range'_succ, List.flatMap_cons, List.length_append, hf, ih, Nat.add_mul]; omega

theorem flatMap_get {β : Type} (f : Nat → List β) (k : Nat) (hf : ∀ t, (f t).length = k) (n s t i : Nat)
    (ht : t < n) (hi : i < k) : ((List.range' s n).flatMap f)[t * k + i]? = (f (s + t))[i]? := by
  induction n generalizing s t with
  | zero => omega
  | succ n ih =>
    rw [List.range'_succ, List.flatMap_cons]
    cases t with
    | zero => rw [List.getElem?_append_left (by rw [hf]; omega)]; simp
    | succ t =>
      have : (t + 1) * k + i = k + (t * k + i) := by rw [Nat.add_mul, Nat.one_mul]; omega
      rw [this, List.getElem?_append_right (by rw [hf]; omega), hf, Nat.add_sub_cancel_left,
        ih (s + 1) t (by omega)]
      congr 2
      omega

/-- The contract of `ggml_argsort` (descending order `ge`): a permutation of the indices that sorts. -/
structure ArgsortSpec (A : Arith α) (ge : α → α → Prop) : Prop where
  range : ∀ l i, i < l.length → A.argsort l i < l.length
  inj : ∀ l i j, i < l.length → j < l.length → A.argsort l i = A.argsort l j → i = j
  surj : ∀ l v, v < l.length → ∃ i, i < l.length ∧ A.argsort l i = v
  sorted : ∀ (l : List α) i j x y, i ≤ j → j < l.length → l[A.argsort l i]? = some x →
    l[A.argsort l j]? = some y → ge x y

theorem argsort_lt {A : Arith α} {ge : α → α → Prop} (hA : ArgsortSpec A ge) (V : Nat) (P : Mat α) (i t : Nat)
    (hi : i < V) : A.argsort (col V P t) i < V := by
  have := hA.range (col V P t) i (by simpa [col] using hi)
  simpa [col] using this

theorem insertDesc_perm (l : List Int) (a : Nat) (r : List Nat) : (insertDesc l a r).Perm (a :: r) := by
  induction r with
  | nil => exact .refl _
  | cons b r ih =>
    unfold insertDesc
    split
    · exact .refl _
    · exact (List.Perm.cons b ih).trans (.swap a b r)

theorem sortDesc_perm (l : List Int) (r : List Nat) : (sortDesc l r).Perm r := by
  induction r with
  | nil => exact .refl _
  | cons a r ih => exact (insertDesc_perm l a _).trans (ih.cons a)

theorem insertDesc_sorted (l : List Int) (a : Nat) (r : List Nat)
    (h : r.Pairwise fun x y => l.getD y 0 ≤ l.getD x 0) :
    (insertDesc l a r).Pairwise fun x y => l.getD y 0 ≤ l.getD x 0 := by
  induction r with
  | nil => simp [insertDesc]
  | cons b r ih =>
    obtain ⟨h1, h2⟩ := List.pairwise_cons.1 h
    unfold insertDesc
    split
    · rename_i hab
      refine List.pairwise_cons.2 ⟨?_, h⟩
      intro x hx
      rcases List.mem_cons.1 hx with rfl | hx
      · exact hab
      · exact Int.le_trans (h1 x hx) hab
    · rename_i hab
      refine List.pairwise_cons.2 ⟨?_, ih h2⟩
      intro x hx
      rcases List.mem_cons.1 ((insertDesc_perm l a r).mem_iff.1 hx) with rfl | hx
      · omega
      · exact h1 x hx

theorem sortDesc_sorted (l : List Int) (r : List Nat) :
    (sortDesc l r).Pairwise fun x y => l.getD y 0 ≤ l.getD x 0 := by
  induction r with
  | nil => simp [sortDesc]
  | cons a r ih => exact insertDesc_sorted l a _ ih

/-- The contract can be met. -/
theorem tiny_argsort : ArgsortSpec tinyA (fun x y => y ≤ x) := by
  have hlen : ∀ l : List Int, (sortDesc l (List.range l.length)).length = l.length := by
    intro l
    rw [(sortDesc_perm l _).length_eq, List.length_range]
  have hget : ∀ (l : List Int) i (hi : i < l.length),
      tinyA.argsort l i = (sortDesc l (List.range l.length))[i]'(by rw [hlen]; exact hi) := by
    intro l i hi
    show (sortDesc l (List.range l.length)).getD i 0 = _
    rw [List.getD_eq_getElem?_getD, List.getElem?_eq_getElem (by rw [hlen]; exact hi), Option.getD_some]
  have hrange : ∀ (l : List Int) i, i < l.length → tinyA.argsort l i < l.length := by
    intro l i hi
    rw [hget l i hi]
    exact List.mem_range.1 ((sortDesc_perm l _).mem_iff.1 (List.getElem_mem _))
  refine ⟨hrange, ?_, ?_, ?_⟩
  · intro l i j hi hj h
    rw [hget l i hi, hget l j hj] at h
    have hn : (sortDesc l (List.range l.length)).Nodup := (sortDesc_perm l _).nodup_iff.2 List.nodup_range
    rw [List.nodup_iff_pairwise_ne] at hn
    have hp := List.pairwise_iff_getElem.1 hn
    rcases Nat.lt_trichotomy i j with hl | hl | hl
    · exact absurd h (hp i j (by rw [hlen]; exact hi) (by rw [hlen]; exact hj) hl)
    · exact hl
    · exact absurd h.symm (hp j i (by rw [hlen]; exact hj) (by rw [hlen]; exact hi) hl)
  · intro l v hv
    obtain ⟨i, hi, h⟩ := List.mem_iff_getElem.1 ((sortDesc_perm l _).mem_iff.2 (List.mem_range.2 hv))
    rw [hlen] at hi
    exact ⟨i, hi, by rw [hget l i hi]; exact h⟩
  · intro l i j x y hij hj hx hy
    have hi : i < l.length := by omega
    have hxx : x = l.getD (tinyA.argsort l i) 0 := by rw [List.getD_eq_getElem?_getD, hx]; rfl
    have hyy : y = l.getD (tinyA.argsort l j) 0 := by rw [List.getD_eq_getElem?_getD, hy]; rfl
    by_cases he : i = j
    · subst he
      rw [hxx, hyy]
      exact Int.le_refl _
    · have := List.pairwise_iff_getElem.1 (sortDesc_sorted l (List.range l.length)) i j
        (by rw [hlen]; exact hi) (by rw [hlen]; exact hj) (by omega)
      rw [hxx, hyy, hget l i hi, hget l j hj]
      exact this

/-- C43 (exact, `0 < top_k <= vocabulary`): the call writes `top_k` entries per token whatever capacity it
was given; it is undefined behaviour iff one of the buffers is shorter than that. -/
theorem C43_topk_iff (A : Arith α) (ge : α → α → Prop) (hA : ArgsortSpec A ge) (g : Gg) (m : EModel α)
    (lm : LmWeights α) (hm : HeadOK m lm)
    (hidden : List α) (dflt : α) (n : Nat) (hn : 0 < n) (hlen : hidden.length = m.hp.hidden * n)
    (k : Nat) (hk0 : 0 < k) (hk : k ≤ m.vocabCount) (ids : List Nat) (probs : List α) (given : Nat) :
    evalLm A g m hidden dflt k (some ids) (some probs) given = .ub ↔
      ids.length < n * k ∨ probs.length < n * k := by
  obtain ⟨x, p, ht, he⟩ := evalLm_run (A := A) (g := g) hm hidden dflt n hn hlen k ids probs given
  rw [he]
  unfold lmOutput
  rw [if_neg (by omega), List.range_eq_range']
  have hkk : (k : Int).toNat = k := by omega
  rw [hkk]
  have hids : ∀ i t, i < m.vocabCount → t < n →
      A.argsort (col m.vocabCount (refProbs A m lm hidden dflt) t) i < m.vocabCount :=
    fun i t hi _ => argsort_lt hA _ _ i t hi
  by_cases hs : ids.length < n * k ∨ probs.length < n * k
  · have := topkLoop_short ht hk hids n 0 (by omega) [] ids [] probs (by simp) (by simp) hs
    simp only [List.nil_append] at this
    rw [this]
    simp only [hs, iff_true]
    rfl
  · have := topkLoop_ok ht hk hids n 0 (by omega) [] ids [] probs (by simp) (by simp) (by omega) (by omega)
    simp only [List.nil_append] at this
    rw [this, res_ok]
    simp only [hs, iff_false]
    intro h
    cases h

/-- C43 (partial: `0 < top_k <= vocabulary` and buffers for `top_k` entries per token): exactly the first
`top_k` times the number of tokens elements of both buffers are written. -/
theorem C43_topk_partial (A : Arith α) (ge : α → α → Prop) (hA : ArgsortSpec A ge) (g : Gg) (m : EModel α)
    (lm : LmWeights α) (hm : HeadOK m lm)
    (hidden : List α) (dflt : α) (n : Nat) (hn : 0 < n) (hlen : hidden.length = m.hp.hidden * n)
    (k : Nat) (hk0 : 0 < k) (hk : k ≤ m.vocabCount) (ids : List Nat) (probs : List α) (given : Nat)
    (h1 : n * k ≤ ids.length) (h2 : n * k ≤ probs.length) :
    ∃ a b, a.length = n * k ∧ b.length = n * k ∧
      evalLm A g m hidden dflt k (some ids) (some probs) given =
        .ok ⟨true, some (a ++ ids.drop (n * k)), some (b ++ probs.drop (n * k)), k * n⟩ := by
  obtain ⟨x, p, ht, he⟩ := evalLm_run (A := A) (g := g) hm hidden dflt n hn hlen k ids probs given
  have hkk : (k : Int).toNat = k := by omega
  have hids : ∀ i t, i < m.vocabCount → t < n →
      A.argsort (col m.vocabCount (refProbs A m lm hidden dflt) t) i < m.vocabCount :=
    fun i t hi _ => argsort_lt hA _ _ i t hi
  have hneed : outputTokens m.vocabCount k = k := by
    unfold outputTokens; rw [if_neg (by omega), hkk, Nat.min_eq_left hk]
  have := topkLoop_ok ht hk hids n 0 (by omega) [] ids [] probs (by simp) (by simp) (by omega) (by omega)
  simp only [List.nil_append] at this
  rw [he, hneed]
  unfold lmOutput
  rw [if_neg (by omega), List.range_eq_range', hkk, this, res_ok]
  refine ⟨_, _, ?_, ?_, by rfl⟩
  · exact flatMap_len _ k (by simp) n 0
  · exact flatMap_len _ k (by simp) n 0

/-- C43 fails: `top_k` larger than the vocabulary is always undefined behaviour (the last row of ids is
read past its end), whatever the buffers. -/
theorem C43_vocab_counterexample (A : Arith α) (g : Gg) (m : EModel α)
    (lm : LmWeights α) (hm : HeadOK m lm)
    (hidden : List α) (dflt : α) (n : Nat) (hn : 0 < n) (hlen : hidden.length = m.hp.hidden * n)
    (k : Nat) (hk : m.vocabCount < k) (ids : List Nat) (probs : List α) (given : Nat) :
    evalLm A g m hidden dflt k (some ids) (some probs) given = .ub := by
  obtain ⟨x, p, ht, he⟩ := evalLm_run (A := A) (g := g) hm hidden dflt n hn hlen k ids probs given
  rw [he]
  unfold lmOutput
  rw [if_neg (by omega)]
  have hkk : (k : Int).toNat = k := by omega
  rw [hkk, topkLoop_over (List.range n) (n - 1) (by simp; omega)]
  · rfl
  · simp only [T.count, ht.x0, ht.x1, ht.x2, ht.x3, Nat.mul_one]
    have : m.vocabCount * n = (n - 1) * m.vocabCount + m.vocabCount := by
      rw [Nat.mul_comm]
      conv => lhs; rw [show n = n - 1 + 1 by omega, Nat.add_mul, Nat.one_mul]
    omega

/-- C43 fails: a caller that passes a capacity of 1 and buffers of that size is overrun. -/
theorem C43_capacity_counterexample :
    evalLm tinyA tinyG (tiny true 4) [1, 2] 0 2 (some [9]) (some [9]) 1 = .ub := by decide +kernel

/-- C44 (partial: `0 < top_k`): for each token, the returned ids are the `top_k` best tokens in descending
order, with their probabilities. -/
theorem C44_topk_partial (A : Arith α) (ge : α → α → Prop) (hA : ArgsortSpec A ge) (g : Gg) (m : EModel α)
    (lm : LmWeights α) (hm : HeadOK m lm)
    (hidden : List α) (dflt : α) (n : Nat) (hn : 0 < n) (hlen : hidden.length = m.hp.hidden * n)
    (k : Nat) (hk0 : 0 < k) (hk : k ≤ m.vocabCount) (ids : List Nat) (probs : List α) (given : Nat)
    (h1 : n * k ≤ ids.length) (h2 : n * k ≤ probs.length) :
    ∃ o ids' probs', evalLm A g m hidden dflt k (some ids) (some probs) given = .ok o ∧ o.ret = true ∧
      o.ids = some ids' ∧ o.probs = some probs' ∧
      ∀ t, t < n → ∃ best : Nat → Nat,
        (∀ i, i < k → ids'[t * k + i]? = some (best i) ∧ best i < m.vocabCount ∧
          probs'[t * k + i]? = some (refProbs A m lm hidden dflt (best i) t)) ∧
        (∀ i j, i < k → j < k → best i = best j → i = j) ∧
        (∀ i j, i ≤ j → j < k →
          ge (refProbs A m lm hidden dflt (best i) t) (refProbs A m lm hidden dflt (best j) t)) ∧
        (∀ v, v < m.vocabCount → (∀ i, i < k → best i ≠ v) → ∀ i, i < k →
          ge (refProbs A m lm hidden dflt (best i) t) (refProbs A m lm hidden dflt v t)) := by
  obtain ⟨x, p, ht, he⟩ := evalLm_run (A := A) (g := g) hm hidden dflt n hn hlen k ids probs given
  have hkk : (k : Int).toNat = k := by omega
  have hids : ∀ i t, i < m.vocabCount → t < n →
      A.argsort (col m.vocabCount (refProbs A m lm hidden dflt) t) i < m.vocabCount :=
    fun i t hi _ => argsort_lt hA _ _ i t hi
  have hloop := topkLoop_ok ht hk hids n 0 (by omega) [] ids [] probs (by simp) (by simp) (by omega) (by omega)
  simp only [List.nil_append] at hloop
  refine ⟨⟨true,
    some (((List.range' 0 n).flatMap fun t => (List.range k).map
      (A.argsort (col m.vocabCount (refProbs A m lm hidden dflt) t) ·)) ++ ids.drop (n * k)),
    some (((List.range' 0 n).flatMap fun t => ((List.range k).map
      (A.argsort (col m.vocabCount (refProbs A m lm hidden dflt) t) ·)).map
        (refProbs A m lm hidden dflt · t)) ++ probs.drop (n * k)),
    outputTokens m.vocabCount k * n⟩, _, _, ?_, rfl, rfl, rfl, ?_⟩
  · rw [he]
    unfold lmOutput
    rw [if_neg (by omega), List.range_eq_range', hkk, hloop, res_ok]
  · intro t htn
    have hcol : ∀ v, v < m.vocabCount →
        (col m.vocabCount (refProbs A m lm hidden dflt) t)[v]? = some (refProbs A m lm hidden dflt v t) := by
      intro v hv
      simp [col, hv]
    have hclen : (col m.vocabCount (refProbs A m lm hidden dflt) t).length = m.vocabCount := by simp [col]
    have hpos : ∀ i, i < k → t * k + i < n * k := by
      intro i hi
      calc t * k + i < t * k + k := by omega
        _ = (t + 1) * k := by rw [Nat.add_mul, Nat.one_mul]
        _ ≤ n * k := Nat.mul_le_mul_right _ htn
    refine ⟨A.argsort (col m.vocabCount (refProbs A m lm hidden dflt) t), ?_, ?_, ?_, ?_⟩
    · intro i hi
      refine ⟨?_, argsort_lt hA _ _ i t (by omega), ?_⟩
      · rw [List.getElem?_append_left (by rw [flatMap_len _ k (by simp)]; exact hpos i hi),
          flatMap_get _ k (by simp) n 0 t i htn hi]
        simp [hi]
      · rw [List.getElem?_append_left (by rw [flatMap_len _ k (by simp)]; exact hpos i hi),
          flatMap_get _ k (by simp) n 0 t i htn hi]
        simp [hi]
    · intro i j hi hj hij
      exact hA.inj _ i j (by omega) (by omega) hij
    · intro i j hij hj
      exact hA.sorted _ i j _ _ hij (by omega) (hcol _ (argsort_lt hA _ _ i t (by omega)))
        (hcol _ (argsort_lt hA _ _ j t (by omega)))
    · intro v hv hne i hi
      obtain ⟨j, hj, rfl⟩ := hA.surj (col m.vocabCount (refProbs A m lm hidden dflt) t) v (by omega)
      have hjk : k ≤ j := by
        apply Nat.le_of_not_lt
        intro h
        exact hne j h rfl
      exact hA.sorted _ i j _ _ (by omega) hj (hcol _ (argsort_lt hA _ _ i t (by omega))) (hcol _ hv)

/-- C44 fails for `top_k <= 0`: ids are sorted, but the probabilities are in the order of the
vocabulary: the `i`-th one is that of token `i`. -/
theorem C44_all_counterexample (A : Arith α) (g : Gg) (m : EModel α) (lm : LmWeights α) (hm : HeadOK m lm)
    (hidden : List α) (dflt : α) (n : Nat) (hn : 0 < n) (hlen : hidden.length = m.hp.hidden * n)
    (topK : Int) (hk : topK ≤ 0) (ids : List Nat) (probs : List α)
    (h1 : ids.length = m.vocabCount * n) (h2 : probs.length = m.vocabCount * n) :
    ∃ ids' probs', evalLm A g m hidden dflt topK (some ids) (some probs) (m.vocabCount * n) =
        .ok ⟨true, some ids', some probs', m.vocabCount * n⟩ ∧
      ∀ t i, t < n → i < m.vocabCount →
        ids'[t * m.vocabCount + i]? =
          some (A.argsort (col m.vocabCount (refProbs A m lm hidden dflt) t) i) ∧
        probs'[t * m.vocabCount + i]? = some (refProbs A m lm hidden dflt i t) := by
  obtain ⟨x, p, ht, he⟩ :=
    evalLm_run (A := A) (g := g) hm hidden dflt n hn hlen topK ids probs (m.vocabCount * n)
  have hneed : outputTokens m.vocabCount topK * n = m.vocabCount * n := by unfold outputTokens; rw [if_pos hk]
  rw [he, hneed]
  unfold lmOutput readRange Api.copyInto
  simp only [Nat.min_self]
  rw [if_pos hk]
  rw [if_pos (by simp only [T.count, ht.x0, ht.x1, ht.x2, ht.x3]; omega), res_ok, if_pos (by omega), res_ok,
    if_pos (by simp only [T.count, ht.p.ne0, ht.p.ne1, ht.p.ne2, ht.p.ne3]; omega), res_ok, if_pos (by omega),
    res_ok, res_ok]
  refine ⟨_, _, rfl, ?_⟩
  intro t i htn hi
  have hlt : t * m.vocabCount + i < m.vocabCount * n := by
    have := row_in (V := m.vocabCount) htn (show i + 1 ≤ m.vocabCount from hi)
    omega
  rw [List.getElem?_append_left (by simpa using hlt), List.getElem?_append_left (by simpa using hlt)]
  simp only [List.getElem?_take, List.getElem?_map, hlt, if_true, List.getElem?_range hlt, Option.map_some,
    Nat.zero_add]
  rw [flat_row ht.x0 ht.x1 ht.x2 i t hi htn, flat_row ht.p.ne0 ht.p.ne1 ht.p.ne2 i t hi htn, ht.get i t hi htn,
    ht.p.get i t hi htn]
  exact ⟨rfl, rfl⟩

/-- C44 fails, a concrete instance: the most probable token is 2, but the probability returned with it is
the smallest one. -/
theorem C44_mismatch_counterexample :
    evalLm tinyA tinyG (tiny true 4) [-5, 1] 0 0 (some [0, 0, 0]) (some [0, 0, 0]) 3 =
      .ok ⟨true, some [2, 1, 0], some [6, 13, 20], 3⟩ := by decide +kernel

/-- With `top_k` the same input gives matching ids and probabilities. -/
example : evalLm tinyA tinyG (tiny true 4) [-5, 1] 0 2 (some [0, 0, 0]) (some [0, 0, 0]) 3 =
    .ok ⟨true, some [2, 1, 0], some [20, 13, 0], 2⟩ := by decide +kernel

/-- The hypotheses of the theorems of this section can be met. -/
example : HeadOK (tiny false 4) tinyLm ∧ ([-5, 1, 3, 4] : List Int).length = (tiny false 4).hp.hidden * 2 ∧
    2 ≤ (tiny false 4).vocabCount ∧ ArgsortSpec tinyA (fun x y => y ≤ x) :=
  ⟨tiny_head false 4, rfl, by decide, tiny_argsort⟩

end Berts.Props
