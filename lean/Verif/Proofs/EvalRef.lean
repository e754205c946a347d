import Verif.Proofs.Eval
import Verif.Props.Roberta

/-! # The reference only depends on the tokens there are; the rows of the two architectures -/

namespace Berts.Graph

open Berts.Spec (Arith Mat RefLayer col)

variable {α : Type}

/-- Two matrices agree on the first `n` tokens. -/
def Agree (n : Nat) (X Y : Mat α) : Prop := ∀ i t, t < n → X i t = Y i t

theorem Agree.col {n : Nat} {X Y : Mat α} (h : Agree n X Y) (d t : Nat) (ht : t < n) :
    col d X t = col d Y t := map_range_congr fun i _ => h i t ht

theorem Agree.dense {n : Nat} {X Y : Mat α} (h : Agree n X Y) (A : Arith α) (d : Nat)
    (W : Nat → Nat → α) (b : Nat → α) : Agree n (Spec.dense A d W b X) (Spec.dense A d W b Y) := by
  intro j t ht
  unfold Spec.dense
  rw [h.col d t ht]

theorem Agree.layerNorm {n : Nat} {X Y : Mat α} (h : Agree n X Y) (A : Arith α) (eps d : Nat)
    (g b : Nat → α) : Agree n (Spec.layerNorm A eps d g b X) (Spec.layerNorm A eps d g b Y) := by
  intro j t ht
  unfold Spec.layerNorm
  rw [h.col d t ht]

theorem Agree.madd {n : Nat} {X Y X' Y' : Mat α} (h : Agree n X Y) (h' : Agree n X' Y') (A : Arith α) :
    Agree n (Spec.madd A X X') (Spec.madd A Y Y') := by
  intro j t ht
  unfold Spec.madd
  rw [h j t ht, h' j t ht]

theorem Agree.attend {n : Nat} {Q K V Q' K' V' : Mat α} (hq : Agree n Q Q') (hk : Agree n K K')
    (hv : Agree n V V') (A : Arith α) (d : Nat) :
    Agree n (Spec.attend A d n Q K V) (Spec.attend A d n Q' K' V') := by
  intro j t ht
  unfold Spec.attend
  rw [map_range_congr (fun s hs => hv j s hs)]
  congr 1
  apply map_range_congr
  intro s _
  unfold Spec.attnWeight
  congr 1
  apply map_range_congr
  intro s' hs'
  unfold Spec.headPart
  congr 1
  · exact map_range_congr fun i _ => hk _ s' hs'
  · exact map_range_congr fun i _ => hq _ t ht

theorem Agree.layer {n : Nat} {X Y : Mat α} (h : Agree n X Y) (A : Arith α) {eps : Nat} (hidden d interm : Nat)
    (l : RefLayer α) : Agree n (Spec.refLayer A eps hidden d n interm l X) (Spec.refLayer A eps hidden d n interm l Y) := by
  have h1 : Agree n (Spec.refAttention A eps hidden d n l X) (Spec.refAttention A eps hidden d n l Y) :=
    (h.madd (((h.dense A _ _ _).attend (h.dense A _ _ _) (h.dense A _ _ _) A d).dense A _ _ _) A).layerNorm A _ _ _ _
  have h2 : Agree n (fun i t => A.gelu (Spec.dense A hidden l.iw l.ib (Spec.refAttention A eps hidden d n l X) i t))
      (fun i t => A.gelu (Spec.dense A hidden l.iw l.ib (Spec.refAttention A eps hidden d n l Y) i t)) := by
    intro i t ht
    simp only
    rw [h1.dense A hidden l.iw l.ib i t ht]
  exact (h1.madd (h2.dense A _ _ _) A).layerNorm A _ _ _ _

theorem Agree.encode {n : Nat} (A : Arith α) {eps : Nat} (hidden d interm : Nat) (ls : List (RefLayer α)) {X Y : Mat α}
    (h : Agree n X Y) : Agree n (Spec.refEncode A eps hidden d n interm ls X) (Spec.refEncode A eps hidden d n interm ls Y) := by
  induction ls generalizing X Y with
  | nil => exact h
  | cons l ls ih => exact ih (h.layer A hidden d interm l)

/-- The reference value only depends on the rows of the tokens there are. -/
theorem refEval_congr (A : Arith α) (hp : HParams) (w : Weights α) (L poolType : Nat)
    (tok seg pos tok' seg' pos' : Nat → Nat) (n : Nat) (hn : 0 < n)
    (h1 : ∀ t, t < n → tok t = tok' t) (h2 : ∀ t, t < n → seg t = seg' t)
    (h3 : ∀ t, t < n → pos t = pos' t) :
    Agree (outRows poolType n) (refEval A hp w L poolType tok seg pos n)
      (refEval A hp w L poolType tok' seg' pos' n) := by
  have h4 : Agree n (Spec.refEmbed A hp.eps hp.hidden (wmat w.tok) (wmat w.seg) (wmat w.pos) (wvec w.lnw) (wvec w.lnb)
      tok seg pos) (Spec.refEmbed A hp.eps hp.hidden (wmat w.tok) (wmat w.seg) (wmat w.pos) (wvec w.lnw) (wvec w.lnb)
      tok' seg' pos') := by
    refine Agree.layerNorm ?_ A _ _ _ _
    intro i t ht
    simp only
    rw [h1 t ht, h2 t ht, h3 t ht]
  have h5 := Agree.encode A (eps := hp.eps) hp.hidden (hp.hidden / hp.heads) hp.interm ((w.layers.take L).map Layer.ref) h4
  unfold refEval refOut encoded
  by_cases hp0 : poolType = 0
  · simp only [if_pos hp0, outRows]
    exact h5
  · simp only [if_neg hp0, outRows]
    intro i t _
    have : ∀ k, Spec.poolInput A poolType n (Spec.refEncode A hp.eps hp.hidden (hp.hidden / hp.heads) n hp.interm
          ((w.layers.take L).map Layer.ref) (Spec.refEmbed A hp.eps hp.hidden (wmat w.tok) (wmat w.seg) (wmat w.pos)
            (wvec w.lnw) (wvec w.lnb) tok seg pos)) k =
        Spec.poolInput A poolType n (Spec.refEncode A hp.eps hp.hidden (hp.hidden / hp.heads) n hp.interm
          ((w.layers.take L).map Layer.ref) (Spec.refEmbed A hp.eps hp.hidden (wmat w.tok) (wmat w.seg) (wmat w.pos)
            (wvec w.lnw) (wvec w.lnb) tok' seg' pos')) k := by
      intro k
      unfold Spec.poolInput
      split
      · exact h5 k 0 hn
      · rw [map_range_congr (fun s hs => h5 k s hs)]
      · rw [map_range_congr (fun s hs => h5 k s hs)]
    rw [funext this]

theorem flatten_congr {n d : Nat} {X Y : Mat α} (h : Agree n X Y) : flatten d n X = flatten d n Y := by
  unfold flatten
  apply map_range_congr
  intro k hk
  exact h _ _ (Nat.div_lt_of_lt_mul hk)

end Berts.Graph

namespace Berts.Eval

open Berts.Graph
open Berts.Spec (Arith)

variable {α : Type}

theorem i32_small {v : Nat} (h : v < 2 ^ 31) : i32 v = v := by
  unfold i32
  rw [Nat.mod_eq_of_lt (by omega), if_pos h]

/-- An unsigned 32-bit number denotes a row of a table iff it is smaller than its size. -/
theorem i32_row {v V : Nat} (hv : v < 2 ^ 32) (hV : V ≤ 2 ^ 31) :
    (0 ≤ i32 v ∧ i32 v < V) ↔ v < V := by
  unfold i32
  rw [Nat.mod_eq_of_lt hv]
  split <;> omega

theorem getD_mem {l : List Nat} {i : Nat} (hi : i < l.length) : l.getD i 0 ∈ l := by
  rw [List.getD_eq_getElem?_getD, List.getElem?_eq_getElem hi]
  exact List.getElem_mem hi

theorem forall_getD {l : List Nat} {p : Nat → Prop} : (∀ i < l.length, p (l.getD i 0)) ↔ ∀ x ∈ l, p x := by
  constructor
  · intro h x hx
    obtain ⟨i, hi, rfl⟩ := List.mem_iff_getElem.mp hx
    have := h i hi
    rwa [List.getD_eq_getElem?_getD, List.getElem?_eq_getElem hi] at this
  · intro h i hi
    exact h _ (getD_mem hi)

theorem rows_list {l : List Nat} {V : Nat} (hl : ∀ x ∈ l, x < 2 ^ 32) (hV : V ≤ 2 ^ 31) :
    (∀ i < l.length, 0 ≤ i32 (l.getD i 0) ∧ i32 (l.getD i 0) < V) ↔ ∀ x ∈ l, x < V := by
  rw [← forall_getD (p := fun x => x < V)]
  constructor
  · intro h i hi
    exact (i32_row (hl _ (getD_mem hi)) hV).mp (h i hi)
  · intro h i hi
    exact (i32_row (hl _ (getD_mem hi)) hV).mpr (h i hi)

theorem positions_bert {m : EModel α} (hb : m.isBert = true) (tokens : List Nat) (hn : tokens.length < 2 ^ 31)
    (i : Nat) (hi : i < tokens.length) : (positionsOf m tokens).getD i 0 = (i : Int) := by
  unfold positionsOf
  rw [if_pos hb, List.getD_eq_getElem?_getD]
  simp [hi]
  exact i32_small (by omega)

theorem positions_roberta {m : EModel α} (hb : m.isBert = false) (tokens : List Nat)
    (hfit : m.padId + tokens.length < 2 ^ 31) (i : Nat) (hi : i < tokens.length) :
    (positionsOf m tokens).getD i 0 =
      if tokens.getD i 0 = m.padId then 0
      else ((m.padId + (tokens.take (i + 1)).countP (· ≠ m.padId) : Nat) : Int) := by
  have hget : tokens[i]? = some (tokens.getD i 0) := by
    rw [List.getD_eq_getElem?_getD, List.getElem?_eq_getElem hi]; rfl
  unfold positionsOf
  rw [if_neg (by simp [hb]), List.getD_eq_getElem?_getD]
  have := Props.C33_positions_partial m.padId tokens hfit i _ hget
  split
  · rename_i ht; rw [this.1 ht]; rfl
  · rename_i ht; rw [this.2 ht]; rfl

theorem positions_ref {m : EModel α} {tokens : List Nat}
    (h : if m.isBert then tokens.length < 2 ^ 31 else m.padId + tokens.length < 2 ^ 31) (i : Nat)
    (hi : i < tokens.length) : (positionsOf m tokens).getD i 0 = (refPos m tokens i : Int) := by
  unfold refPos
  cases hb : m.isBert
  · rw [hb] at h
    simp only [Bool.false_eq_true, if_false] at h ⊢
    rw [positions_roberta hb tokens h i hi]
    unfold robertaPos
    split <;> rfl
  · rw [hb] at h
    simp only [if_true] at h ⊢
    exact positions_bert hb tokens h i hi

theorem input_iff {m : EModel α} {V P S : Nat} {tokens segs : List Nat} {poolType : Nat}
    (hf : Shaped m V P S tokens) (ha : Accepted m tokens segs poolType) :
    InputOK m V P S tokens segs ↔ RowsExist m V P tokens := by
  unfold InputOK RowsExist RowsOK
  rw [rows_list hf.ids hf.v]
  have hs : ∀ i < tokens.length, 0 ≤ i32 (segs.getD i 0) ∧ i32 (segs.getD i 0) < S := by
    have h1 : ∀ x ∈ segs, x < S := fun x hx => Nat.lt_of_lt_of_le (ha.segs x hx) hf.segments
    rw [← ha.len, rows_list (fun x hx => by have := h1 x hx; have := hf.s; omega) hf.s]
    exact h1
  constructor
  · rintro ⟨h1, h2, _⟩
    refine ⟨h1, fun t ht => ?_⟩
    have := h2 t ht
    simp only at this
    rw [positions_ref hf.positions t ht] at this
    omega
  · rintro ⟨h1, h2⟩
    refine ⟨h1, fun t ht => ?_, hs⟩
    simp only
    rw [positions_ref hf.positions t ht]
    have := h2 t ht
    omega

theorem value_expected {A : Arith α} {m : EModel α} {V P S : Nat} {tokens segs : List Nat} {poolType : Nat}
    (hf : Shaped m V P S tokens) (ha : Accepted m tokens segs poolType) (hn : 0 < tokens.length)
    (hr : RowsExist m V P tokens) (L : Nat) :
    flatten m.hp.hidden (outRows poolType tokens.length) (refValue A m L poolType tokens segs) =
      expected A m L poolType tokens segs := by
  unfold refValue expected
  apply flatten_congr
  refine refEval_congr A m.hp m.w L poolType _ _ _ _ _ _ tokens.length hn ?_ ?_ ?_
  · intro t ht
    have := hr.1 _ (getD_mem ht)
    have := hf.v
    rw [i32_small (by omega)]
    rfl
  · intro t ht
    have := ha.segs _ (getD_mem (by rw [ha.len]; exact ht))
    have := hf.segments
    have := hf.s
    rw [i32_small (by omega)]
    rfl
  · intro t ht
    rw [positions_ref hf.positions t ht]
    rfl

/-- The value of an evaluation. -/
theorem eval_value {A : Arith α} {g : Gg} {m : EModel α} {V P S : Nat} {tokens segs : List Nat}
    {poolType : Nat} (hf : Shaped m V P S tokens) (ha : Accepted m tokens segs poolType)
    (hn : 0 < tokens.length) (hr : RowsExist m V P tokens)
    (L : Int) (h1 : -(m.hp.nLayers : Int) ≤ L) (h2 : L ≤ m.hp.nLayers) (hd : layersOf m.hp.nLayers L ≤ 44)
    (buf : List α) (given : Nat) (hb : given ≤ buf.length) :
    eval A g m tokens segs L poolType (some buf) given =
      .ok ⟨true, some ((expected A m (layersOf m.hp.nLayers L) poolType tokens segs).take given ++
        buf.drop (min given (m.hp.hidden * outRows poolType tokens.length))),
        m.hp.hidden * outRows poolType tokens.length⟩ := by
  rw [eval_accepted ha]
  simp only
  rw [evalRun_ok hf.ok ha.pool hn (by have := hf.layers; omega) ((input_iff hf ha).mpr hr) L h1 h2 hd buf given
    (by omega), value_expected hf ha hn hr]
  congr 3
  have hlen : (expected A m (layersOf m.hp.nLayers L) poolType tokens segs).length =
      m.hp.hidden * outRows poolType tokens.length := by simp [expected, flatten]
  rw [← hlen]
  congr 1
  rw [List.take_eq_take_iff]
  omega

theorem eval_deep {A : Arith α} {g : Gg} {m : EModel α} {V P S : Nat} {tokens segs : List Nat}
    {poolType : Nat} (hf : Shaped m V P S tokens) (ha : Accepted m tokens segs poolType)
    (hn : 0 < tokens.length) (hr : RowsExist m V P tokens)
    (L : Int) (h1 : -(m.hp.nLayers : Int) ≤ L) (h2 : L ≤ m.hp.nLayers) (hd : 44 < layersOf m.hp.nLayers L)
    (buf : List α) (given : Nat) : eval A g m tokens segs L poolType (some buf) given = .abort := by
  rw [eval_accepted ha]
  exact evalRun_deep hf.ok ha.pool hn (by have := hf.layers; omega) ((input_iff hf ha).mpr hr) L h1 h2 hd buf given _

theorem eval_ub {A : Arith α} {g : Gg} {m : EModel α} {V P S : Nat} {tokens segs : List Nat}
    {poolType : Nat} (hf : Shaped m V P S tokens) (ha : Accepted m tokens segs poolType)
    (hn : 0 < tokens.length) (hr : ¬ RowsExist m V P tokens)
    (L : Int) (h1 : -(m.hp.nLayers : Int) ≤ L) (h2 : L ≤ m.hp.nLayers) (buf : List α) (given : Nat) :
    eval A g m tokens segs L poolType (some buf) given = .ub := by
  rw [eval_accepted ha]
  exact evalRun_ub hf.ok hn (by have := hf.layers; omega) (mt (input_iff hf ha).mp hr) L h1 h2 _ _ _

end Berts.Eval
