import Verif.Spec.EvalCalls
import Verif.Proofs.Graph
import Verif.Proofs.Nodes

/-! # Lemmas about the evaluation calls -/

namespace Berts.Eval

open Berts.Spec (Arith Mat col)
open Berts.Graph

variable {α : Type}

theorem res_ok {β γ : Type} (a : β) (f : β → Res γ) : (Res.ok a).bind f = f a := rfl

theorem calc_eq (g : Gg) (hp : HParams) (poolType n L : Nat) (hL : L ≤ hp.nLayers) :
    (bufferSize g hp poolType n).calc L = embSize g hp.hidden n +
      layerSize g hp.hidden hp.heads hp.interm n * L + poolerSize g hp.hidden poolType + g.graph := by
  unfold bufferSize SizeInfo.calc
  simp only
  split
  · rfl
  · have : L = 0 := by omega
    subst this
    simp

theorem allocGraph_yields (e : Env α) : Yields e (allocGraph e) e.g.graph (fun _ => True) := by
  constructor
  · intro u hu
    refine ⟨(), ?_, trivial⟩
    unfold allocGraph
    rw [if_pos hu]
  · intro u _ hu
    unfold allocGraph
    rw [if_neg (by omega)]

theorem graphProg_yields (e : Env α) {m : EModel α} {V P S : Nat} (hm : ModelOK m V P S)
    (tokens segs : List Nat) (hn : 0 < tokens.length) (L poolType : Nat) (hL : L ≤ m.hp.nLayers)
    (hpt : poolType < 4) (hr : InputOK m V P S tokens segs) :
    Yields e (graphProg e m.hp m.w L poolType tokens segs (positionsOf m tokens))
      ((bufferSize e.g m.hp poolType tokens.length).calc L)
      (fun o => ∃ r, o = some r ∧ IsMat r m.hp.hidden (outRows poolType tokens.length)
        (refValue e.A m L poolType tokens segs)) := by
  rw [calc_eq _ _ _ _ _ hL]
  unfold graphProg
  refine (buildGraph_mat hm.weights hm.hidden hm.heads hm.interm hm.act tokens segs _ hn L poolType hL
    hpt hr).bind fun o ho => ?_
  obtain ⟨r, rfl, hr⟩ := ho
  exact ((allocGraph_yields e).bind fun _ _ => Yields.pure ⟨r, rfl, hr⟩).weaken (by omega) (fun _ h => h)

theorem graphProg_stuck (e : Env α) {m : EModel α} {V P S : Nat} (hm : ModelOK m V P S)
    (tokens segs : List Nat) (hn : 0 < tokens.length) (last : Int) (poolType : Nat)
    (hr : ¬ InputOK m V P S tokens segs) :
    Stuck e (graphProg e m.hp m.w last poolType tokens segs (positionsOf m tokens))
      (embSize e.g m.hp.hidden tokens.length) := by
  unfold graphProg
  exact (buildGraph_stuck hm.weights hm.hidden tokens segs _ hn last poolType hr).bind

theorem neededCount_eq (hp : HParams) (poolType n : Nat) (hpt : poolType < 4) :
    neededCount hp poolType n = some (hp.hidden * outRows poolType n) := by
  match poolType, hpt with
  | 0, _ => rfl
  | 1, _ => rfl
  | 2, _ => rfl
  | 3, _ => rfl

theorem read_mat {t : T α} {d n : Nat} {X : Mat α} (h : IsMat t d n X) (k : Nat) (hk : k ≤ d * n) :
    readRange t 0 k = .ok ((flatten d n X).take k) := by
  unfold readRange
  rw [if_pos (by simpa [T.count, h.ne0, h.ne1, h.ne2, h.ne3] using hk)]
  congr 1
  unfold flatten
  rw [← List.map_take, List.take_range, Nat.min_eq_left hk]
  apply map_range_congr
  intro i hi
  have hd : 0 < d := by
    rcases Nat.eq_zero_or_pos d with h0 | h0
    · subst h0; omega
    · exact h0
  have h2 : i / d < n := Nat.div_lt_of_lt_mul (by omega)
  have := mat_flat h (i % d) (i / d) (Nat.mod_lt _ hd) h2
  rw [Nat.mod_add_div] at this
  rw [Nat.zero_add]
  exact this

theorem lastLayer_in (n : Nat) (L : Int) (hn : n < 2 ^ 63) (h1 : -(n : Int) ≤ L) (h2 : L ≤ n) :
    lastLayer n L = .ok (some (layersOf n L : Int)) ∧ layersOf n L ≤ n := by
  unfold lastLayer layersOf
  split
  · rw [if_neg (by omega), if_neg (by omega)]
    refine ⟨?_, by omega⟩
    congr 2
    omega
  · rw [if_neg (by omega)]
    refine ⟨?_, by omega⟩
    congr 2
    omega

theorem lastLayer_out (n : Nat) (L : Int) (hmin : L ≠ -2 ^ 63) (h : ¬ (-(n : Int) ≤ L ∧ L ≤ n)) :
    lastLayer n L = .ok none := by
  unfold lastLayer
  split
  · rw [if_pos (by omega)]
  · rw [if_pos (by omega)]

theorem eval_accepted {A : Arith α} {g : Gg} {m : EModel α} {tokens segs : List Nat} {poolType : Nat}
    (h : Accepted m tokens segs poolType) (L : Int) (out : Option (List α)) (c : Nat) :
    eval A g m tokens segs L poolType out c =
      match out with
      | none => .ok ⟨true, none, m.hp.hidden * outRows poolType tokens.length⟩
      | some buf => evalRun A g m tokens segs L poolType buf c (m.hp.hidden * outRows poolType tokens.length) := by
  unfold eval
  have h3 : ¬ (segs.any (fun s => decide (m.hp.segments ≤ s)) = true) := by
    simp only [List.any_eq_true, decide_eq_true_eq, not_exists, not_and, Nat.not_le]
    exact h.segs
  rw [if_neg (by have := h.count; omega), if_neg (by have := h.len; omega), if_neg h3,
    neededCount_eq _ _ _ h.pool]
  cases out <;> rfl

theorem eval_rejected {A : Arith α} {g : Gg} {m : EModel α} {tokens segs : List Nat} {poolType : Nat}
    (h : ¬ Accepted m tokens segs poolType) (L : Int) (out : Option (List α)) (c : Nat) :
    eval A g m tokens segs L poolType out c = .ok ⟨false, out, c⟩ := by
  unfold eval
  split
  · rfl
  · split
    · rfl
    · split
      · rfl
      · rename_i h1 h2 h3
        have : 4 ≤ poolType := by
          apply Nat.le_of_not_lt
          intro h4
          apply h
          refine ⟨by omega, by omega, ?_, h4⟩
          simpa only [List.any_eq_true, decide_eq_true_eq, not_exists, not_and, Nat.not_le] using h3
        have hnone : neededCount m.hp poolType tokens.length = none := by
          unfold neededCount
          split <;> first | omega | rfl
        rw [hnone]

theorem expandGraph_ok {m : EModel α} {L poolType : Nat} (h : L ≤ 44) : ∃ c, expandGraph m L poolType = .ok c := by
  have hs : (if poolType = 0 then 0 else 5) ≤ 5 := by split <;> omega
  have hs2 : (if poolType = 0 then 0 else 2) ≤ 2 := by split <;> omega
  have hm : min m.w.layers.length (L : Int).toNat ≤ 44 := by simp; omega
  rcases Nodes.Good.expand (Nodes.good_build m.w.layers.length L poolType) Nodes.graphSize with ⟨-, -, c, h, -⟩ | ⟨h, -⟩
  · exact ⟨c, h⟩
  · exfalso
    revert h
    simp only [Nodes.graphSize]
    omega

theorem expandGraph_deep {m : EModel α} {L poolType : Nat} (h : 44 < L) (hl : L ≤ m.w.layers.length) :
    expandGraph m L poolType = .abort := by
  have hm : 44 < min m.w.layers.length (L : Int).toNat := by simp; omega
  rcases Nodes.Good.expand (Nodes.good_build m.w.layers.length L poolType) Nodes.graphSize with ⟨h, -⟩ | ⟨-, h⟩
  · exfalso
    revert h
    simp only [Nodes.graphSize]
    omega
  · exact h

theorem layersOf_le {n : Nat} {L : Int} (h1 : -(n : Int) ≤ L) (h2 : L ≤ n) : layersOf n L ≤ n := by
  unfold layersOf
  split <;> omega

theorem layersOf_nat (n L : Nat) : layersOf n (L : Int) = L := by
  unfold layersOf
  rw [if_neg (by omega)]
  omega

/-- The whole evaluation, for inputs whose rows exist. -/
theorem evalRun_ok {A : Arith α} {g : Gg} {m : EModel α} {V P S : Nat} (hm : ModelOK m V P S)
    {tokens segs : List Nat} {poolType : Nat} (hpt : poolType < 4) (hn : 0 < tokens.length)
    (hlay : m.hp.nLayers < 2 ^ 63) (hr : InputOK m V P S tokens segs)
    (L : Int) (h1 : -(m.hp.nLayers : Int) ≤ L) (h2 : L ≤ m.hp.nLayers) (hd : layersOf m.hp.nLayers L ≤ 44)
    (buf : List α) (given : Nat) (hb : min given (m.hp.hidden * outRows poolType tokens.length) ≤ buf.length) :
    evalRun A g m tokens segs L poolType buf given (m.hp.hidden * outRows poolType tokens.length) =
      .ok ⟨true, some ((flatten m.hp.hidden (outRows poolType tokens.length)
        (refValue A m (layersOf m.hp.nLayers L) poolType tokens segs)).take
          (min given (m.hp.hidden * outRows poolType tokens.length)) ++
        buf.drop (min given (m.hp.hidden * outRows poolType tokens.length))),
        m.hp.hidden * outRows poolType tokens.length⟩ := by
  obtain ⟨e1, e2⟩ := lastLayer_in m.hp.nLayers L hlay h1 h2
  unfold evalRun
  rw [e1, res_ok]
  simp only
  unfold evalWith
  obtain ⟨o, h3, r, rfl, h4⟩ := (graphProg_yields
    ⟨A, g, (bufferSize g m.hp poolType tokens.length).calc (layersOf m.hp.nLayers L)⟩ hm tokens segs hn
    (layersOf m.hp.nLayers L) poolType e2 hpt hr).1 0 (by simp)
  have e3 : ((layersOf m.hp.nLayers L : Int)).toNat = layersOf m.hp.nLayers L := by simp
  rw [e3, h3, res_ok]
  simp only
  obtain ⟨cg, h5⟩ := expandGraph_ok (m := m) (poolType := poolType) hd
  rw [h5, res_ok, read_mat h4 _ (Nat.min_le_right _ _), res_ok]
  unfold Api.copyInto
  rw [if_pos hb, res_ok]
  rw [List.take_take, Nat.min_self]

/-- With too many layers the process ends. -/
theorem evalRun_deep {A : Arith α} {g : Gg} {m : EModel α} {V P S : Nat} (hm : ModelOK m V P S)
    {tokens segs : List Nat} {poolType : Nat} (hpt : poolType < 4) (hn : 0 < tokens.length)
    (hlay : m.hp.nLayers < 2 ^ 63) (hr : InputOK m V P S tokens segs)
    (L : Int) (h1 : -(m.hp.nLayers : Int) ≤ L) (h2 : L ≤ m.hp.nLayers) (hd : 44 < layersOf m.hp.nLayers L)
    (buf : List α) (given needed : Nat) : evalRun A g m tokens segs L poolType buf given needed = .abort := by
  obtain ⟨e1, e2⟩ := lastLayer_in m.hp.nLayers L hlay h1 h2
  unfold evalRun
  rw [e1, res_ok]
  simp only
  unfold evalWith
  obtain ⟨o, h3, r, rfl, h4⟩ := (graphProg_yields
    ⟨A, g, (bufferSize g m.hp poolType tokens.length).calc (layersOf m.hp.nLayers L)⟩ hm tokens segs hn
    (layersOf m.hp.nLayers L) poolType e2 hpt hr).1 0 (by simp)
  have e3 : ((layersOf m.hp.nLayers L : Int)).toNat = layersOf m.hp.nLayers L := by simp
  rw [e3, h3, res_ok]
  simp only
  rw [expandGraph_deep hd (by rw [hm.weights.count]; exact e2)]
  rfl

theorem evalRun_ub {A : Arith α} {g : Gg} {m : EModel α} {V P S : Nat} (hm : ModelOK m V P S)
    {tokens segs : List Nat} {poolType : Nat} (hn : 0 < tokens.length)
    (hlay : m.hp.nLayers < 2 ^ 63) (hr : ¬ InputOK m V P S tokens segs)
    (L : Int) (h1 : -(m.hp.nLayers : Int) ≤ L) (h2 : L ≤ m.hp.nLayers) (buf : List α) (given needed : Nat) :
    evalRun A g m tokens segs L poolType buf given needed = .ub := by
  obtain ⟨e1, e2⟩ := lastLayer_in m.hp.nLayers L hlay h1 h2
  unfold evalRun
  rw [e1, res_ok]
  simp only
  unfold evalWith
  have e3 : ((layersOf m.hp.nLayers L : Int)).toNat = layersOf m.hp.nLayers L := by simp
  rw [e3]
  rw [graphProg_stuck ⟨A, g, (bufferSize g m.hp poolType tokens.length).calc (layersOf m.hp.nLayers L)⟩ hm
    tokens segs hn _ poolType hr 0 (by rw [calc_eq _ _ _ _ _ e2]; show _ ≤ _ + _ + _ + _; simp only; omega)]
  rfl

theorem evalRun_bad_layer {A : Arith α} {g : Gg} {m : EModel α} {tokens segs : List Nat} {poolType : Nat}
    (L : Int) (hmin : L ≠ -2 ^ 63) (h : ¬ (-(m.hp.nLayers : Int) ≤ L ∧ L ≤ m.hp.nLayers)) (buf : List α)
    (given needed : Nat) :
    evalRun A g m tokens segs L poolType buf given needed = .ok ⟨false, some buf, needed⟩ := by
  unfold evalRun
  rw [lastLayer_out _ _ hmin h]
  rfl

/-! ## Language model head -/

theorem lm_calc (g : Gg) (isBert : Bool) (hp : HParams) (V n : Nat) (hact : isBert = true → hp.act < 3) :
    ∃ s, lmBufferSize g isBert hp V n = .ok s ∧ s.calc 0 = tensorSize g (n * hp.hidden) + tensorSize g 0 +
      tensorSize g hp.hidden n * 9 + tensorSize g V n * 5 + g.graph := by
  unfold lmBufferSize
  refine ⟨_, if_neg ?_, ?_⟩
  · simp only [Bool.and_eq_true, decide_eq_true_eq]
    intro h
    have := hact h.1
    omega
  unfold SizeInfo.calc
  simp only
  omega

theorem headAct_eq (A : Arith α) {m : EModel α} (h : m.isBert = true → m.hp.act < 3) :
    lmAct A m.isBert m.hp.act = some (headAct A m) := by
  unfold headAct lmAct
  cases hb : m.isBert with
  | false => rfl
  | true =>
    have := h hb
    have : m.hp.act = 0 ∨ m.hp.act = 1 ∨ m.hp.act = 2 := by omega
    rcases this with e | e | e <;> rw [e] <;> rfl

theorem lmProg_yields (e : Env α) {m : EModel α} {lm : LmWeights α} (hm : HeadOK m lm) (hidden : List α)
    (dflt : α) (n : Nat) (hn : 0 < n) (hlen : hidden.length = m.hp.hidden * n) :
    Yields e (lmProg e m hidden dflt) (tensorSize e.g (n * m.hp.hidden) + tensorSize e.g 0 +
      tensorSize e.g m.hp.hidden n * 9 + tensorSize e.g m.vocabCount n * 5 + e.g.graph)
      (fun o => ∃ p x, o = some (p, x) ∧ IsMat p m.vocabCount n (refProbs e.A m lm hidden dflt) ∧
        x.ne0 = m.vocabCount ∧ x.ne1 = n ∧ x.ne2 = 1 ∧ x.ne3 = 1 ∧
        ∀ i t, i < m.vocabCount → t < n →
          x.get i t 0 0 = e.A.argsort (col m.vocabCount (refProbs e.A m lm hidden dflt) t) i) := by
  unfold lmProg
  refine (buildLm_yields m.isBert hm.head hm.shapes hm.hidden hm.vocab (headAct e.A m) (headAct_eq e.A hm.act) hidden dflt n hn hlen).bind
    fun o ho => ?_
  obtain ⟨p, x, rfl, h⟩ := ho
  exact ((allocGraph_yields e).bind fun _ _ => Yields.pure ⟨p, x, rfl, h⟩).weaken (by omega) (fun _ h => h)

theorem flat_row {β : Type} {x : T β} {V n : Nat} (h0 : x.ne0 = V) (h1 : x.ne1 = n) (h2 : x.ne2 = 1)
    (i t : Nat) (hi : i < V) (ht : t < n) :
    x.flat (t * V + i) = x.get i t 0 0 := by
  unfold T.flat
  have e1 : t * V + i = i + V * t := by rw [Nat.mul_comm]; omega
  rw [h0, h1, h2, e1, Nat.add_mul_mod_self_left, Nat.mod_eq_of_lt hi,
    Nat.add_mul_div_left _ _ (by omega), Nat.div_eq_of_lt hi, Nat.zero_add, Nat.mod_eq_of_lt ht, Nat.mod_one]
  have : (i + V * t) / (V * n * 1) = 0 := by
    apply Nat.div_eq_of_lt
    rw [Nat.mul_one]
    calc i + V * t < V * 1 + V * t := by omega
      _ = V * (1 + t) := by rw [Nat.mul_add]
      _ ≤ V * n := Nat.mul_le_mul_left _ (by omega)
  rw [this]

theorem row_in {V n t k : Nat} (ht : t < n) (hk : k ≤ V) : t * V + k ≤ V * n := by
  calc t * V + k ≤ t * V + V := by omega
    _ = (t + 1) * V := by rw [Nat.add_mul, Nat.one_mul]
    _ ≤ n * V := Nat.mul_le_mul_right _ ht
    _ = V * n := Nat.mul_comm _ _

/-- What the tensors of the head contain. -/
structure LmTensors (x : T Nat) (p : T α) (V n : Nat) (ids : Nat → Nat → Nat) (P : Mat α) : Prop where
  p : IsMat p V n P
  x0 : x.ne0 = V
  x1 : x.ne1 = n
  x2 : x.ne2 = 1
  x3 : x.ne3 = 1
  get : ∀ i t, i < V → t < n → x.get i t 0 0 = ids i t

theorem read_ids {x : T Nat} {p : T α} {V n : Nat} {ids : Nat → Nat → Nat} {P : Mat α}
    (h : LmTensors x p V n ids P) (t k : Nat) (ht : t < n) (hk : k ≤ V) :
    readRange x (t * V) k = .ok ((List.range k).map (ids · t)) := by
  unfold readRange
  rw [if_pos (by simp only [T.count, h.x0, h.x1, h.x2, h.x3, Nat.mul_one]; exact row_in ht hk)]
  congr 1
  apply map_range_congr
  intro i hi
  rw [flat_row h.x0 h.x1 h.x2 i t (by omega) ht]
  exact h.get i t (by omega) ht

theorem lookup_ok {p : T α} {V n : Nat} {P : Mat α} (h : IsMat p V n P) (t : Nat) (ht : t < n)
    (l : List Nat) (hl : ∀ i ∈ l, i < V) : lookup p (t * V) l = .ok (l.map (P · t)) := by
  induction l with
  | nil => rfl
  | cons i is ih =>
    unfold lookup
    have hi := hl i (by simp)
    have h1 : readRange p (t * V + i) 1 = .ok [P i t] := by
      unfold readRange
      have : t * V + i + 1 ≤ p.count := by
        simp only [T.count, h.ne0, h.ne1, h.ne2, h.ne3, Nat.mul_one]
        exact row_in ht hi
      rw [if_pos this]
      simp only [List.range_one, List.map_cons, List.map_nil, Nat.add_zero]
      rw [flat_row h.ne0 h.ne1 h.ne2 i t hi ht, h.get i t hi ht]
    rw [h1, res_ok, ih (fun j hj => hl j (by simp [hj])), res_ok]
    rfl

theorem copyAt_append {β : Type} (pre rest src : List β) (off : Nat) (hp : pre.length = off) :
    copyAt (pre ++ rest) off src =
      if src.length ≤ rest.length then .ok ((pre ++ src) ++ rest.drop src.length) else .ub := by
  unfold copyAt
  subst hp
  by_cases h : src.length ≤ rest.length
  · rw [if_pos h, if_pos (by simp; omega)]
    congr 1
    rw [List.take_left, List.drop_append]
    simp
  · rw [if_neg h, if_neg (by simp; omega)]

theorem topkLoop_ok {x : T Nat} {p : T α} {V n k : Nat} {ids : Nat → Nat → Nat} {P : Mat α}
    (h : LmTensors x p V n ids P) (hk : k ≤ V) (hids : ∀ i t, i < V → t < n → ids i t < V)
    (m s : Nat) (hs : s + m ≤ n) (pre rest : List Nat) (pre' rest' : List α)
    (hp : pre.length = s * k) (hp' : pre'.length = s * k) (hr : m * k ≤ rest.length)
    (hr' : m * k ≤ rest'.length) :
    topkLoop x p V k (List.range' s m) (pre ++ rest) (pre' ++ rest') =
      .ok (pre ++ ((List.range' s m).flatMap fun t => (List.range k).map (ids · t)) ++ rest.drop (m * k),
        pre' ++ ((List.range' s m).flatMap fun t => ((List.range k).map (ids · t)).map (P · t)) ++
          rest'.drop (m * k)) := by
  induction m generalizing s pre rest pre' rest' with
  | zero => simp [topkLoop]
  | succ m ih =>
    have hmk : (m + 1) * k = m * k + k := by rw [Nat.add_mul, Nat.one_mul]
    rw [List.range'_succ]
    unfold topkLoop
    rw [read_ids h s k (by omega) hk, res_ok, copyAt_append _ _ _ _ hp, if_pos (by simp; omega), res_ok,
      lookup_ok h.p s (by omega), res_ok, copyAt_append _ _ _ _ hp', if_pos (by simp; omega), res_ok,
      ih (s + 1) (by omega)]
    · simp only [List.length_map, List.length_range, List.flatMap_cons, List.drop_drop, List.append_assoc]
      rw [hmk, Nat.add_comm k]
    · simp [hp, Nat.add_mul]
    · simp [hp', Nat.add_mul]
    · simp; omega
    · simp; omega
    · intro i hi
      simp only [List.mem_map, List.mem_range] at hi
      obtain ⟨j, hj, rfl⟩ := hi
      exact hids j s (by omega) (by omega)

theorem topkLoop_short {x : T Nat} {p : T α} {V n k : Nat} {ids : Nat → Nat → Nat} {P : Mat α}
    (h : LmTensors x p V n ids P) (hk : k ≤ V) (hids : ∀ i t, i < V → t < n → ids i t < V)
    (m s : Nat) (hs : s + m ≤ n) (pre rest : List Nat) (pre' rest' : List α)
    (hp : pre.length = s * k) (hp' : pre'.length = s * k)
    (hr : rest.length < m * k ∨ rest'.length < m * k) :
    topkLoop x p V k (List.range' s m) (pre ++ rest) (pre' ++ rest') = .ub := by
  induction m generalizing s pre rest pre' rest' with
  | zero => simp at hr
  | succ m ih =>
    have hmk : (m + 1) * k = m * k + k := by rw [Nat.add_mul, Nat.one_mul]
    rw [List.range'_succ]
    unfold topkLoop
    rw [read_ids h s k (by omega) hk, res_ok, copyAt_append _ _ _ _ hp]
    by_cases h1 : k ≤ rest.length
    · rw [if_pos (by simpa using h1), res_ok, lookup_ok h.p s (by omega), res_ok, copyAt_append _ _ _ _ hp']
      · by_cases h2 : k ≤ rest'.length
        · rw [if_pos (by simpa using h2), res_ok]
          apply ih (s + 1) (by omega)
          · simp [hp, Nat.add_mul]
          · simp [hp', Nat.add_mul]
          · simp; omega
        · rw [if_neg (by simpa using h2)]; rfl
      · intro i hi
        simp only [List.mem_map, List.mem_range] at hi
        obtain ⟨j, hj, rfl⟩ := hi
        exact hids j s (by omega) (by omega)
    · rw [if_neg (by simpa using h1)]; rfl

/-- A result that is a value or undefined behaviour. -/
def OkOrUb {β : Type} (r : Res β) : Prop := (∃ a, r = .ok a) ∨ r = .ub

theorem readRange_okub {β : Type} (t : T β) (s n : Nat) : OkOrUb (readRange t s n) := by
  unfold readRange; split
  · exact .inl ⟨_, rfl⟩
  · exact .inr rfl

theorem copyAt_okub {β : Type} (b : List β) (s : Nat) (l : List β) : OkOrUb (copyAt b s l) := by
  unfold copyAt; split
  · exact .inl ⟨_, rfl⟩
  · exact .inr rfl

theorem lookup_okub (p : T α) (s : Nat) (l : List Nat) : OkOrUb (lookup p s l) := by
  induction l with
  | nil => exact .inl ⟨_, rfl⟩
  | cons i is ih =>
    unfold lookup
    rcases readRange_okub p (s + i) 1 with ⟨a, h⟩ | h
    · rw [h, res_ok]
      rcases ih with ⟨b, h'⟩ | h'
      · rw [h', res_ok]; exact .inl ⟨_, rfl⟩
      · rw [h']; exact .inr rfl
    · rw [h]; exact .inr rfl

theorem topkLoop_over {x : T Nat} {p : T α} {V k : Nat} (ts : List Nat) (t : Nat) (ht : t ∈ ts)
    (hover : x.count < t * V + k) (b : List Nat) (b' : List α) : topkLoop x p V k ts b b' = .ub := by
  induction ts generalizing b b' with
  | nil => simp at ht
  | cons s ts ih =>
    unfold topkLoop
    by_cases hst : t = s
    · subst hst
      have : readRange x (t * V) k = .ub := by unfold readRange; rw [if_neg (by omega)]
      rw [this]; rfl
    · have ht' : t ∈ ts := by simpa [hst] using ht
      rcases readRange_okub x (s * V) k with ⟨a, h⟩ | h
      · rw [h, res_ok]
        rcases copyAt_okub b (s * k) a with ⟨c, h2⟩ | h2
        · rw [h2, res_ok]
          rcases lookup_okub p (s * V) a with ⟨d, h3⟩ | h3
          · rw [h3, res_ok]
            rcases copyAt_okub b' (s * k) d with ⟨f, h4⟩ | h4
            · rw [h4, res_ok]; exact ih ht' _ _
            · rw [h4]; rfl
          · rw [h3]; rfl
        · rw [h2]; rfl
      · rw [h]; rfl

/-- What is assumed of `ggml_argsort` here: indices of the row. -/
def ArgsortRange (A : Arith α) : Prop := ∀ (l : List α) i, i < l.length → A.argsort l i < l.length

/-- `eval_lm` runs the head and copies from its tensors. -/
theorem evalLm_run {A : Arith α} {g : Gg} {m : EModel α} {lm : LmWeights α} (hm : HeadOK m lm)
    (hidden : List α) (dflt : α) (n : Nat) (hn : 0 < n) (hlen : hidden.length = m.hp.hidden * n)
    (topK : Int) (ids : List Nat) (probs : List α) (c : Nat) :
    ∃ (x : T Nat) (p : T α), LmTensors x p m.vocabCount n
        (fun i t => A.argsort (col m.vocabCount (refProbs A m lm hidden dflt) t) i)
        (refProbs A m lm hidden dflt) ∧
      evalLm A g m hidden dflt topK (some ids) (some probs) c =
        (lmOutput x p m.vocabCount n topK ids probs c (outputTokens m.vocabCount topK * n)).bind fun r =>
          .ok ⟨true, some r.1, some r.2, outputTokens m.vocabCount topK * n⟩ := by
  have hdiv : hidden.length / m.hp.hidden = n := by rw [hlen]; exact Nat.mul_div_cancel_left n hm.hidden
  obtain ⟨size, hs, hc⟩ := lm_calc g m.isBert m.hp m.vocabCount n hm.act
  obtain ⟨o, h1, p, x, rfl, h2, h3, h4, h5, h6, h7⟩ :=
    (lmProg_yields ⟨A, g, size.calc 0⟩ hm hidden dflt n hn hlen).1 0 (by rw [hc]; simp)
  refine ⟨x, p, ⟨h2, h3, h4, h5, h6, h7⟩, ?_⟩
  unfold evalLm
  rw [if_neg (by have := hm.hidden; omega), if_neg (by rw [hlen]; simp)]
  simp only [hdiv]
  unfold lmRun
  simp only [hdiv]
  rw [hs, res_ok, h1, res_ok]

end Berts.Eval
