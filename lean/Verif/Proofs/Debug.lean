import Verif.Model.Debug
import Verif.Proofs.EvalRef

/-! # Lemmas about the debug build -/

namespace Berts.Debug

open Berts.Spec (Arith Mat col)
open Berts.Graph
open Berts.Eval

variable {α : Type}

/-- `p` is `q` except that it may stop the process. -/
def Ref {β : Type} (p q : M β) : Prop := ∀ u, p u = .abort ∨ p u = q u

theorem Ref.refl {β : Type} (p : M β) : Ref p p := fun _ => .inr rfl

theorem Ref.bind {β γ : Type} {p q : M β} {f h : β → M γ} (h1 : Ref p q) (h2 : ∀ r, Ref (f r) (h r)) :
    Ref (p >>= f) (q >>= h) := by
  intro u
  show (p u).bind _ = _ ∨ (p u).bind _ = (q u).bind _
  rcases h1 u with e | e
  · rw [e]; exact .inl rfl
  · rw [e]
    cases q u with
    | ok r => exact h2 r.1 r.2
    | _ => exact .inr rfl

theorem Ref.check {β : Type} (n : Nat) {p q : M β} (h : Ref p q) : Ref (dcheck n >>= fun _ => p) q := by
  intro u
  show (dcheck n u).bind _ = _ ∨ (dcheck n u).bind _ = _
  unfold dcheck
  split
  · exact h u
  · exact .inl rfl

theorem Ref.after {β : Type} {p : M β} {f : β → M β} (h : ∀ r, Ref (f r) (pure r)) : Ref (p >>= f) p := by
  intro u
  show (p u).bind _ = _ ∨ (p u).bind _ = _
  cases p u with
  | ok r => exact h r.1 r.2
  | _ => exact .inr rfl

theorem buildGraph_ref (e : Env α) (hp : HParams) (w : Weights α) (last : Int) (poolType : Nat)
    (tokens segs : List Nat) (pos : List Int) :
    Ref (buildGraph e hp w last poolType tokens segs pos) (Graph.buildGraph e hp w last poolType tokens segs pos) := by
  unfold buildGraph Graph.buildGraph
  refine (Ref.refl _).bind fun x => Ref.check _ ?_
  split
  · exact Ref.refl _
  · refine (Ref.refl _).bind fun o => ?_
    cases o with
    | none => exact Ref.refl _
    | some x =>
      refine Ref.check _ (Ref.after fun o => ?_)
      cases o with
      | none => exact Ref.refl _
      | some x => exact Ref.check _ (Ref.refl _)

theorem graphProg_ref (e : Env α) (hp : HParams) (w : Weights α) (last : Int) (poolType : Nat)
    (tokens segs : List Nat) (pos : List Int) :
    Ref (graphProg e hp w last poolType tokens segs pos) (Eval.graphProg e hp w last poolType tokens segs pos) := by
  unfold graphProg Eval.graphProg
  exact (buildGraph_ref e hp w last poolType tokens segs pos).bind fun o => by cases o <;> exact Ref.refl _

theorem buildLm_ref (e : Env α) (isBert : Bool) (hp : HParams) (w : Weights α) (V : Nat) (hidden : List α) (dflt : α)
    {size : SizeInfo} (hs : lmBufferSize e.g isBert hp V (hidden.length / hp.hidden) = .ok size) :
    Ref (buildLm e isBert hp w V hidden dflt) (Graph.buildLm e isBert hp w V hidden dflt) := by
  intro u
  unfold buildLm
  cases hw : w.lm with
  | none => unfold Graph.buildLm; rw [hw]; exact .inr rfl
  | some lm =>
    simp only
    rw [hs, res_ok]
    refine (Ref.after (p := Graph.buildLm e isBert hp w V hidden dflt) fun o => ?_) u
    cases o with
    | none => exact Ref.refl _
    | some x => exact Ref.check _ (Ref.refl _)

theorem lmProg_ref (e : Env α) (m : EModel α) (hidden : List α) (dflt : α)
    {size : SizeInfo} (hs : lmBufferSize e.g m.isBert m.hp m.vocabCount (hidden.length / m.hp.hidden) = .ok size) :
    Ref (lmProg e m hidden dflt) (Eval.lmProg e m hidden dflt) := by
  unfold lmProg Eval.lmProg
  exact (buildLm_ref e m.isBert m.hp m.w m.vocabCount hidden dflt hs).bind fun o => by cases o <;> exact Ref.refl _

/-- The same for results. -/
def Sub {β : Type} (r s : Res β) : Prop := r = .abort ∨ r = s

theorem Sub.bind {β γ : Type} {r s : Res β} {f h : β → Res γ} (h1 : Sub r s) (h2 : ∀ x, Sub (f x) (h x)) :
    Sub (r.bind f) (s.bind h) := by
  rcases h1 with e | e
  · rw [e]; exact .inl rfl
  · rw [e]
    cases s with
    | ok x => exact h2 x
    | _ => exact .inr rfl

theorem Sub.check {β : Type} (n u : Nat) {r s : Res β} (h : Sub r s) : Sub ((dcheck n u).bind fun _ => r) s := by
  unfold dcheck
  split
  · exact h
  · exact .inl rfl

theorem evalWith_sub (A : Arith α) (g : Gg) (m : EModel α) (tokens segs : List Nat) (last : Int)
    (poolType : Nat) (buf : List α) (given needed : Nat) :
    Sub (evalWith A g m tokens segs last poolType buf given needed)
      (Eval.evalWith A g m tokens segs last poolType buf given needed) := by
  unfold evalWith Eval.evalWith
  refine Sub.bind (graphProg_ref _ _ _ _ _ _ _ _ 0) fun r => ?_
  cases r.1 with
  | none => exact .inr rfl
  | some x => exact Sub.bind (.inr rfl) fun _ => Sub.check _ _ (.inr rfl)

theorem eval_sub (A : Arith α) (g : Gg) (m : EModel α) (tokens segs : List Nat) (outputLayer : Int)
    (poolType : Nat) (out : Option (List α)) (outCount : Nat) :
    Sub (eval A g m tokens segs outputLayer poolType out outCount)
      (Eval.eval A g m tokens segs outputLayer poolType out outCount) := by
  unfold eval Eval.eval
  split
  · exact .inr rfl
  split
  · exact .inr rfl
  split
  · exact .inr rfl
  cases neededCount m.hp poolType tokens.length with
  | none => exact .inr rfl
  | some k =>
    cases out with
    | none => exact .inr rfl
    | some buf =>
      simp only
      unfold evalRun Eval.evalRun
      refine Sub.bind (.inr rfl) fun l => ?_
      cases l with
      | none => exact .inr rfl
      | some last => exact evalWith_sub A g m tokens segs last poolType buf outCount k

theorem lmRun_sub (A : Arith α) (g : Gg) (m : EModel α) (hidden : List α) (dflt : α) (topK : Int)
    (ids : List Nat) (probs : List α) (given needed : Nat) :
    Sub (lmRun A g m hidden dflt topK ids probs given needed)
      (Eval.lmRun A g m hidden dflt topK ids probs given needed) := by
  unfold lmRun Eval.lmRun
  simp only
  cases hs : lmBufferSize g m.isBert m.hp m.vocabCount (hidden.length / m.hp.hidden) with
  | ok size =>
    rw [res_ok, res_ok]
    have h : Sub (lmProg ⟨A, g, size.calc 0⟩ m hidden dflt 0) (Eval.lmProg ⟨A, g, size.calc 0⟩ m hidden dflt 0) :=
      lmProg_ref ⟨A, g, size.calc 0⟩ m hidden dflt hs 0
    refine h.bind fun r => ?_
    cases r.1 with
    | none => exact .inr rfl
    | some px => exact Sub.check _ _ (.inr rfl)
  | ub => exact (.inr rfl : Sub Res.ub Res.ub)
  | abort => exact (.inr rfl : Sub Res.abort Res.abort)
  | hang => exact (.inr rfl : Sub Res.hang Res.hang)

theorem evalLm_sub (A : Arith α) (g : Gg) (m : EModel α) (hidden : List α) (dflt : α) (topK : Int)
    (ids : Option (List Nat)) (probs : Option (List α)) (outCount : Nat) :
    Sub (evalLm A g m hidden dflt topK ids probs outCount)
      (Eval.evalLm A g m hidden dflt topK ids probs outCount) := by
  unfold evalLm Eval.evalLm
  split
  · exact .inr rfl
  split
  · exact .inr rfl
  cases ids with
  | none => cases probs <;> exact .inr rfl
  | some i =>
    cases probs with
    | none => exact .inr rfl
    | some p => exact lmRun_sub A g m hidden dflt topK i p outCount _

/-! ## The checks succeed -/

theorem bind_at {β γ : Type} {p : M β} {f : β → M γ} {u v : Nat} {r : β} (h : p u = .ok (r, v)) :
    (p >>= f) u = f r v := by
  show (p u).bind _ = _
  rw [h]
  rfl

theorem dcheck_at {γ : Type} (n : Nat) (p : M γ) : (dcheck n >>= fun _ => p) n = p n := by
  apply bind_at
  unfold dcheck
  rw [if_pos rfl]

theorem size_layer (g : Gg) (hp : HParams) (poolType n L : Nat) (hL : L ≤ hp.nLayers) :
    (bufferSize g hp poolType n).layer * L = layerSize g hp.hidden hp.heads hp.interm n * L := by
  unfold bufferSize
  simp only
  split
  · rfl
  · obtain rfl : L = 0 := by omega
    simp

theorem buildGraph_same {e : Env α} {m : EModel α} {V P S : Nat} (hm : ModelOK m V P S)
    (tokens segs : List Nat) (hn : 0 < tokens.length) (L poolType : Nat) (hL : L ≤ m.hp.nLayers)
    (hpt : poolType < 4) (hr : InputOK m V P S tokens segs)
    (hmem : (bufferSize e.g m.hp poolType tokens.length).calc L ≤ e.mem) :
    buildGraph e m.hp m.w L poolType tokens segs (positionsOf m tokens) 0 =
      Graph.buildGraph e m.hp m.w L poolType tokens segs (positionsOf m tokens) 0 := by
  rw [calc_eq _ _ _ _ _ hL] at hmem
  obtain ⟨hw, hh, ⟨d, hd⟩, hi, hact⟩ := hm
  have hheads : 0 < m.hp.heads := by
    rcases Nat.eq_zero_or_pos m.hp.heads with h | h
    · rw [h, Nat.zero_mul] at hd; omega
    · exact h
  have hd0 : 0 < d := by
    rcases Nat.eq_zero_or_pos d with h | h
    · rw [h, Nat.mul_zero] at hd; omega
    · exact h
  obtain ⟨x, h1, hx⟩ := (embeddings_mat (e := e) hw hh tokens segs _ hn hr).1 0 (by omega)
  rw [Nat.zero_add] at h1
  obtain ⟨o, h2, r, rfl, hr'⟩ := (layerLoop_mat (e := e) hd0 hheads hi hn hd hact L m.w.layers hw.layers 0 x _ hx
    (by rw [hw.count]; simp; exact hL)).1 (embSize e.g m.hp.hidden tokens.length) (by simp; omega)
  have e1 : ((L : Int) - (0 : Nat)).toNat = L := by simp
  rw [e1] at h2
  obtain ⟨o, h3, y, rfl, _⟩ := (pooler_mat (e := e) hw hh hn hpt hr').1
    (embSize e.g m.hp.hidden tokens.length + layerSize e.g m.hp.hidden m.hp.heads m.hp.interm tokens.length * L)
    (by omega)
  unfold buildGraph Graph.buildGraph
  have hsz : (bufferSize e.g m.hp poolType tokens.length).emb = embSize e.g m.hp.hidden tokens.length := rfl
  rw [bind_at h1, bind_at h1, hsz, dcheck_at, if_neg (by omega), if_neg (by omega), bind_at h2, bind_at h2]
  simp only [Int.toNat_natCast]
  rw [size_layer _ _ _ _ _ hL, dcheck_at, bind_at h3]
  simp only
  rw [h3]
  exact dcheck_at _ _

theorem graphProg_same {e : Env α} {m : EModel α} {V P S : Nat} (hm : ModelOK m V P S)
    (tokens segs : List Nat) (hn : 0 < tokens.length) (L poolType : Nat) (hL : L ≤ m.hp.nLayers)
    (hpt : poolType < 4) (hr : InputOK m V P S tokens segs)
    (hmem : (bufferSize e.g m.hp poolType tokens.length).calc L ≤ e.mem) :
    graphProg e m.hp m.w L poolType tokens segs (positionsOf m tokens) 0 =
      Eval.graphProg e m.hp m.w L poolType tokens segs (positionsOf m tokens) 0 := by
  unfold graphProg Eval.graphProg
  show (buildGraph _ _ _ _ _ _ _ _ 0).bind _ = (Graph.buildGraph _ _ _ _ _ _ _ _ 0).bind _
  rw [buildGraph_same hm tokens segs hn L poolType hL hpt hr hmem]
  rfl

theorem evalWith_same {A : Arith α} {g : Gg} {m : EModel α} {V P S : Nat} (hm : ModelOK m V P S)
    (tokens segs : List Nat) (L poolType : Nat) (hL : L ≤ m.hp.nLayers) (hpt : poolType < 4)
    (buf : List α) (given needed : Nat) :
    evalWith A g m tokens segs L poolType buf given needed = Eval.evalWith A g m tokens segs L poolType buf given needed := by
  unfold evalWith Eval.evalWith
  rw [Int.toNat_natCast]
  have hemb : 0 + embSize g m.hp.hidden tokens.length ≤ (bufferSize g m.hp poolType tokens.length).calc L := by
    rw [calc_eq _ _ _ _ _ hL]
    omega
  rcases Nat.eq_zero_or_pos tokens.length with hz | hn
  · obtain rfl : tokens = [] := List.length_eq_zero_iff.mp hz
    have h1 : Stuck ⟨A, g, (bufferSize g m.hp poolType 0).calc L⟩
        (graphProg ⟨A, g, (bufferSize g m.hp poolType 0).calc L⟩ m.hp m.w L poolType [] segs (positionsOf m []))
        (embSize g m.hp.hidden 0) := by
      unfold graphProg buildGraph
      exact (embeddings_empty (e := ⟨A, g, (bufferSize g m.hp poolType 0).calc L⟩) hm.weights segs _).bind.bind
    have h2 : Stuck ⟨A, g, (bufferSize g m.hp poolType 0).calc L⟩
        (Eval.graphProg ⟨A, g, (bufferSize g m.hp poolType 0).calc L⟩ m.hp m.w L poolType [] segs (positionsOf m []))
        (embSize g m.hp.hidden 0) := by
      unfold Eval.graphProg Graph.buildGraph
      exact (embeddings_empty (e := ⟨A, g, (bufferSize g m.hp poolType 0).calc L⟩) hm.weights segs _).bind.bind
    rw [List.length_nil] at hemb ⊢
    rw [h1 0 hemb, h2 0 hemb]
    rfl
  · by_cases hr : InputOK m V P S tokens segs
    · rw [graphProg_same (e := ⟨A, g, (bufferSize g m.hp poolType tokens.length).calc L⟩) hm tokens segs hn L poolType hL hpt
        hr (Nat.le_refl _)]
      obtain ⟨o, h1, x, rfl, _⟩ := (graphProg_yields ⟨A, g, (bufferSize g m.hp poolType tokens.length).calc L⟩ hm tokens segs hn
        L poolType hL hpt hr).1 0 (by simp)
      rw [h1, res_ok, res_ok]
      simp only [Nat.zero_add]
      congr 1
      funext _
      unfold dcheck
      rw [if_pos rfl, res_ok]
    · have h1 : Stuck ⟨A, g, (bufferSize g m.hp poolType tokens.length).calc L⟩
          (graphProg ⟨A, g, (bufferSize g m.hp poolType tokens.length).calc L⟩ m.hp m.w L poolType tokens segs
            (positionsOf m tokens)) (embSize g m.hp.hidden tokens.length) := by
        unfold graphProg buildGraph
        exact (embeddings_stuck (e := ⟨A, g, (bufferSize g m.hp poolType tokens.length).calc L⟩) hm.weights hm.hidden
          tokens segs _ hn hr).bind.bind
      have h2 := graphProg_stuck ⟨A, g, (bufferSize g m.hp poolType tokens.length).calc L⟩ hm tokens segs hn L poolType hr
      rw [h1 0 hemb, h2 0 hemb]
      rfl

theorem eval_same {A : Arith α} {g : Gg} {m : EModel α} {V P S : Nat} (hm : ModelOK m V P S)
    (tokens segs : List Nat) (L : Int) (poolType : Nat) (out : Option (List α)) (given : Nat) :
    eval A g m tokens segs L poolType out given = Eval.eval A g m tokens segs L poolType out given := by
  unfold eval Eval.eval
  split
  · rfl
  split
  · rfl
  split
  · rfl
  cases hk : neededCount m.hp poolType tokens.length with
  | none => rfl
  | some k =>
    have hpt : poolType < 4 := by
      unfold neededCount at hk
      split at hk <;> first | omega | cases hk
    cases out with
    | none => rfl
    | some buf =>
      simp only
      unfold evalRun Eval.evalRun
      cases hl : lastLayer m.hp.nLayers L with
      | ok l =>
        rw [res_ok, res_ok]
        cases l with
        | none => rfl
        | some last =>
          simp only
          obtain ⟨h1, h2⟩ : 0 ≤ last ∧ last ≤ m.hp.nLayers := by
            unfold lastLayer at hl
            split at hl
            · split at hl
              · cases hl
              · split at hl
                · cases hl
                · cases hl; omega
            · split at hl
              · cases hl
              · cases hl; omega
          obtain ⟨n, rfl⟩ := Int.eq_ofNat_of_zero_le h1
          exact evalWith_same hm tokens segs n poolType (by omega) hpt buf given k
      | _ => rfl

/-! ## Language model head -/

theorem lmProg_same {e : Env α} {m : EModel α} {lm : LmWeights α} (hm : HeadOK m lm) (hidden : List α) (dflt : α) (n : Nat)
    (hn : 0 < n) (hlen : hidden.length = m.hp.hidden * n) {size : SizeInfo}
    (hs : lmBufferSize e.g m.isBert m.hp m.vocabCount (hidden.length / m.hp.hidden) = .ok size)
    (hmem : size.calc 0 ≤ e.mem) :
    lmProg e m hidden dflt 0 = Eval.lmProg e m hidden dflt 0 := by
  have hdiv : hidden.length / m.hp.hidden = n := by rw [hlen]; exact Nat.mul_div_cancel_left n hm.hidden
  obtain ⟨s, hs', hc⟩ := lm_calc e.g m.isBert m.hp m.vocabCount n hm.act
  have hs2 := hs
  rw [hdiv, hs'] at hs2
  cases hs2
  have hemb : size.calc 0 = size.emb + e.g.graph := by
    unfold lmBufferSize at hs'
    split at hs'
    · cases hs'
    · cases hs'
      simp [SizeInfo.calc]
  obtain ⟨o, h1, p, x, rfl, _⟩ := (buildLm_yields (e := e) m.isBert hm.head hm.shapes hm.hidden hm.vocab (headAct e.A m)
    (headAct_eq e.A hm.act) hidden dflt n hn hlen).1 0 (by omega)
  have h2 : buildLm e m.isBert m.hp m.w m.vocabCount hidden dflt 0 = .ok (some (p, x), 0 +
      (tensorSize e.g (n * m.hp.hidden) + tensorSize e.g 0 + tensorSize e.g m.hp.hidden n * 9 +
        tensorSize e.g m.vocabCount n * 5)) := by
    unfold buildLm
    rw [hm.head]
    simp only
    rw [hs, res_ok, bind_at h1]
    have : 0 + (tensorSize e.g (n * m.hp.hidden) + tensorSize e.g 0 + tensorSize e.g m.hp.hidden n * 9 +
        tensorSize e.g m.vocabCount n * 5) = size.emb := by omega
    rw [this]
    exact dcheck_at _ _
  unfold lmProg Eval.lmProg
  rw [bind_at h1, bind_at h2]

theorem lmRun_same {A : Arith α} {g : Gg} {m : EModel α} (hm : m.w.lm = none ∨ ∃ lm, HeadOK m lm) (hidden : List α)
    (dflt : α) (hd : hidden.length % m.hp.hidden = 0) (topK : Int) (ids : List Nat) (probs : List α) (given needed : Nat) :
    lmRun A g m hidden dflt topK ids probs given needed = Eval.lmRun A g m hidden dflt topK ids probs given needed := by
  unfold lmRun Eval.lmRun
  simp only
  cases hs : lmBufferSize g m.isBert m.hp m.vocabCount (hidden.length / m.hp.hidden) with
  | ub => exact (rfl : (Res.ub : Res (LmOut α)) = Res.ub)
  | abort => exact (rfl : (Res.abort : Res (LmOut α)) = Res.abort)
  | hang => exact (rfl : (Res.hang : Res (LmOut α)) = Res.hang)
  | ok size =>
    rw [res_ok, res_ok]
    rcases hm with h0 | ⟨lm, hm⟩
    · have h1 : lmProg ⟨A, g, size.calc 0⟩ m hidden dflt 0 = .ok (none, 0) := by
        unfold lmProg buildLm
        rw [h0]
        rfl
      have h2 : Eval.lmProg ⟨A, g, size.calc 0⟩ m hidden dflt 0 = .ok (none, 0) := by
        unfold Eval.lmProg Graph.buildLm
        rw [h0]
        rfl
      rw [h1, h2]
      rfl
    · cases hidden with
      | nil =>
        have hz : ([] : List α).length / m.hp.hidden = 0 := by simp
        have hc := lm_calc g m.isBert m.hp m.vocabCount 0 hm.act
        obtain ⟨s, hs', hc⟩ := hc
        have hs2 := hs
        rw [hz, hs'] at hs2
        cases hs2
        have h2 := buildLm_empty (e := ⟨A, g, size.calc 0⟩) m.isBert hm.head hm.shapes hm.hidden dflt 0
          (by simp only [hc, Nat.zero_mul]; omega)
        have h1 : lmProg ⟨A, g, size.calc 0⟩ m [] dflt 0 = .ub := by
          unfold lmProg buildLm
          rw [hm.head]
          show ((lmBufferSize g m.isBert m.hp m.vocabCount (([] : List α).length / m.hp.hidden)).bind fun _ => _).bind _ = _
          rw [hs, res_ok]
          show ((Graph.buildLm _ _ _ _ _ _ _ 0).bind _).bind _ = _
          rw [h2]
          rfl
        have h3 : Eval.lmProg ⟨A, g, size.calc 0⟩ m [] dflt 0 = .ub := by
          unfold Eval.lmProg
          show (Graph.buildLm _ _ _ _ _ _ _ 0).bind _ = _
          rw [h2]
          rfl
        rw [h1, h3]
        exact (rfl : (Res.ub : Res (LmOut α)) = Res.ub)
      | cons a l =>
        have hlen : (a :: l).length = m.hp.hidden * ((a :: l).length / m.hp.hidden) :=
          (Nat.mul_div_cancel' (Nat.dvd_of_mod_eq_zero hd)).symm
        have hn : 0 < (a :: l).length / m.hp.hidden := by
          rcases Nat.eq_zero_or_pos ((a :: l).length / m.hp.hidden) with h | h
          · rw [h] at hlen; simp at hlen
          · exact h
        rw [lmProg_same (e := ⟨A, g, size.calc 0⟩) hm (a :: l) dflt _ hn hlen hs (Nat.le_refl _)]
        obtain ⟨s, hs', hc⟩ := lm_calc g m.isBert m.hp m.vocabCount ((a :: l).length / m.hp.hidden) hm.act
        have hs2 := hs
        rw [hs'] at hs2
        cases hs2
        obtain ⟨o, h1, p, x, rfl, _⟩ := (lmProg_yields ⟨A, g, size.calc 0⟩ hm (a :: l) dflt _ hn hlen).1 0 (by
          rw [hc]; simp)
        rw [h1, res_ok, res_ok]
        simp only [Nat.zero_add]
        unfold dcheck
        rw [if_pos hc.symm, res_ok]

theorem evalLm_same {A : Arith α} {g : Gg} {m : EModel α} (hm : m.w.lm = none ∨ ∃ lm, HeadOK m lm) (hidden : List α)
    (dflt : α) (topK : Int) (ids : Option (List Nat)) (probs : Option (List α)) (c : Nat) :
    evalLm A g m hidden dflt topK ids probs c = Eval.evalLm A g m hidden dflt topK ids probs c := by
  unfold evalLm Eval.evalLm
  split
  · rfl
  split
  · rfl
  · rename_i hd
    cases ids with
    | none => cases probs <;> rfl
    | some i =>
      cases probs with
      | none => rfl
      | some p => exact lmRun_same hm hidden dflt (by omega) topK i p c _

end Berts.Debug
