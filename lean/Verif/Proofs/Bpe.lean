import Verif.Model.Bpe
import Verif.Proofs.Unicode
import Verif.Spec.Bpe

/-! # Lemmas about the BPE main loop -/

namespace Berts.Bpe

open Berts.Unicode Berts.Spec

/-! ## Association lists -/

theorem find_assign {κ ν : Type} [DecidableEq κ] (m : List (κ × ν)) (k : κ) (v : ν) (k' : κ) :
    find (assign m k v) k' = if k' = k then some v else find m k' := by
  induction m with
  | nil => simp only [assign, find]; grind
  | cons p m ih =>
    obtain ⟨a, b⟩ := p
    unfold assign
    by_cases h : a = k <;> simp [h, find, ih] <;> grind

/-! ## Blocks: the abstract view of the symbol array -/

/-- A live symbol: position in the array, id, length. -/
structure Blk where
  ix : Nat
  id : Nat
  len : Nat
deriving DecidableEq, Repr

/-- Position of the first block. -/
def headIx (L : List Blk) (q : Option Nat) : Option Nat :=
  match L with
  | [] => q
  | x :: _ => some x.ix

/-- Position of the last block. -/
def lastIx (p : Option Nat) : List Blk → Option Nat
  | [] => p
  | x :: L => lastIx (some x.ix) L

/-- The blocks `L` are linked in the array, after `p` and before `q`. -/
def Seg (syms : List Sym) : Option Nat → List Blk → Option Nat → Prop
  | _, [], _ => True
  | p, x :: L, q =>
    syms[x.ix]? = some ⟨x.id, p, headIx L q, x.len⟩ ∧ 0 < x.len ∧ Seg syms (some x.ix) L q

theorem headIx_append (A B : List Blk) (q : Option Nat) :
    headIx (A ++ B) q = headIx A (headIx B q) := by
  cases A <;> rfl

theorem lastIx_append (A B : List Blk) (p : Option Nat) :
    lastIx p (A ++ B) = lastIx (lastIx p A) B := by
  induction A generalizing p with
  | nil => rfl
  | cons x A ih => simp [lastIx, ih]

theorem Seg_append (syms : List Sym) (p q : Option Nat) (A B : List Blk) :
    Seg syms p (A ++ B) q ↔ Seg syms p A (headIx B q) ∧ Seg syms (lastIx p A) B q := by
  induction A generalizing p with
  | nil => simp [Seg, lastIx]
  | cons x A ih => simp [Seg, lastIx, ih, headIx_append, and_assoc]

theorem Seg_frame {syms syms' : List Sym} {p q : Option Nat} {A : List Blk}
    (h : ∀ x ∈ A, syms'[x.ix]? = syms[x.ix]?) (hs : Seg syms p A q) : Seg syms' p A q := by
  induction A generalizing p with
  | nil => trivial
  | cons x A ih =>
    obtain ⟨h1, h2, h3⟩ := hs
    exact ⟨by rw [h x (by simp)]; exact h1, h2, ih (fun y hy => h y (by simp [hy])) h3⟩

theorem Seg_mem {syms : List Sym} {p q : Option Nat} {A : List Blk} (hs : Seg syms p A q) :
    ∀ x ∈ A, ∃ s, syms[x.ix]? = some s ∧ s.id = x.id ∧ s.len = x.len ∧ 0 < x.len := by
  induction A generalizing p with
  | nil => simp
  | cons x A ih =>
    obtain ⟨h1, h2, h3⟩ := hs
    intro y hy
    rcases List.mem_cons.mp hy with rfl | hy
    · exact ⟨_, h1, rfl, rfl, h2⟩
    · exact ih h3 y hy

/-- The array represents the blocks. -/
structure Inv (syms : List Sym) (L : List Blk) : Prop where
  seg : Seg syms none L none
  sorted : L.Pairwise (fun x y => x.ix < y.ix)
  dead : ∀ (i : Nat) (s : Sym), syms[i]? = some s → s.len ≠ 0 → ∃ x ∈ L, x.ix = i

/-- The last block of a list, if any, pushes an entry for the pair with the next id. -/
def pushPrev (merge : List ((Nat × Nat) × (Nat × Nat))) (A : List Blk) (id : Nat) : List Entry :=
  match A.getLast? with
  | none => []
  | some p => pushPair merge p.ix p.id id

/-- The first block of a list, if any, makes a new pair with the merged block. -/
def pushNext (merge : List ((Nat × Nat) × (Nat × Nat))) (ix id : Nat) (B : List Blk) : List Entry :=
  match B with
  | [] => []
  | z :: _ => pushPair merge ix id z.id

/-- What a popped entry does to the blocks: nothing, or a merge. -/
inductive Fate (merge : List ((Nat × Nat) × (Nat × Nat))) (L : List Blk) (e : Entry) :
    List Blk → List Entry → Prop
  | stale : (∀ A x y B, L = A ++ x :: y :: B → x.ix = e.index →
      ∀ r, find merge (x.id, y.id) ≠ some (r, e.newId)) → Fate merge L e L []
  | merge (A : List Blk) (x y : Blk) (B : List Blk) (r : Nat) : L = A ++ x :: y :: B →
      x.ix = e.index → find merge (x.id, y.id) = some (r, e.newId) →
      Fate merge L e (A ++ ⟨x.ix, e.newId, x.len + y.len⟩ :: B)
        (pushPrev merge A e.newId ++ pushNext merge x.ix e.newId B)

theorem lastIx_getLast (p : Option Nat) (A : List Blk) :
    lastIx p A = match A.getLast? with
      | none => p
      | some x => some x.ix := by
  induction A generalizing p with
  | nil => rfl
  | cons x A ih =>
    rw [lastIx, ih]
    cases A with
    | nil => rfl
    | cons y A =>
      rw [List.getLast?_cons_cons, List.getLast?_eq_some_getLast (List.cons_ne_nil y A)]

theorem inv_split {L A B A' B' : List Blk} {x x' : Blk}
    (hs : L.Pairwise (fun x y => x.ix < y.ix)) (h : L = A ++ x :: B) (h' : L = A' ++ x' :: B')
    (hx : x.ix = x'.ix) : A = A' ∧ x = x' ∧ B = B' := by
  subst h
  induction A generalizing A' with
  | nil =>
    cases A' with
    | nil => simpa using h'
    | cons a A' =>
      simp only [List.nil_append, List.cons_append, List.cons.injEq] at h'
      obtain ⟨rfl, rfl⟩ := h'
      simp only [List.nil_append, List.pairwise_cons] at hs
      have := hs.1 x' (by simp)
      omega
  | cons a A ih =>
    cases A' with
    | nil =>
      simp only [List.nil_append, List.cons_append, List.cons.injEq] at h'
      obtain ⟨rfl, rfl⟩ := h'
      simp only [List.cons_append, List.pairwise_cons] at hs
      have := hs.1 x (by simp)
      omega
    | cons a' A' =>
      simp only [List.cons_append, List.cons.injEq] at h' hs
      obtain ⟨rfl, h'⟩ := h'
      obtain ⟨h1, h2, h3⟩ := ih (List.pairwise_cons.mp hs).2 h'
      exact ⟨by rw [h1], h2, h3⟩

theorem split_lt {A B : List Blk} {x : Blk}
    (hs : (A ++ x :: B).Pairwise (fun x y => x.ix < y.ix)) :
    (∀ a ∈ A, a.ix < x.ix) ∧ (∀ b ∈ B, x.ix < b.ix) := by
  rw [List.pairwise_append] at hs
  exact ⟨fun a ha => hs.2.2 a ha x (by simp), fun b hb => (List.pairwise_cons.mp hs.2.1).1 b hb⟩

theorem mem_split_at {syms : List Sym} {L : List Blk} {i : Nat} {s : Sym} (h : Inv syms L)
    (hi : syms[i]? = some s) (hl : s.len ≠ 0) :
    ∃ A x B, L = A ++ x :: B ∧ x.ix = i ∧ s = ⟨x.id, lastIx none A, headIx B none, x.len⟩ := by
  obtain ⟨x, hx, rfl⟩ := h.dead i s hi hl
  obtain ⟨A, B, rfl⟩ := List.append_of_mem hx
  refine ⟨A, x, B, rfl, rfl, ?_⟩
  have := (Seg_append _ _ _ _ _).mp h.seg
  obtain ⟨_, h1, _, _⟩ := this
  rw [h1] at hi
  simpa using hi.symm

theorem doMerge_spec (merge : List ((Nat × Nat) × (Nat × Nat))) {syms : List Sym} {A B : List Blk}
    {x y : Blk} (n : Nat) (h : Inv syms (A ++ x :: y :: B)) {sym right : Sym}
    (hsym : syms[x.ix]? = some sym) (hright : syms[y.ix]? = some right) :
    ∃ syms', doMerge merge syms x.ix y.ix n sym right =
        .ok (syms', pushPrev merge A n ++ pushNext merge x.ix n B) ∧
      Inv syms' (A ++ ⟨x.ix, n, x.len + y.len⟩ :: B) ∧ syms'.length = syms.length := by
  have hseg := (Seg_append _ _ _ _ _).mp h.seg
  obtain ⟨hA, hx, hxl, hy, hyl, hB⟩ := hseg
  rw [hx] at hsym; rw [hy] at hright
  simp only [Option.some.injEq] at hsym hright
  have hso := h.sorted
  have hxlt := split_lt hso
  have hso2 : ((A ++ [x]) ++ y :: B).Pairwise (fun x y => x.ix < y.ix) := by simpa using hso
  have hylt := split_lt hso2
  have hxy : x.ix < y.ix := hxlt.2 y (by simp)
  have hxlen : x.ix < syms.length := by
    rcases Nat.lt_or_ge x.ix syms.length with h | h
    · exact h
    · rw [List.getElem?_eq_none h] at hx; cases hx
  have hylen : y.ix < syms.length := by
    rcases Nat.lt_or_ge y.ix syms.length with h | h
    · exact h
    · rw [List.getElem?_eq_none h] at hy; cases hy
  -- the final array
  let s1 := (syms.set x.ix ⟨n, lastIx none A, headIx B none, x.len + y.len⟩).set y.ix
    ⟨y.id, some x.ix, headIx B none, 0⟩
  have hs1len : s1.length = syms.length := by simp [s1]
  let s2 := setPrev s1 (headIx B none) x.ix
  have hs2len : s2.length = syms.length := by
    simp only [s2, setPrev]
    split
    · split <;> simp [hs1len]
    · exact hs1len
  have hBlt : ∀ b ∈ B, b.ix < syms.length := by
    intro b hb
    obtain ⟨s, hs, _⟩ := Seg_mem hB b hb
    rcases Nat.lt_or_ge b.ix syms.length with h | h
    · exact h
    · rw [List.getElem?_eq_none h] at hs; cases hs
  -- reads from the final array
  have rd : ∀ i, i ≠ x.ix → i ≠ y.ix → headIx B none ≠ some i → s2[i]? = syms[i]? := by
    intro i h1 h2 h3
    have e1 : s1[i]? = syms[i]? := by
      simp only [s1]
      rw [List.getElem?_set_ne (by omega), List.getElem?_set_ne (by omega)]
    rw [← e1]
    simp only [s2, setPrev]
    split
    · rename_i nn hn
      split
      · have : nn ≠ i := by rintro rfl; exact h3 hn
        rw [List.getElem?_modify]; simp [this]
      · rfl
    · rfl
  have rdx : s2[x.ix]? = some ⟨n, lastIx none A, headIx B none, x.len + y.len⟩ := by
    have e1 : s1[x.ix]? = some ⟨n, lastIx none A, headIx B none, x.len + y.len⟩ := by
      simp only [s1]
      rw [List.getElem?_set_ne (by omega), List.getElem?_set_self hxlen]
    rw [← e1]
    simp only [s2, setPrev]
    split
    · rename_i nn hn
      have : nn ≠ x.ix := by
        cases B with
        | nil => cases hn
        | cons z B =>
          simp only [headIx, Option.some.injEq] at hn
          have := hxlt.2 z (by simp)
          omega
      split
      · rw [List.getElem?_modify]; simp [this]
      · rfl
    · rfl
  have rdy : s2[y.ix]? = some ⟨y.id, some x.ix, headIx B none, 0⟩ := by
    have e1 : s1[y.ix]? = some ⟨y.id, some x.ix, headIx B none, 0⟩ := by
      simp only [s1]
      rw [List.getElem?_set_self (by simpa using hylen)]
    rw [← e1]
    simp only [s2, setPrev]
    split
    · rename_i nn hn
      have : nn ≠ y.ix := by
        cases B with
        | nil => cases hn
        | cons z B =>
          simp only [headIx, Option.some.injEq] at hn
          have := hylt.2 z (by simp)
          omega
      split
      · rw [List.getElem?_modify]; simp [this]
      · rfl
    · rfl
  have hA2 : Seg s2 none A (some x.ix) := by
    refine Seg_frame (fun a ha => ?_) hA
    have := hxlt.1 a ha
    refine rd _ (by omega) (by omega) ?_
    intro hh
    cases B with
    | nil => cases hh
    | cons z B =>
      simp only [headIx, Option.some.injEq] at hh
      have := hxlt.2 z (by simp)
      omega
  have hB2 : Seg s2 (some x.ix) B none := by
    cases B with
    | nil => trivial
    | cons z B =>
      obtain ⟨hz, hzl, hB⟩ := hB
      have hzlt := hylt.2 z (by simp)
      have hso3 : ((A ++ [x, y]) ++ z :: B).Pairwise (fun x y => x.ix < y.ix) := by simpa using hso
      have hzB := (split_lt hso3).2
      refine ⟨?_, hzl, Seg_frame (fun b hb => ?_) hB⟩
      · simp only [s2, setPrev, headIx]
        rw [if_pos (by rw [hs1len]; exact hBlt z (by simp)), List.getElem?_modify]
        have : s1[z.ix]? = syms[z.ix]? := by
          simp only [s1]
          rw [List.getElem?_set_ne (by omega), List.getElem?_set_ne (by omega)]
        rw [this, hz]; simp [headIx]
      · have := hzB b hb
        refine rd _ (by omega) (by omega) ?_
        simp only [headIx, ne_eq, Option.some.injEq]
        omega
  refine ⟨s2, ?_, ⟨?_, ?_, ?_⟩, hs2len⟩
  · have key : mergeArr syms x.ix y.ix n sym right = s2 := by
      rw [← hsym, ← hright]; rfl
    have p1 : entryPrev merge s2 ⟨n, lastIx none A, headIx B none, x.len + y.len⟩ =
        Res.ok (pushPrev merge A n) := by
      unfold entryPrev pushPrev
      rw [lastIx_getLast]
      cases hl : A.getLast? with
      | none => rfl
      | some a =>
        obtain ⟨s, hs, hid, _⟩ := Seg_mem hA2 a (List.mem_of_getLast? hl)
        simp only [hs, hid]
    have p2 : entryNext merge s2 x.ix ⟨n, lastIx none A, headIx B none, x.len + y.len⟩ =
        Res.ok (pushNext merge x.ix n B) := by
      unfold entryNext
      cases B with
      | nil => rfl
      | cons z B =>
        simp only [headIx, pushNext]
        rw [if_pos (by rw [hs2len]; exact hBlt z (by simp)), hB2.1]
    unfold doMerge
    simp only [key, rdx, p1, p2, Res.bind]
  · rw [Seg_append]
    exact ⟨hA2, rdx, Nat.add_pos_left hxl _, hB2⟩
  · have hp := List.pairwise_append.mp hso
    rw [List.pairwise_append]
    refine ⟨hp.1, ?_, fun a ha b hb => ?_⟩
    · rw [List.pairwise_cons]
      refine ⟨fun b hb => hxlt.2 b (by simp [hb]), ?_⟩
      exact (List.pairwise_cons.mp (List.pairwise_cons.mp hp.2.1).2).2
    · rcases List.mem_cons.mp hb with rfl | hb
      · exact hxlt.1 a ha
      · exact hp.2.2 a ha b (by simp [hb])
  · intro i s hi hl
    by_cases h1 : i = x.ix
    · exact ⟨⟨x.ix, n, x.len + y.len⟩, by simp, h1.symm⟩
    by_cases h2 : i = y.ix
    · subst h2
      rw [rdy] at hi
      simp only [Option.some.injEq] at hi
      subst hi
      exact absurd rfl hl
    by_cases h3 : headIx B none = some i
    · cases B with
      | nil => cases h3
      | cons z B =>
        simp only [headIx, Option.some.injEq] at h3
        exact ⟨z, by simp, h3⟩
    rw [rd i h1 h2 h3] at hi
    obtain ⟨w, hw, rfl⟩ := h.dead i s hi hl
    simp only [List.mem_append, List.mem_cons] at hw ⊢
    rcases hw with hw | rfl | rfl | hw
    · exact ⟨w, Or.inl hw, rfl⟩
    · exact absurd rfl h1
    · exact absurd rfl h2
    · exact ⟨w, Or.inr (Or.inr hw), rfl⟩

/-- One iteration of the main loop that is not skipped by dropout. -/
theorem iteration_spec (c : Cfg) (s : St) (e : Entry) (q : List Entry) (L : List Blk)
    (h : Inv s.syms L) (he : e.index < s.syms.length)
    (hd : ¬ (0 < c.dropout ∧ c.draw s.pops < c.dropout)) :
    ∃ syms' L' new, iteration c s e q = .ok ⟨syms', q ++ s.skip ++ new, [], s.pops + 1⟩ ∧
      Fate c.merge L e L' new ∧ Inv syms' L' ∧ syms'.length = s.syms.length := by
  unfold iteration
  rw [if_neg hd]
  have he' : s.syms[e.index]? = some s.syms[e.index] := List.getElem?_eq_getElem he
  rw [he']
  simp only
  generalize hsym : s.syms[e.index] = sym at he' ⊢
  by_cases hl : sym.len = 0
  · rw [if_pos hl]
    refine ⟨s.syms, L, [], by simp, Fate.stale ?_, h, rfl⟩
    intro A x y B hL hx r
    subst hL
    have := (Seg_append _ _ _ _ _).mp h.seg
    have h1 := this.2.1
    rw [hx, he'] at h1
    simp only [Option.some.injEq] at h1
    have := this.2.2.1
    rw [h1] at hl
    simp only at hl
    omega
  rw [if_neg hl]
  obtain ⟨A, x, B, hL, hx, hs⟩ := mem_split_at h he' hl
  cases B with
  | nil =>
    rw [hs]
    simp only [headIx]
    refine ⟨s.syms, L, [], by simp, Fate.stale ?_, h, rfl⟩
    intro A' x' y' B' hL' hx' r
    have := (inv_split h.sorted hL hL' (by omega)).2.2
    cases this
  | cons y B =>
    subst hL
    have hseg := (Seg_append _ _ _ _ _).mp h.seg
    have hy := hseg.2.2.2.1
    have hxx := hseg.2.1
    have hn : sym.next = some y.ix := by rw [hs]; rfl
    have hid : sym.id = x.id := by rw [hs]
    rw [hn]
    simp only [hy, hid]
    cases hf : find c.merge (x.id, y.id) with
    | none =>
      simp only
      refine ⟨s.syms, _, [], by simp, Fate.stale ?_, h, rfl⟩
      intro A' x' y' B' hL' hx' r
      obtain ⟨_, h2, h3⟩ := inv_split h.sorted rfl hL' (by omega)
      simp only [List.cons.injEq] at h3
      rw [← h2, ← h3.1, hf]
      simp
    | some p =>
      obtain ⟨r, m⟩ := p
      simp only
      by_cases hm : m ≠ e.newId
      · rw [if_pos hm]
        refine ⟨s.syms, _, [], by simp, Fate.stale ?_, h, rfl⟩
        intro A' x' y' B' hL' hx' r'
        obtain ⟨_, h2, h3⟩ := inv_split h.sorted rfl hL' (by omega)
        simp only [List.cons.injEq] at h3
        rw [← h2, ← h3.1, hf]
        simp [hm]
      · rw [if_neg hm]
        have hm : m = e.newId := by simpa using hm
        subst hm
        obtain ⟨syms', h1, h2, h3⟩ := doMerge_spec c.merge (A := A) (B := B) (x := x) (y := y)
          e.newId h (sym := sym) (by rw [hx]; exact he') hy
        refine ⟨syms', _, _, ?_, Fate.merge A x y B r rfl hx hf, h2, h3⟩
        rw [← hx, h1]
        simp [Res.bind]

/-! ## The abstract loop -/

/-- State of the abstract loop. -/
structure Abs where
  L : List Blk
  q : List Entry
  skip : List Entry
  pops : Nat

/-- The dropout test of an iteration. -/
def Cfg.drops (c : Cfg) (t : Nat) : Prop := 0 < c.dropout ∧ c.draw t < c.dropout

/-- One iteration, on blocks. -/
inductive AStep (c : Cfg) (a : Abs) : Abs → Prop
  | skip (e : Entry) : a.q[c.pick a.pops a.q]? = some e → c.drops a.pops →
      AStep c a ⟨a.L, a.q.eraseIdx (c.pick a.pops a.q), a.skip ++ [e], a.pops + 1⟩
  | act (e : Entry) (L' : List Blk) (new : List Entry) :
      a.q[c.pick a.pops a.q]? = some e → ¬ c.drops a.pops → Fate c.merge a.L e L' new →
      AStep c a ⟨L', a.q.eraseIdx (c.pick a.pops a.q) ++ a.skip ++ new, [], a.pops + 1⟩

/-- `n` iterations. -/
inductive StepsN (c : Cfg) : Nat → Abs → Abs → Prop
  | refl (a : Abs) : StepsN c 0 a a
  | step {n : Nat} {a b d : Abs} : AStep c a b → StepsN c n b d → StepsN c (n + 1) a d

/-- The concrete state represents the abstract one. -/
structure Rel (s : St) (a : Abs) : Prop where
  inv : Inv s.syms a.L
  q : s.q = a.q
  skip : s.skip = a.skip
  pops : s.pops = a.pops
  bound : ∀ e ∈ s.q ++ s.skip, e.index < s.syms.length

theorem pushPair_index {merge : List ((Nat × Nat) × (Nat × Nat))} {i a b : Nat} :
    ∀ e ∈ pushPair merge i a b, e.index = i := by
  unfold pushPair
  intro e he
  split at he
  · simp at he; rw [he]
  · cases he

theorem Inv.lt {syms : List Sym} {L : List Blk} (h : Inv syms L) : ∀ x ∈ L, x.ix < syms.length := by
  intro x hx
  obtain ⟨s, hs, _⟩ := Seg_mem h.seg x hx
  rcases Nat.lt_or_ge x.ix syms.length with h | h
  · exact h
  · rw [List.getElem?_eq_none h] at hs; cases hs

theorem Fate.new_index {merge : List ((Nat × Nat) × (Nat × Nat))} {L L' : List Blk} {e : Entry}
    {new : List Entry} (h : Fate merge L e L' new) : ∀ f ∈ new, ∃ x ∈ L', x.ix = f.index := by
  cases h with
  | stale => simp
  | merge A x y B r hL hx hf =>
    intro f hf
    rw [List.mem_append] at hf
    rcases hf with hf | hf
    · unfold pushPrev at hf
      split at hf
      · cases hf
      · rename_i p hp
        have := pushPair_index f hf
        exact ⟨p, by simp [List.mem_of_getLast? hp], this.symm⟩
    · unfold pushNext at hf
      split at hf
      · cases hf
      · have := pushPair_index f hf
        exact ⟨_, List.mem_append_right _ List.mem_cons_self, this.symm⟩

/-- The contract on the position of the top, as far as memory safety is concerned. -/
def Cfg.InRange (c : Cfg) : Prop := ∀ t q, q ≠ [] → c.pick t q < q.length

theorem mainLoop_spec (c : Cfg) (hp : c.InRange) (fuel : Nat) (s : St) (a : Abs) (h : Rel s a) :
    (mainLoop c fuel s = .hang ∧ ∃ a', StepsN c fuel a a' ∧ a'.q ≠ []) ∨
    (∃ n s' a', n ≤ fuel ∧ mainLoop c fuel s = .ok s' ∧ StepsN c n a a' ∧ Rel s' a' ∧ a'.q = []) := by
  induction fuel generalizing s a with
  | zero =>
    unfold mainLoop
    by_cases hq : s.q = []
    · right
      rw [if_pos hq]
      exact ⟨0, s, a, Nat.le_refl _, rfl, StepsN.refl a, h, by rw [← h.q]; exact hq⟩
    · left
      rw [if_neg hq]
      exact ⟨rfl, a, StepsN.refl a, by rw [← h.q]; exact hq⟩
  | succ fuel ih =>
    unfold mainLoop
    by_cases hq : s.q = []
    · right
      rw [if_pos hq]
      exact ⟨0, s, a, Nat.zero_le _, rfl, StepsN.refl a, h, by rw [← h.q]; exact hq⟩
    rw [if_neg hq]
    have hlt := hp s.pops s.q hq
    have hget : s.q[c.pick s.pops s.q]? = some s.q[c.pick s.pops s.q] := List.getElem?_eq_getElem hlt
    simp only [hget]
    generalize he : s.q[c.pick s.pops s.q] = e at hget
    have hmem : e ∈ s.q := List.mem_of_getElem? hget
    have key : ∃ s1 a1, iteration c s e (s.q.eraseIdx (c.pick s.pops s.q)) = .ok s1 ∧
        AStep c a a1 ∧ Rel s1 a1 := by
      by_cases hd : 0 < c.dropout ∧ c.draw s.pops < c.dropout
      · refine ⟨_, ⟨a.L, a.q.eraseIdx (c.pick a.pops a.q), a.skip ++ [e], a.pops + 1⟩,
          by unfold iteration; rw [if_pos hd], AStep.skip e ?_ ?_, ?_⟩
        · rw [← h.q, ← h.pops]; exact hget
        · rw [← h.pops]; exact hd
        · refine ⟨h.inv, by simp [h.q, h.pops], by simp [h.skip], by simp [h.pops], ?_⟩
          intro f hf
          apply h.bound
          simp only [List.mem_append, List.mem_singleton] at hf ⊢
          rcases hf with hf | hf | hf
          · exact Or.inl (List.mem_of_mem_eraseIdx hf)
          · exact Or.inr hf
          · subst hf; exact Or.inl hmem
      · obtain ⟨syms', L', new, h1, h2, h3, h4⟩ := iteration_spec c s e
          (s.q.eraseIdx (c.pick s.pops s.q)) a.L h.inv (h.bound e (by simp [hmem])) hd
        refine ⟨_, ⟨L', a.q.eraseIdx (c.pick a.pops a.q) ++ a.skip ++ new, [], a.pops + 1⟩, h1,
          AStep.act e L' new ?_ ?_ h2, ?_⟩
        · rw [← h.q, ← h.pops]; exact hget
        · rw [← h.pops]; exact hd
        · refine ⟨h3, by simp [h.q, h.pops, h.skip], rfl, by simp [h.pops], ?_⟩
          intro f hf
          simp only [List.append_nil, List.mem_append] at hf
          simp only
          rw [h4]
          rcases hf with (hf | hf) | hf
          · exact h.bound f (by simp [List.mem_of_mem_eraseIdx hf])
          · exact h.bound f (by simp [hf])
          · obtain ⟨x, hx, hxf⟩ := h2.new_index f hf
            rw [← hxf, ← h4]; exact h3.lt x hx
    obtain ⟨s1, a1, h1, h2, h3⟩ := key
    rw [h1]
    simp only [Res.bind]
    rcases ih s1 a1 h3 with ⟨h4, a', h5, h6⟩ | ⟨n, s', a', hn, h4, h5, h6, h7⟩
    · exact Or.inl ⟨h4, a', StepsN.step h2 h5, h6⟩
    · exact Or.inr ⟨n + 1, s', a', by omega, h4, StepsN.step h2 h5, h6, h7⟩

/-! ## Termination -/

/-- Potential: entries plus twice the number of blocks. -/
def Abs.phi (a : Abs) : Nat := a.q.length + a.skip.length + 2 * a.L.length

theorem pushPair_len {merge : List ((Nat × Nat) × (Nat × Nat))} {i a b : Nat} :
    (pushPair merge i a b).length ≤ 1 := by
  unfold pushPair; split <;> simp

theorem Fate.new_len {merge : List ((Nat × Nat) × (Nat × Nat))} {L L' : List Blk} {e : Entry}
    {new : List Entry} (h : Fate merge L e L' new) :
    new.length + 2 * L'.length ≤ 2 * L.length := by
  cases h with
  | stale => simp
  | merge A x y B r hL hx hf =>
    subst hL
    have h1 : (pushPrev merge A e.newId).length ≤ 1 := by
      unfold pushPrev; split
      · simp
      · exact pushPair_len
    have h2 : (pushNext merge x.ix e.newId B).length ≤ 1 := by
      unfold pushNext; split
      · simp
      · exact pushPair_len
    simp only [List.length_append, List.length_cons]
    omega

theorem Fate.nonempty {merge : List ((Nat × Nat) × (Nat × Nat))} {L L' : List Blk} {e : Entry}
    {new : List Entry} (h : Fate merge L e L' new) (hL : L ≠ []) : L' ≠ [] := by
  cases h with
  | stale => exact hL
  | merge A x y B r hL hx hf => simp

theorem getElem?_lt {α : Type} {l : List α} {i : Nat} {x : α} (h : l[i]? = some x) : i < l.length := by
  rcases Nat.lt_or_ge i l.length with h' | h'
  · exact h'
  · rw [List.getElem?_eq_none h'] at h; cases h

theorem AStep.phi {c : Cfg} {a b : Abs} (h : AStep c a b) :
    (c.drops a.pops → b.phi = a.phi ∧ b.q.length + 1 = a.q.length) ∧
    (¬ c.drops a.pops → b.phi + 1 ≤ a.phi) ∧ (a.L ≠ [] → b.L ≠ []) ∧ b.pops = a.pops + 1 := by
  cases h with
  | skip e he hd =>
    have := getElem?_lt he
    refine ⟨fun _ => ?_, fun h => absurd hd h, fun h => h, rfl⟩
    simp only [Abs.phi, List.length_append, List.length_singleton]
    rw [List.length_eraseIdx_of_lt this]
    omega
  | act e L' new he hd hf =>
    have := getElem?_lt he
    refine ⟨fun h => absurd h hd, fun _ => ?_, hf.nonempty, rfl⟩
    have := hf.new_len
    simp only [Abs.phi, List.length_append, List.length_nil]
    rw [List.length_eraseIdx_of_lt ‹_›]
    omega

theorem StepsN.pops {c : Cfg} {n : Nat} {a b : Abs} (h : StepsN c n a b) : b.pops = a.pops + n := by
  induction h with
  | refl => rfl
  | step h1 h2 ih => rw [ih, h1.phi.2.2.2]; omega

theorem StepsN.nonempty {c : Cfg} {n : Nat} {a b : Abs} (h : StepsN c n a b) (hL : a.L ≠ []) :
    b.L ≠ [] := by
  induction h with
  | refl => exact hL
  | step h1 h2 ih => exact ih (h1.phi.2.2.1 hL)

/-- Without dropout every iteration uses up potential. -/
theorem StepsN.linear {c : Cfg} {n : Nat} {a b : Abs} (h : StepsN c n a b) (hd : c.dropout ≤ 0) :
    n + b.phi ≤ a.phi := by
  induction h with
  | refl => omega
  | step h1 h2 ih =>
    have := h1.phi.2.1 (fun hh => by have := hh.1; exact absurd hd (Rat.not_le.mpr this))
    omega

theorem StepsN.quadratic {c : Cfg} {n : Nat} {a b : Abs} (h : StepsN c n a b) (K : Nat)
    (hK : a.phi < K) : n + (b.phi * K + b.q.length) ≤ a.phi * K + a.q.length := by
  induction h with
  | refl => omega
  | @step n a b d h1 h2 ih =>
    by_cases hd : c.drops a.pops
    · obtain ⟨e1, e2⟩ := h1.phi.1 hd
      have := ih (by omega)
      rw [e1] at this
      omega
    · have h3 := h1.phi.2.1 hd
      have := ih (by omega)
      have hb : b.q.length ≤ b.phi := by unfold Abs.phi; omega
      have : b.phi * K + K ≤ a.phi * K := by
        rw [← Nat.succ_mul]; exact Nat.mul_le_mul_right K h3
      omega

/-! ## The initial state -/

/-- Blocks of a list of (id, length) pairs, starting at position `k`. -/
def blks (k : Nat) : List (Nat × Nat) → List Blk
  | [] => []
  | p :: l => ⟨k, p.1, p.2⟩ :: blks (k + 1) l

/-- The array built by `word_t::add`. -/
def linked (l : List (Nat × Nat)) : List Sym :=
  l.mapIdx fun i p => ⟨p.1, if i = 0 then none else some (i - 1),
    if i + 1 < l.length then some (i + 1) else none, p.2⟩

theorem linked_length (l : List (Nat × Nat)) : (linked l).length = l.length := by simp [linked]

theorem addSym_linked (l : List (Nat × Nat)) (id len : Nat) :
    addSym (linked l) id len = linked (l ++ [(id, len)]) := by
  unfold addSym
  cases l with
  | nil => rfl
  | cons p l =>
    rw [if_neg (by simp [linked])]
    apply List.ext_getElem?
    intro i
    simp only [linked_length]
    rw [List.getElem?_append]
    simp only [List.length_modify, linked_length, List.getElem?_modify]
    simp only [linked, List.getElem?_mapIdx, List.length_append, List.length_singleton,
      List.length_cons]
    by_cases h1 : i < l.length + 1
    · rw [if_pos h1, List.getElem?_append_left (by simpa using h1)]
      cases hi : (p :: l)[i]? with
      | none => rfl
      | some v =>
        simp only [Option.map_some, Option.map_eq_map, Option.some.injEq, Nat.add_sub_cancel]
        by_cases h2 : l.length = i
        · simp [h2]
        · have h4 : i < l.length := by omega
          simp [h2, h4, h1]
    · rw [if_neg h1, List.getElem?_append_right (by simp; omega)]
      simp only [List.length_cons]
      by_cases h3 : i = l.length + 1
      · subst h3; simp
      · have : 1 ≤ i - (l.length + 1) := by omega
        rw [List.getElem?_eq_none (by simpa using this), List.getElem?_eq_none (by simpa using this)]
        rfl

theorem blks_append (k : Nat) (l m : List (Nat × Nat)) :
    blks k (l ++ m) = blks k l ++ blks (k + l.length) m := by
  induction l generalizing k with
  | nil => rfl
  | cons p l ih => simp [blks, ih]; congr 1; omega

theorem blks_ix {k : Nat} {l : List (Nat × Nat)} : ∀ x ∈ blks k l, k ≤ x.ix ∧ x.ix < k + l.length := by
  induction l generalizing k with
  | nil => simp [blks]
  | cons p l ih =>
    intro x hx
    simp only [blks, List.mem_cons] at hx
    rcases hx with rfl | hx
    · simp
    · have := ih x hx; simp; omega

theorem blks_sorted (k : Nat) (l : List (Nat × Nat)) :
    (blks k l).Pairwise (fun x y => x.ix < y.ix) := by
  induction l generalizing k with
  | nil => simp [blks]
  | cons p l ih =>
    simp only [blks, List.pairwise_cons]
    refine ⟨fun x hx => ?_, ih (k + 1)⟩
    have := blks_ix x hx; omega

theorem blks_ids (k : Nat) (l : List (Nat × Nat)) : (blks k l).map (·.id) = l.map (·.1) := by
  induction l generalizing k with
  | nil => rfl
  | cons p l ih => simp [blks, ih]

theorem blks_length (k : Nat) (l : List (Nat × Nat)) : (blks k l).length = l.length := by
  induction l generalizing k with
  | nil => rfl
  | cons p l ih => simp [blks, ih]

theorem blks_at {k i : Nat} {l : List (Nat × Nat)} {p : Nat × Nat} (h : l[i]? = some p) :
    ⟨k + i, p.1, p.2⟩ ∈ blks k l := by
  induction l generalizing k i with
  | nil => simp at h
  | cons a l ih =>
    cases i with
    | zero => simp at h; subst h; simp [blks]
    | succ i =>
      simp only [List.getElem?_cons_succ] at h
      have := ih (k := k + 1) h
      rw [blks, List.mem_cons]
      right
      have e : k + (i + 1) = k + 1 + i := by omega
      rw [e]; exact this

theorem seg_linked (pre l : List (Nat × Nat)) (hl : ∀ p ∈ l, 0 < p.2) :
    Seg (linked (pre ++ l)) (if pre.length = 0 then none else some (pre.length - 1))
      (blks pre.length l) none := by
  induction l generalizing pre with
  | nil => trivial
  | cons p l ih =>
    refine ⟨?_, hl p (by simp), ?_⟩
    · simp only [linked, List.getElem?_mapIdx]
      rw [List.getElem?_append_right (Nat.le_refl _)]
      simp only [Nat.sub_self, List.getElem?_cons_zero, Option.map_some, List.length_append,
        List.length_cons, Option.some.injEq, Sym.mk.injEq, true_and, and_true]
      cases l with
      | nil => simp [blks, headIx]
      | cons q l => simp [blks, headIx]
    · have := ih (pre ++ [p]) (fun q hq => hl q (by simp [hq]))
      simpa using this

theorem inv_linked (l : List (Nat × Nat)) (hl : ∀ p ∈ l, 0 < p.2) : Inv (linked l) (blks 0 l) := by
  refine ⟨?_, blks_sorted 0 l, ?_⟩
  · have := seg_linked [] l hl
    simpa using this
  · intro i s hs _
    simp only [linked, List.getElem?_mapIdx, Option.map_eq_some_iff] at hs
    obtain ⟨p, hp, _⟩ := hs
    exact ⟨_, blks_at hp, by simp⟩

/-- The initial queue in terms of blocks. -/
def absQueue (merge : List ((Nat × Nat) × (Nat × Nat))) : List Blk → List Entry
  | [] => []
  | [_] => []
  | x :: y :: B => pushPair merge x.ix x.id y.id ++ absQueue merge (y :: B)

theorem initQueue_eq (merge : List ((Nat × Nat) × (Nat × Nat))) (k : Nat) (syms : List Sym)
    (l : List (Nat × Nat)) (h : syms.map (·.id) = l.map (·.1)) :
    initQueue merge k syms = absQueue merge (blks k l) := by
  induction syms generalizing k l with
  | nil =>
    cases l with
    | nil => rfl
    | cons p l => simp at h
  | cons s syms ih =>
    cases l with
    | nil => simp at h
    | cons p l =>
      simp only [List.map_cons, List.cons.injEq] at h
      cases syms with
      | nil =>
        cases l with
        | nil => rfl
        | cons q l => simp at h
      | cons s2 syms =>
        cases l with
        | nil => simp at h
        | cons q l =>
          have := ih (k + 1) (q :: l) h.2
          simp only [List.map_cons, List.cons.injEq] at h
          rw [initQueue, this, h.1, h.2.1]
          rfl

theorem absQueue_mem (merge : List ((Nat × Nat) × (Nat × Nat))) (L : List Blk) :
    ∀ e ∈ absQueue merge L, ∃ A x y B, L = A ++ x :: y :: B ∧ e.index = x.ix ∧
      find merge (x.id, y.id) = some (e.rank, e.newId) := by
  fun_induction absQueue merge L with
  | case1 => simp
  | case2 => simp
  | case3 x y B ih =>
    intro e he
    rw [List.mem_append] at he
    rcases he with he | he
    · refine ⟨[], x, y, B, rfl, pushPair_index e he, ?_⟩
      unfold pushPair at he
      split at he
      · rename_i r n hf
        simp only [List.mem_singleton] at he
        rw [hf, he]
      · cases he
    · obtain ⟨A, x', y', B', h1, h2, h3⟩ := ih e he
      exact ⟨x :: A, x', y', B', by rw [h1]; rfl, h2, h3⟩

theorem absQueue_complete (merge : List ((Nat × Nat) × (Nat × Nat))) (L : List Blk) :
    ∀ A x y B r n, L = A ++ x :: y :: B → find merge (x.id, y.id) = some (r, n) →
      ⟨x.ix, r, n⟩ ∈ absQueue merge L := by
  fun_induction absQueue merge L with
  | case1 => intro A x y B r n h; simp at h
  | case2 z =>
    intro A x y B r n h
    have := congrArg List.length h
    simp only [List.length_append, List.length_cons, List.length_nil] at this
    omega
  | case3 u v W ih =>
    intro A x y B r n h hf
    rw [List.mem_append]
    cases A with
    | nil =>
      simp only [List.nil_append, List.cons.injEq] at h
      obtain ⟨rfl, rfl, rfl⟩ := h
      left
      unfold pushPair
      rw [hf]; simp
    | cons a A =>
      simp only [List.cons_append, List.cons.injEq] at h
      right
      exact ih A x y B r n h.2 hf

theorem absQueue_len (merge : List ((Nat × Nat) × (Nat × Nat))) (L : List Blk) :
    (absQueue merge L).length ≤ L.length - 1 := by
  fun_induction absQueue merge L with
  | case1 => simp
  | case2 => simp
  | case3 x y B ih =>
    have := @pushPair_len merge x.ix x.id y.id
    simp only [List.length_append, List.length_cons] at *
    omega

/-- The abstract initial state of a word. -/
def absInit (merge : List ((Nat × Nat) × (Nat × Nat))) (l : List (Nat × Nat)) : Abs :=
  ⟨blks 0 l, absQueue merge (blks 0 l), [], 0⟩

theorem linked_ids (l : List (Nat × Nat)) : (linked l).map (·.id) = l.map (·.1) := by
  apply List.ext_getElem?
  intro i
  simp only [linked, List.getElem?_map, List.getElem?_mapIdx, Option.map_map]
  rfl

theorem rel_init (merge : List ((Nat × Nat) × (Nat × Nat))) (l : List (Nat × Nat))
    (hl : ∀ p ∈ l, 0 < p.2) :
    Rel ⟨linked l, initQueue merge 0 (linked l), [], 0⟩ (absInit merge l) := by
  have hi := inv_linked l hl
  have hq := initQueue_eq merge 0 (linked l) l (linked_ids l)
  refine ⟨hi, hq, rfl, rfl, ?_⟩
  intro e he
  simp only [List.append_nil] at he
  rw [hq] at he
  obtain ⟨A, x, y, B, h1, h2, _⟩ := absQueue_mem merge _ e he
  rw [h2]
  exact hi.lt x (by rw [h1]; simp)

/-! ## The final filter -/

theorem filter_live (off : Nat) (S : List Sym) (L : List Blk)
    (hs : L.Pairwise (fun x y => x.ix < y.ix)) (hoff : ∀ x ∈ L, off ≤ x.ix)
    (hm : ∀ x ∈ L, ∃ s, S[x.ix - off]? = some s ∧ s.id = x.id ∧ s.len = x.len ∧ 0 < x.len)
    (hd : ∀ (i : Nat) (s : Sym), S[i]? = some s → s.len ≠ 0 → ∃ x ∈ L, x.ix = off + i) :
    (S.filter (fun s => s.len ≠ 0)).map (·.id) = L.map (·.id) := by
  induction S generalizing off L with
  | nil =>
    cases L with
    | nil => rfl
    | cons x L =>
      obtain ⟨s, hs, _⟩ := hm x (by simp)
      simp at hs
  | cons s S ih =>
    by_cases h0 : s.len = 0
    · rw [List.filter_cons_of_neg (by simp [h0])]
      have hoff' : ∀ x ∈ L, off + 1 ≤ x.ix := by
        intro x hx
        obtain ⟨t, ht, _, h2, h3⟩ := hm x hx
        have := hoff x hx
        rcases Nat.lt_or_ge off x.ix with h | h
        · exact h
        · have e : x.ix - off = 0 := by omega
          rw [e] at ht
          simp only [List.getElem?_cons_zero, Option.some.injEq] at ht
          subst ht; omega
      refine ih (off + 1) L hs hoff' (fun x hx => ?_) (fun i t hi hl => ?_)
      · obtain ⟨t, ht, h2⟩ := hm x hx
        have := hoff' x hx
        have e : x.ix - off = (x.ix - (off + 1)) + 1 := by omega
        rw [e, List.getElem?_cons_succ] at ht
        exact ⟨t, ht, h2⟩
      · obtain ⟨x, hx, hxi⟩ := hd (i + 1) t (by simpa using hi) hl
        exact ⟨x, hx, by omega⟩
    · rw [List.filter_cons_of_pos (by simpa using h0)]
      obtain ⟨x, hx, hxo⟩ := hd 0 s (by simp) h0
      cases L with
      | nil => cases hx
      | cons y L =>
        rw [List.pairwise_cons] at hs
        have hxy : y = x := by
          rcases List.mem_cons.mp hx with h | h
          · exact h.symm
          · have := hs.1 x h
            have := hoff y (by simp)
            omega
        subst hxy
        obtain ⟨t, ht, h2, _⟩ := hm y (by simp)
        have e : y.ix - off = 0 := by omega
        rw [e] at ht
        simp only [List.getElem?_cons_zero, Option.some.injEq] at ht
        subst ht
        rw [List.map_cons, List.map_cons, h2]
        congr 1
        refine ih (off + 1) L hs.2 (fun z hz => ?_) (fun z hz => ?_) (fun i t hi hl => ?_)
        · have := hs.1 z hz; omega
        · obtain ⟨t, ht, h2⟩ := hm z (by simp [hz])
          have := hs.1 z hz
          have e : z.ix - off = (z.ix - (off + 1)) + 1 := by omega
          rw [e, List.getElem?_cons_succ] at ht
          exact ⟨t, ht, h2⟩
        · obtain ⟨z, hz, hzi⟩ := hd (i + 1) t (by simpa using hi) hl
          rcases List.mem_cons.mp hz with h | h
          · subst h; omega
          · exact ⟨z, h, by omega⟩

theorem Inv.filter {syms : List Sym} {L : List Blk} (h : Inv syms L) :
    (syms.filter (fun s => s.len ≠ 0)).map (·.id) = L.map (·.id) := by
  refine filter_live 0 syms L h.sorted (by simp) (fun x hx => ?_) (fun i s hi hl => ?_)
  · simpa using Seg_mem h.seg x hx
  · simpa using h.dead i s hi hl

/-! ## What the loop does to the ids -/

/-- The merge table as a function. -/
def tableOf (merge : List ((Nat × Nat) × (Nat × Nat))) : MergeTable Nat := fun a b => find merge (a, b)

theorem Star.trans {α : Type} {R : α → α → Prop} {a b c : α} (h : Star R a b) (h' : Star R b c) :
    Star R a c := by
  induction h with
  | refl => exact h'
  | head h1 _ ih => exact Star.head h1 (ih h')

theorem AStep.merges {c : Cfg} {a b : Abs} (h : AStep c a b) :
    Star (MergeStep (tableOf c.merge)) (a.L.map (·.id)) (b.L.map (·.id)) := by
  cases h with
  | skip e he hd => exact Star.refl _
  | act e L' new he hd hf =>
    cases hf with
    | stale => exact Star.refl _
    | merge A x y B r hL hx hf =>
      refine Star.head ⟨A.map (·.id), x.id, y.id, B.map (·.id), r, e.newId, by simp [hL], hf, rfl⟩ ?_
      simpa using Star.refl _

theorem StepsN.merges {c : Cfg} {n : Nat} {a b : Abs} (h : StepsN c n a b) :
    Star (MergeStep (tableOf c.merge)) (a.L.map (·.id)) (b.L.map (·.id)) := by
  induction h with
  | refl => exact Star.refl _
  | step h1 _ ih => exact Star.trans h1.merges ih

/-! ## The queue covers every mergeable pair -/

theorem mem_eraseIdx_of_ne {α : Type} {l : List α} {i : Nat} {e f : α} (hi : l[i]? = some e)
    (hf : f ∈ l) (hne : f ≠ e) : f ∈ l.eraseIdx i := by
  induction l generalizing i with
  | nil => cases hf
  | cons a l ih =>
    cases i with
    | zero =>
      simp at hi
      rcases List.mem_cons.mp hf with h | h
      · rw [hi] at h; exact absurd h hne
      · simpa using h
    | succ i =>
      simp only [List.getElem?_cons_succ] at hi
      rw [List.eraseIdx_cons_succ, List.mem_cons]
      rcases List.mem_cons.mp hf with h | h
      · exact Or.inl h
      · exact Or.inr (ih hi h)

/-- Every adjacent pair of blocks that is in the table has an entry. -/
def Covered (merge : List ((Nat × Nat) × (Nat × Nat))) (a : Abs) : Prop :=
  ∀ A x y B r n, a.L = A ++ x :: y :: B → find merge (x.id, y.id) = some (r, n) →
    ⟨x.ix, r, n⟩ ∈ a.q ++ a.skip

theorem split_pair {A B A' B' : List Blk} {z x y : Blk}
    (h : A ++ z :: B = A' ++ x :: y :: B') :
    (∃ A2, A = A' ++ x :: y :: A2) ∨ (A = A' ++ [x] ∧ z = y ∧ B = B') ∨
    (A = A' ∧ z = x ∧ B = y :: B') ∨ (∃ B2, A' = A ++ z :: B2 ∧ B = B2 ++ x :: y :: B') := by
  induction A generalizing A' with
  | nil =>
    cases A' with
    | nil =>
      simp only [List.nil_append, List.cons.injEq] at h
      exact Or.inr (Or.inr (Or.inl ⟨rfl, h.1, h.2⟩))
    | cons a A' =>
      simp only [List.nil_append, List.cons_append, List.cons.injEq] at h
      exact Or.inr (Or.inr (Or.inr ⟨A', by rw [h.1]; rfl, h.2⟩))
  | cons a A ih =>
    cases A' with
    | nil =>
      simp only [List.nil_append, List.cons_append, List.cons.injEq] at h
      obtain ⟨rfl, h⟩ := h
      cases A with
      | nil =>
        simp only [List.nil_append, List.cons.injEq] at h
        exact Or.inr (Or.inl ⟨rfl, h.1, h.2⟩)
      | cons b A =>
        simp only [List.cons_append, List.cons.injEq] at h
        obtain ⟨rfl, h⟩ := h
        exact Or.inl ⟨A, rfl⟩
    | cons a' A' =>
      simp only [List.cons_append, List.cons.injEq] at h
      obtain ⟨rfl, h⟩ := h
      rcases ih h with ⟨A2, h1⟩ | ⟨h1, h2⟩ | ⟨h1, h2⟩ | ⟨B2, h1, h2⟩
      · exact Or.inl ⟨A2, by rw [h1]; rfl⟩
      · exact Or.inr (Or.inl ⟨by rw [h1]; rfl, h2⟩)
      · exact Or.inr (Or.inr (Or.inl ⟨by rw [h1], h2⟩))
      · exact Or.inr (Or.inr (Or.inr ⟨B2, by rw [h1]; rfl, h2⟩))

theorem Fate.sorted {merge : List ((Nat × Nat) × (Nat × Nat))} {L L' : List Blk} {e : Entry}
    {new : List Entry} (h : Fate merge L e L' new)
    (hs : L.Pairwise (fun x y => x.ix < y.ix)) : L'.Pairwise (fun x y => x.ix < y.ix) := by
  cases h with
  | stale => exact hs
  | merge A x y B r hL hx hf =>
    subst hL
    have hp := List.pairwise_append.mp hs
    have hxlt := split_lt hs
    rw [List.pairwise_append]
    refine ⟨hp.1, ?_, fun a ha b hb => ?_⟩
    · rw [List.pairwise_cons]
      refine ⟨fun b hb => hxlt.2 b (by simp [hb]), ?_⟩
      exact (List.pairwise_cons.mp (List.pairwise_cons.mp hp.2.1).2).2
    · rcases List.mem_cons.mp hb with rfl | hb
      · exact hxlt.1 a ha
      · exact hp.2.2 a ha b (by simp [hb])

theorem AStep.sorted {c : Cfg} {a b : Abs} (h : AStep c a b)
    (hs : a.L.Pairwise (fun x y => x.ix < y.ix)) : b.L.Pairwise (fun x y => x.ix < y.ix) := by
  cases h with
  | skip e he hd => exact hs
  | act e L' new he hd hf => exact hf.sorted hs

theorem AStep.covered {c : Cfg} {a b : Abs} (h : AStep c a b)
    (hs : a.L.Pairwise (fun x y => x.ix < y.ix)) (hc : Covered c.merge a) :
    Covered c.merge b := by
  cases h with
  | skip e he hd =>
    intro A x y B r n hL hf
    have := hc A x y B r n hL hf
    simp only [List.mem_append, List.mem_singleton] at this ⊢
    rcases this with h | h
    · by_cases heq : (⟨x.ix, r, n⟩ : Entry) = e
      · exact Or.inr (Or.inr heq)
      · exact Or.inl (mem_eraseIdx_of_ne he h heq)
    · exact Or.inr (Or.inl h)
  | act e L' new he hd hf =>
    have old : ∀ A x y B r n, a.L = A ++ x :: y :: B → find c.merge (x.id, y.id) = some (r, n) →
        (⟨x.ix, r, n⟩ : Entry) ≠ e →
        ⟨x.ix, r, n⟩ ∈ a.q.eraseIdx (c.pick a.pops a.q) ++ a.skip ++ new ++ [] := by
      intro A x y B r n hL hf hne
      have := hc A x y B r n hL hf
      simp only [List.mem_append] at this ⊢
      rcases this with h | h
      · exact Or.inl (Or.inl (Or.inl (mem_eraseIdx_of_ne he h hne)))
      · exact Or.inl (Or.inl (Or.inr h))
    intro A' x' y' B' r' n' hL' hf'
    simp only at hL' ⊢
    cases hf with
    | stale hst =>
      refine old A' x' y' B' r' n' hL' hf' ?_
      intro heq
      have h1 : x'.ix = e.index := by rw [← heq]
      have h2 : n' = e.newId := by rw [← heq]
      subst h2
      exact hst A' x' y' B' hL' h1 r' hf'
    | merge A x y B r hL hx hf =>
      have hlt := hs
      rw [hL] at hlt
      have hx1 := split_lt hlt
      rcases split_pair hL' with ⟨A2, h1⟩ | ⟨h1, h2, h3⟩ | ⟨h1, h2, h3⟩ | ⟨B2, h1, h2⟩
      · refine old A' x' y' (A2 ++ x :: y :: B) r' n' (by rw [hL, h1]; simp) hf' ?_
        intro heq
        have h3 : x'.ix = e.index := by rw [← heq]
        have := hx1.1 x' (by rw [h1]; simp)
        omega
      · simp only [List.mem_append]
        refine Or.inl (Or.inr (Or.inl ?_))
        unfold pushPrev
        rw [h1, List.getLast?_concat]
        simp only
        unfold pushPair
        rw [← h2] at hf'
        simp only at hf'
        rw [hf']; simp
      · simp only [List.mem_append]
        refine Or.inl (Or.inr (Or.inr ?_))
        unfold pushNext pushPair
        rw [h3]
        simp only
        rw [← h2] at hf'
        simp only at hf'
        rw [hf', ← h2]; simp
      · refine old (A ++ x :: y :: B2) x' y' B' r' n' (by rw [hL, h2]; simp) hf' ?_
        intro heq
        have h3 : x'.ix = e.index := by rw [← heq]
        have := hx1.2 x' (by rw [h2]; simp)
        omega

theorem StepsN.covered {c : Cfg} {n : Nat} {a b : Abs} (h : StepsN c n a b)
    (hs : a.L.Pairwise (fun x y => x.ix < y.ix)) (hc : Covered c.merge a) :
    Covered c.merge b ∧ b.L.Pairwise (fun x y => x.ix < y.ix) := by
  induction h with
  | refl => exact ⟨hc, hs⟩
  | step h1 _ ih => exact ih (h1.sorted hs) (h1.covered hs hc)

theorem StepsN.no_skip {c : Cfg} {n : Nat} {a b : Abs} (h : StepsN c n a b) (hd : c.dropout ≤ 0)
    (hs : a.skip = []) : b.skip = [] := by
  induction h with
  | refl => exact hs
  | step h1 _ ih =>
    refine ih ?_
    cases h1 with
    | skip e he hd' => exact absurd hd (Rat.not_le.mpr hd'.1)
    | act => rfl

theorem covered_init (merge : List ((Nat × Nat) × (Nat × Nat))) (l : List (Nat × Nat)) :
    Covered merge (absInit merge l) := by
  intro A x y B r n hL hf
  simp only [absInit, List.append_nil]
  exact absQueue_complete merge _ A x y B r n hL hf

theorem map_split_pair {L : List Blk} {pre post : List Nat} {a b : Nat}
    (h : L.map (·.id) = pre ++ a :: b :: post) :
    ∃ A x y B, L = A ++ x :: y :: B ∧ A.map (·.id) = pre ∧ x.id = a ∧ y.id = b ∧
      B.map (·.id) = post := by
  obtain ⟨A, L2, rfl, h1, h2⟩ := List.map_eq_append_iff.mp h
  obtain ⟨x, L3, rfl, h3, h4⟩ := List.map_eq_cons_iff.mp h2
  obtain ⟨y, B, rfl, h5, h6⟩ := List.map_eq_cons_iff.mp h4
  exact ⟨A, x, y, B, rfl, h1, h3, h5, h6⟩

/-- With an empty queue and nothing skipped, no pair of the table is left. -/
theorem Covered.normal {merge : List ((Nat × Nat) × (Nat × Nat))} {a : Abs} (h : Covered merge a)
    (hq : a.q = []) (hs : a.skip = []) : Normal (tableOf merge) (a.L.map (·.id)) := by
  intro pre u v post he
  obtain ⟨A, x, y, B, hL, _, rfl, rfl, _⟩ := map_split_pair he
  cases hf : tableOf merge x.id y.id with
  | none => rfl
  | some p =>
    have := h A x y B p.1 p.2 hL hf
    rw [hq, hs] at this
    cases this

/-! ## Spans: why expired entries cannot be mistaken for current ones -/

/-- Position after a block that is followed by `B`. -/
def endIx (N : Nat) : List Blk → Nat
  | [] => N
  | z :: _ => z.ix

/-- `J i e` is the id of the initial symbols `i .. e-1` merged into one. -/
structure SpanTable (merge : List ((Nat × Nat) × (Nat × Nat))) (N : Nat)
    (J : Nat → Nat → Option Nat) : Prop where
  inj : ∀ i e e' a, i < e → i < e' → e ≤ N → e' ≤ N → J i e = some a → J i e' = some a → e = e'
  closed : ∀ i m e a b r n, i < m → m < e → e ≤ N → J i m = some a → J m e = some b →
    find merge (a, b) = some (r, n) → J i e = some n

/-- The blocks are spans and the entries were valid pairs of spans when pushed. -/
structure Spans (merge : List ((Nat × Nat) × (Nat × Nat))) (N : Nat)
    (J : Nat → Nat → Option Nat) (a : Abs) : Prop where
  blk : ∀ A x B, a.L = A ++ x :: B → x.ix < endIx N B ∧ endIx N B ≤ N ∧
    J x.ix (endIx N B) = some x.id
  entry : ∀ e ∈ a.q ++ a.skip, ∃ m t u v, e.index < m ∧ m < t ∧ t ≤ N ∧ J e.index m = some u ∧
    J m t = some v ∧ find merge (u, v) = some (e.rank, e.newId) ∧
    ∀ x ∈ a.L, e.index < x.ix → x.ix < t → x.ix = m

theorem split_single {A B A' B' : List Blk} {z x : Blk} (h : A ++ z :: B = A' ++ x :: B') :
    (∃ A2, A = A' ++ x :: A2 ∧ B' = A2 ++ z :: B) ∨ (A = A' ∧ z = x ∧ B = B') ∨
    (∃ B2, A' = A ++ z :: B2 ∧ B = B2 ++ x :: B') := by
  induction A generalizing A' with
  | nil =>
    cases A' with
    | nil =>
      simp only [List.nil_append, List.cons.injEq] at h
      exact Or.inr (Or.inl ⟨rfl, h.1, h.2⟩)
    | cons a A' =>
      simp only [List.nil_append, List.cons_append, List.cons.injEq] at h
      exact Or.inr (Or.inr ⟨A', by rw [h.1]; rfl, h.2⟩)
  | cons a A ih =>
    cases A' with
    | nil =>
      simp only [List.nil_append, List.cons_append, List.cons.injEq] at h
      obtain ⟨rfl, h⟩ := h
      exact Or.inl ⟨A, rfl, h.symm⟩
    | cons a' A' =>
      simp only [List.cons_append, List.cons.injEq] at h
      obtain ⟨rfl, h⟩ := h
      rcases ih h with ⟨A2, h1, h2⟩ | ⟨h1, h2⟩ | ⟨B2, h1, h2⟩
      · exact Or.inl ⟨A2, by rw [h1]; rfl, h2⟩
      · exact Or.inr (Or.inl ⟨by rw [h1], h2⟩)
      · exact Or.inr (Or.inr ⟨B2, by rw [h1]; rfl, h2⟩)

theorem endIx_append (N : Nat) (A B : List Blk) (z : Blk) :
    endIx N (A ++ z :: B) = endIx N (A ++ [z]) := by
  cases A <;> rfl

/-- The rank stored in an entry that leads to a merge is the current rank of the pair. -/
theorem Spans.rank {merge : List ((Nat × Nat) × (Nat × Nat))} {N : Nat}
    {J : Nat → Nat → Option Nat} (hJ : SpanTable merge N J) {a : Abs} (h : Spans merge N J a)
    {e : Entry} (he : e ∈ a.q) {A B : List Blk} {x y : Blk} {r : Nat}
    (hL : a.L = A ++ x :: y :: B) (hx : x.ix = e.index)
    (hf : find merge (x.id, y.id) = some (r, e.newId)) : e.rank = r := by
  obtain ⟨m, t, u, v, h1, h2, h3, h4, h5, h6, h7⟩ := h.entry e (by simp [he])
  obtain ⟨b1, b2, b3⟩ := h.blk A x (y :: B) hL
  obtain ⟨c1, c2, c3⟩ := h.blk (A ++ [x]) y B (by rw [hL]; simp)
  simp only [endIx] at b1 b3
  have j1 := hJ.closed _ _ _ _ _ _ _ h1 h2 h3 h4 h5 h6
  have j2 := hJ.closed _ _ _ _ _ _ _ b1 c1 c2 b3 c3 hf
  rw [hx] at j2
  have ht : t = endIx N B := hJ.inj _ _ _ _ (by omega) (by omega) h3 c2 j1 j2
  have hm : y.ix = m := h7 y (by rw [hL]; simp) (by omega) (by omega)
  subst hm
  rw [← hx] at h4
  rw [h4] at b3
  rw [ht, c3] at h5
  simp only [Option.some.injEq] at b3 h5
  rw [b3, ← h5, hf] at h6
  simpa using h6.symm

theorem AStep.spans {c : Cfg} {N : Nat} {J : Nat → Nat → Option Nat} (hJ : SpanTable c.merge N J)
    {a b : Abs} (hs : a.L.Pairwise (fun x y => x.ix < y.ix)) (h : Spans c.merge N J a)
    (st : AStep c a b) : Spans c.merge N J b := by
  cases st with
  | skip e he hd =>
    refine ⟨h.blk, fun f hf => h.entry f ?_⟩
    simp only [List.mem_append, List.mem_singleton] at hf ⊢
    rcases hf with hf | hf | hf
    · exact Or.inl (List.mem_of_mem_eraseIdx hf)
    · exact Or.inr hf
    · subst hf; exact Or.inl (List.mem_of_getElem? he)
  | act e L' new he hd hf =>
    cases hf with
    | stale hst =>
      refine ⟨h.blk, fun f hf => h.entry f ?_⟩
      simp only [List.mem_append, List.append_nil] at hf ⊢
      rcases hf with hf | hf
      · exact Or.inl (List.mem_of_mem_eraseIdx hf)
      · exact Or.inr hf
    | merge A x y B r hL hx hf =>
      have hs2 := hs
      rw [hL] at hs2
      have hxlt := split_lt hs2
      have hs3 : ((A ++ [x]) ++ y :: B).Pairwise (fun x y => x.ix < y.ix) := by simpa using hs2
      have hylt := split_lt hs3
      obtain ⟨b1, b2, b3⟩ := h.blk A x (y :: B) hL
      obtain ⟨c1, c2, c3⟩ := h.blk (A ++ [x]) y B (by rw [hL]; simp)
      simp only [endIx] at b1 b3
      have j2 := hJ.closed _ _ _ _ _ _ _ b1 c1 c2 b3 c3 hf
      have blk' : ∀ A' z B', A ++ (⟨x.ix, e.newId, x.len + y.len⟩ : Blk) :: B = A' ++ z :: B' →
          z.ix < endIx N B' ∧ endIx N B' ≤ N ∧ J z.ix (endIx N B') = some z.id := by
        intro A' z B' hsp
        rcases split_single hsp with ⟨A2, h1, h2⟩ | ⟨h1, h2, h3⟩ | ⟨B2, h1, h2⟩
        · have := h.blk A' z (A2 ++ x :: y :: B) (by rw [hL, h1]; simp)
          have e1 : endIx N (A2 ++ x :: y :: B) = endIx N B' := by
            rw [h2]; cases A2 <;> rfl
          rw [e1] at this
          exact this
        · subst h3
          rw [← h2]
          exact ⟨by simp only; omega, c2, j2⟩
        · exact h.blk (A ++ x :: y :: B2) z B' (by rw [hL, h2]; simp)
      refine ⟨blk', ?_⟩
      intro f hff
      have keep : ∀ w ∈ A ++ (⟨x.ix, e.newId, x.len + y.len⟩ : Blk) :: B,
          ∃ w' ∈ a.L, w'.ix = w.ix := by
        intro w hw
        simp only [List.mem_append, List.mem_cons] at hw
        rcases hw with hw | hw | hw
        · exact ⟨w, by rw [hL]; simp [hw], rfl⟩
        · exact ⟨x, by rw [hL]; simp, by rw [hw]⟩
        · exact ⟨w, by rw [hL]; simp [hw], rfl⟩
      -- a pair of neighbouring blocks of the new list is a valid entry
      have fresh : ∀ A' z z' B' (f : Entry),
          A ++ (⟨x.ix, e.newId, x.len + y.len⟩ : Blk) :: B = A' ++ z :: z' :: B' →
          f.index = z.ix → find c.merge (z.id, z'.id) = some (f.rank, f.newId) →
          ∃ m t u v, f.index < m ∧ m < t ∧ t ≤ N ∧ J f.index m = some u ∧
            J m t = some v ∧ find c.merge (u, v) = some (f.rank, f.newId) ∧
            ∀ w ∈ A ++ (⟨x.ix, e.newId, x.len + y.len⟩ : Blk) :: B,
              f.index < w.ix → w.ix < t → w.ix = m := by
        intro A' z z' B' f hsp hfi hff
        obtain ⟨p1, p2, p3⟩ := blk' A' z (z' :: B') hsp
        obtain ⟨q1, q2, q3⟩ := blk' (A' ++ [z]) z' B' (by rw [hsp]; simp)
        simp only [endIx] at p1 p3
        refine ⟨z'.ix, endIx N B', z.id, z'.id, by omega, q1, q2, by rw [hfi]; exact p3, q3, hff, ?_⟩
        have hsorted : (A ++ (⟨x.ix, e.newId, x.len + y.len⟩ : Blk) :: B).Pairwise
            (fun x y => x.ix < y.ix) := (Fate.merge A x y B r hL hx hf).sorted hs
        rw [hsp] at hsorted ⊢
        have s1 := split_lt hsorted
        have hsorted2 : ((A' ++ [z]) ++ z' :: B').Pairwise (fun x y => x.ix < y.ix) := by
          simpa using hsorted
        have s2 := split_lt hsorted2
        intro w hw hw1 hw2
        simp only [List.mem_append, List.mem_cons] at hw
        rcases hw with hw | hw | hw | hw
        · have := s1.1 w hw; omega
        · subst hw; omega
        · subst hw; rfl
        · have : endIx N B' ≤ w.ix := by
            cases B' with
            | nil => cases hw
            | cons w0 B' =>
              simp only [endIx]
              rcases List.mem_cons.mp hw with hw | hw
              · subst hw; omega
              · have hsorted3 : ((A' ++ [z, z']) ++ w0 :: B').Pairwise (fun x y => x.ix < y.ix) := by
                  simpa using hsorted
                have := (split_lt hsorted3).2 w hw
                omega
          omega
      simp only [List.mem_append, List.append_nil] at hff
      rcases hff with (hff | hff) | hff | hff
      · obtain ⟨m, t, u, v, h1, h2, h3, h4, h5, h6, h7⟩ :=
          h.entry f (by simp [List.mem_of_mem_eraseIdx hff])
        refine ⟨m, t, u, v, h1, h2, h3, h4, h5, h6, fun w hw hw1 hw2 => ?_⟩
        obtain ⟨w', hw', e'⟩ := keep w hw
        rw [← e']; rw [← e'] at hw1 hw2
        exact h7 w' hw' hw1 hw2
      · obtain ⟨m, t, u, v, h1, h2, h3, h4, h5, h6, h7⟩ := h.entry f (by simp [hff])
        refine ⟨m, t, u, v, h1, h2, h3, h4, h5, h6, fun w hw hw1 hw2 => ?_⟩
        obtain ⟨w', hw', e'⟩ := keep w hw
        rw [← e']; rw [← e'] at hw1 hw2
        exact h7 w' hw' hw1 hw2
      · unfold pushPrev at hff
        split at hff
        · cases hff
        · rename_i p hp
          have hA : A = A.dropLast ++ [p] := by
            rw [List.getLast?_eq_some_iff] at hp
            obtain ⟨ys, rfl⟩ := hp
            simp
          refine fresh A.dropLast p ⟨x.ix, e.newId, x.len + y.len⟩ B f ?_
            (pushPair_index f hff) ?_
          · conv => lhs; rw [hA]
            simp
          · unfold pushPair at hff
            split at hff
            · rename_i r' n' hf'
              simp only [List.mem_singleton] at hff
              rw [hff]; exact hf'
            · cases hff
      · unfold pushNext at hff
        split at hff
        · cases hff
        · rename_i z B'
          refine fresh A ⟨x.ix, e.newId, x.len + y.len⟩ z B' f rfl (pushPair_index f hff) ?_
          unfold pushPair at hff
          split at hff
          · rename_i r' n' hf'
            simp only [List.mem_singleton] at hff
            rw [hff]; exact hf'
          · cases hff

theorem StepsN.spans {c : Cfg} {N : Nat} {J : Nat → Nat → Option Nat} (hJ : SpanTable c.merge N J)
    {n : Nat} {a b : Abs} (st : StepsN c n a b) (hs : a.L.Pairwise (fun x y => x.ix < y.ix))
    (h : Spans c.merge N J a) : Spans c.merge N J b := by
  induction st with
  | refl => exact h
  | step h1 _ ih => exact ih (h1.sorted hs) (h1.spans hJ hs h)

/-- The contract of `std::priority_queue`: the top is an element and none is greater. -/
def Cfg.IsTop (c : Cfg) : Prop :=
  ∀ t q, q ≠ [] → ∃ e, q[c.pick t q]? = some e ∧ ∀ f ∈ q, e.less f = false

theorem Cfg.IsTop.inRange {c : Cfg} (h : c.IsTop) : c.InRange := by
  intro t q hq
  obtain ⟨e, he, _⟩ := h t q hq
  exact getElem?_lt he

theorem sorted_length_le {A A' B B' : List Blk} {x x' : Blk}
    (hs : (A ++ x :: B).Pairwise (fun x y => x.ix < y.ix)) (h : A ++ x :: B = A' ++ x' :: B')
    (hle : x.ix ≤ x'.ix) : A.length ≤ A'.length := by
  rcases split_single h with ⟨A2, h1, h2⟩ | ⟨h1, _⟩ | ⟨B2, h1, _⟩
  · have := (split_lt hs).1 x' (by rw [h1]; simp)
    omega
  · rw [h1]; exact Nat.le_refl _
  · rw [h1]; simp

theorem AStep.refStep {c : Cfg} {N : Nat} {J : Nat → Nat → Option Nat} (hJ : SpanTable c.merge N J)
    (ht : c.IsTop) {a b : Abs} (hs : a.L.Pairwise (fun x y => x.ix < y.ix))
    (hc : Covered c.merge a) (hsk : a.skip = []) (h : Spans c.merge N J a) (st : AStep c a b) :
    Star (RefStep (tableOf c.merge)) (a.L.map (·.id)) (b.L.map (·.id)) := by
  cases st with
  | skip e he hd => exact Star.refl _
  | act e L' new he hd hf =>
    cases hf with
    | stale => exact Star.refl _
    | merge A x y B r hL hx hf =>
      have hq : a.q ≠ [] := by rintro hq; rw [hq] at he; simp at he
      obtain ⟨e', he', htop⟩ := ht a.pops a.q hq
      rw [he] at he'
      simp only [Option.some.injEq] at he'
      subst he'
      have hr : e.rank = r := h.rank hJ (List.mem_of_getElem? he) hL hx hf
      refine Star.head ⟨A.map (·.id), x.id, y.id, B.map (·.id), r, e.newId, by simp [hL], hf, rfl, ?_⟩ ?_
      · intro pre' a' b' post' r' n' hsp hf'
        obtain ⟨A', x', y', B', hL', rfl, rfl, rfl, rfl⟩ := map_split_pair hsp
        have hmem := hc A' x' y' B' r' n' hL' hf'
        rw [hsk, List.append_nil] at hmem
        have := htop _ hmem
        unfold Entry.less at this
        simp only [hr] at this
        by_cases hrr : r ≠ r'
        · rw [if_pos hrr] at this
          left
          have := of_decide_eq_false this
          omega
        · rw [if_neg hrr] at this
          have := of_decide_eq_false this
          right
          refine ⟨by omega, ?_⟩
          rw [List.length_map, List.length_map]
          rw [hL] at hL' hs
          exact sorted_length_le hs hL' (by omega)
      · simpa using Star.refl _

theorem StepsN.refSteps {c : Cfg} {N : Nat} {J : Nat → Nat → Option Nat}
    (hJ : SpanTable c.merge N J) (ht : c.IsTop) (hd : c.dropout ≤ 0) {n : Nat} {a b : Abs}
    (st : StepsN c n a b) (hs : a.L.Pairwise (fun x y => x.ix < y.ix))
    (hc : Covered c.merge a) (hsk : a.skip = []) (h : Spans c.merge N J a) :
    Star (RefStep (tableOf c.merge)) (a.L.map (·.id)) (b.L.map (·.id)) := by
  induction st with
  | refl => exact Star.refl _
  | @step n a b d h1 h2 ih =>
    exact Star.trans (h1.refStep hJ ht hs hc hsk h)
      (ih (h1.sorted hs) (h1.covered hs hc)
        ((StepsN.step h1 (StepsN.refl b)).no_skip hd hsk) (h1.spans hJ hs h))

theorem spans_init {merge : List ((Nat × Nat) × (Nat × Nat))} {J : Nat → Nat → Option Nat}
    (l : List (Nat × Nat)) (h : ∀ (i : Nat) (p : Nat × Nat), l[i]? = some p → J i (i + 1) = some p.1) :
    Spans merge l.length J (absInit merge l) := by
  have nb : ∀ (k : Nat) (l' : List (Nat × Nat)) (A : List Blk) (x : Blk) (B : List Blk),
      blks k l' = A ++ x :: B →
      x.ix = k + A.length ∧ endIx (k + l'.length) B = x.ix + 1 ∧ A.length < l'.length ∧
        l'[A.length]? = some (x.id, x.len) := by
    intro k l'
    induction l' generalizing k with
    | nil => intro A x B h; simp [blks] at h
    | cons p l' ih =>
      intro A x B h
      rw [blks] at h
      cases A with
      | nil =>
        simp only [List.nil_append, List.cons.injEq] at h
        obtain ⟨rfl, rfl⟩ := h
        cases l' with
        | nil => simp [blks, endIx]
        | cons q l' => simp [blks, endIx]
      | cons a A =>
        simp only [List.cons_append, List.cons.injEq] at h
        obtain ⟨h1, h2, h3, h4⟩ := ih (k + 1) A x B h.2
        simp only [List.length_cons, List.getElem?_cons_succ]
        refine ⟨by omega, ?_, by omega, h4⟩
        rw [← h2]; congr 1; omega
  refine ⟨fun A x B hL => ?_, fun e he => ?_⟩
  · simp only [absInit] at hL
    obtain ⟨h1, h2, h3, h4⟩ := nb 0 l A x B hL
    simp only [Nat.zero_add] at h1 h2
    refine ⟨by omega, by omega, ?_⟩
    rw [h2]
    have := h A.length _ h4
    rw [h1]
    exact this
  · simp only [absInit, List.append_nil] at he ⊢
    obtain ⟨A, x, y, B, hL, h2, h3⟩ := absQueue_mem merge _ e he
    obtain ⟨a1, a2, a3, a4⟩ := nb 0 l A x (y :: B) hL
    obtain ⟨b1, b2, b3, b4⟩ := nb 0 l (A ++ [x]) y B (by rw [hL]; simp)
    simp only [List.length_append, List.length_singleton, Nat.zero_add] at a1 b1 b2 b3 b4
    refine ⟨y.ix, y.ix + 1, x.id, y.id, by omega, by omega, by omega, ?_, ?_, h3, ?_⟩
    · have := h _ _ a4
      rw [h2, a1, b1]; exact this
    · have := h _ _ b4
      rw [b1]; exact this
    · intro w hw h5 h6
      omega

end Berts.Bpe
