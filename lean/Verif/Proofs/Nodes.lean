import Verif.Spec.Nodes

/-!
# Lemmas about the expansion of graphs
-/

namespace Berts.Nodes

/-- `visit` with unlimited arrays. -/
def dfs (g : List Node) : Nat → Nat → Cgraph → Cgraph
  | 0, _, st => st
  | f + 1, i, st =>
    if i ∈ st.visited then st
    else
      match g[i]? with
      | none => st
      | some nd =>
        let st := nd.src.foldl (fun r j => dfs g f j r) { st with visited := i :: st.visited }
        if nd.leaf then { st with leafs := st.leafs ++ [i] } else { st with nodes := st.nodes ++ [i] }

/-- What is finished. -/
def Cgraph.Done (st : Cgraph) (i : Nat) : Prop := i ∈ st.nodes ∨ i ∈ st.leafs

/-- The state between two visits while tensors from `p` on are being worked on. -/
structure Inv (g : List Node) (p : Nat) (st : Cgraph) : Prop where
  vis : ∀ i ∈ st.visited, i < p → st.Done i
  done : ∀ i, st.Done i → i ∈ st.visited
  ops : ∀ i ∈ st.nodes, IsOp g i
  leafs : ∀ i ∈ st.leafs, IsLeaf g i
  closed : ∀ i, st.Done i → ∀ nd, g[i]? = some nd → ∀ s ∈ nd.src, st.Done s
  nodupN : st.nodes.Nodup
  nodupL : st.leafs.Nodup
  run : Runnable g st.nodes

/-- What a visit of `i` does. -/
structure Post (g : List Node) (p : Nat) (R : Nat → Prop) (st st' : Cgraph) : Prop where
  inv : Inv g p st'
  vis : ∀ j ∈ st.visited, j ∈ st'.visited
  mono : ∀ j, st.Done j → st'.Done j
  new : ∀ j ∈ st'.visited, j ∈ st.visited ∨ R j
  newD : ∀ j, st'.Done j → st.Done j ∨ R j

theorem needs_le {g : List Node} (hg : Ordered g) {i j : Nat} (h : Needs g i j) : j ≤ i := by
  induction h with
  | refl i => exact Nat.le_refl i
  | step i s j nd h1 h2 _ ih =>
    have := hg i nd h1 s h2
    omega

theorem Post.refl {g : List Node} {p : Nat} {R : Nat → Prop} {st : Cgraph} (h : Inv g p st) : Post g p R st st :=
  ⟨h, fun _ h => h, fun _ h => h, fun _ h => .inl h, fun _ h => .inl h⟩

theorem Post.trans {g : List Node} {p : Nat} {R : Nat → Prop} {a b c : Cgraph} (h : Post g p R a b)
    (h' : Post g p R b c) : Post g p R a c :=
  ⟨h'.inv, fun j hj => h'.vis j (h.vis j hj), fun j hj => h'.mono j (h.mono j hj),
    fun j hj => (h'.new j hj).elim (fun h2 => h.new j h2) .inr,
    fun j hj => (h'.newD j hj).elim (fun h2 => h.newD j h2) .inr⟩

theorem runnable_snoc {g : List Node} {l : List Nat} (h : Runnable g l) {i : Nat}
    (hi : ∀ nd, g[i]? = some nd → ∀ s ∈ nd.src, IsLeaf g s ∨ s ∈ l) : Runnable g (l ++ [i]) := by
  intro a x b e nd hx s hs
  rcases List.eq_nil_or_concat b with rfl | ⟨b', y, rfl⟩
  · rw [← List.concat_eq_append, ← List.concat_eq_append, List.concat_inj] at e
    obtain ⟨rfl, rfl⟩ := e
    exact hi nd hx s hs
  · have e' : l ++ [i] = (a ++ x :: b') ++ [y] := by
      rw [e]
      simp [List.concat_eq_append]
    have := List.append_inj_left' e' rfl
    exact h a x b' this nd hx s hs

theorem dfs_post {g : List Node} (hg : Ordered g) (f : Nat) : ∀ (i p : Nat) (st : Cgraph), i < f → i < p →
    i < g.length → Inv g p st → Post g p (Needs g i) st (dfs g f i st) ∧ (dfs g f i st).Done i := by
  induction f with
  | zero => intro i p st h; omega
  | succ f ih =>
    intro i p st hf hp hl hI
    unfold dfs
    split
    · rename_i hv
      exact ⟨.refl hI, hI.vis i hv hp⟩
    · rename_i hv
      rw [List.getElem?_eq_getElem hl]
      simp only
      have hnd : g[i]? = some g[i] := List.getElem?_eq_getElem hl
      generalize g[i] = nd at hnd
      have hI1 : Inv g i { st with visited := i :: st.visited } := by
        refine ⟨?_, ?_, hI.ops, hI.leafs, hI.closed, hI.nodupN, hI.nodupL, hI.run⟩
        · intro j hj hji
          rcases List.mem_cons.1 hj with rfl | hj
          · omega
          · exact hI.vis j hj (by omega)
        · intro j hj
          exact List.mem_cons_of_mem _ (hI.done j hj)
      have hfold : ∀ (l : List Nat), (∀ s ∈ l, s ∈ nd.src) → ∀ st1, Inv g i st1 →
          Post g i (fun j => ∃ s ∈ l, Needs g s j) st1 (l.foldl (fun r j => dfs g f j r) st1) ∧
          ∀ s ∈ l, (l.foldl (fun r j => dfs g f j r) st1).Done s := by
        intro l
        induction l with
        | nil => intro _ st1 h1; exact ⟨.refl h1, by simp⟩
        | cons s l ihl =>
          intro hs st1 h1
          have hsi := hg i nd hnd s (hs s (by simp))
          obtain ⟨a, b⟩ := ih s i st1 (by omega) hsi (by omega) h1
          obtain ⟨c, d⟩ := ihl (fun t ht => hs t (by simp [ht])) _ a.inv
          refine ⟨⟨c.inv, fun j hj => c.vis j (a.vis j hj), fun j hj => c.mono j (a.mono j hj), ?_, ?_⟩, ?_⟩
          · intro j hj
            rcases c.new j hj with h | ⟨t, ht, hn⟩
            · rcases a.new j h with h | h
              · exact .inl h
              · exact .inr ⟨s, by simp, h⟩
            · exact .inr ⟨t, by simp [ht], hn⟩
          · intro j hj
            rcases c.newD j hj with h | ⟨t, ht, hn⟩
            · rcases a.newD j h with h | h
              · exact .inl h
              · exact .inr ⟨s, by simp, h⟩
            · exact .inr ⟨t, by simp [ht], hn⟩
          · intro t ht
            rcases List.mem_cons.1 ht with rfl | ht
            · exact c.mono _ b
            · exact d t ht
      obtain ⟨P, D⟩ := hfold nd.src (fun _ h => h) _ hI1
      generalize hst2 : nd.src.foldl (fun r j => dfs g f j r) { st with visited := i :: st.visited } = st2 at P D
      have hnew : ∀ j, (∃ s ∈ nd.src, Needs g s j) → Needs g i j ∧ j < i := by
        rintro j ⟨s, hs, hn⟩
        have h1 := hg i nd hnd s hs
        have h2 := needs_le hg hn
        exact ⟨.step i s j nd hnd hs hn, by omega⟩
      have hni : ¬ st2.Done i := by
        intro h
        rcases P.newD i h with h | h
        · exact hv (hI.done i h)
        · have := (hnew i h).2
          omega
      have hvis2 : i ∈ st2.visited := P.vis i (by simp)
      have hother : ∀ j ∈ st2.visited, j < p → j ≠ i → st2.Done j := by
        intro j hj hjp hji
        rcases P.new j hj with h | h
        · rcases List.mem_cons.1 h with h | h
          · exact absurd h hji
          · exact P.mono j (hI.vis j h hjp)
        · exact P.inv.vis j hj (hnew j h).2
      cases hleaf : nd.leaf with
      | true =>
        simp only [if_true]
        have hdone : ∀ j, Cgraph.Done { st2 with leafs := st2.leafs ++ [i] } j ↔ st2.Done j ∨ j = i := by
          intro j
          simp [Cgraph.Done, or_assoc]
        refine ⟨⟨⟨?_, ?_, P.inv.ops, ?_, ?_, P.inv.nodupN, ?_, P.inv.run⟩, ?_, ?_, ?_, ?_⟩, (hdone i).2 (.inr rfl)⟩
        · intro j hj hjp
          rw [hdone]
          by_cases h : j = i
          · exact .inr h
          · exact .inl (hother j hj hjp h)
        · intro j hj
          rcases (hdone j).1 hj with h | rfl
          · exact P.inv.done j h
          · exact hvis2
        · intro j hj
          rcases List.mem_append.1 hj with h | h
          · exact P.inv.leafs j h
          · rw [List.mem_singleton.1 h]
            exact ⟨nd, hnd, hleaf⟩
        · intro j hj nd' h' s hs
          rw [hdone]
          rcases (hdone j).1 hj with h | rfl
          · exact .inl (P.inv.closed j h nd' h' s hs)
          · rw [hnd] at h'
            cases h'
            exact .inl (D s hs)
        · rw [List.nodup_append]
          refine ⟨P.inv.nodupL, by simp, ?_⟩
          intro a ha b hb
          rw [List.mem_singleton.1 hb]
          rintro rfl
          exact hni (.inr ha)
        · exact fun j hj => P.vis j (List.mem_cons_of_mem _ hj)
        · exact fun j hj => (hdone j).2 (.inl (P.mono j hj))
        · intro j hj
          rcases P.new j hj with h | h
          · rcases List.mem_cons.1 h with rfl | h
            · exact .inr (.refl _)
            · exact .inl h
          · exact .inr (hnew j h).1
        · intro j hj
          rcases (hdone j).1 hj with h | rfl
          · rcases P.newD j h with h | h
            · exact .inl h
            · exact .inr (hnew j h).1
          · exact .inr (.refl _)
      | false =>
        simp only [Bool.false_eq_true, if_false]
        have hdone : ∀ j, Cgraph.Done { st2 with nodes := st2.nodes ++ [i] } j ↔ st2.Done j ∨ j = i := by
          intro j
          simp only [Cgraph.Done, List.mem_append, List.mem_singleton]
          constructor
          · rintro ((h | h) | h)
            · exact .inl (.inl h)
            · exact .inr h
            · exact .inl (.inr h)
          · rintro ((h | h) | h)
            · exact .inl (.inl h)
            · exact .inr h
            · exact .inl (.inr h)
        refine ⟨⟨⟨?_, ?_, ?_, P.inv.leafs, ?_, ?_, P.inv.nodupL, ?_⟩, ?_, ?_, ?_, ?_⟩, (hdone i).2 (.inr rfl)⟩
        · intro j hj hjp
          rw [hdone]
          by_cases h : j = i
          · exact .inr h
          · exact .inl (hother j hj hjp h)
        · intro j hj
          rcases (hdone j).1 hj with h | rfl
          · exact P.inv.done j h
          · exact hvis2
        · intro j hj
          rcases List.mem_append.1 hj with h | h
          · exact P.inv.ops j h
          · rw [List.mem_singleton.1 h]
            exact ⟨nd, hnd, hleaf⟩
        · intro j hj nd' h' s hs
          rw [hdone]
          rcases (hdone j).1 hj with h | rfl
          · exact .inl (P.inv.closed j h nd' h' s hs)
          · rw [hnd] at h'
            cases h'
            exact .inl (D s hs)
        · rw [List.nodup_append]
          refine ⟨P.inv.nodupN, by simp, ?_⟩
          intro a ha b hb
          rw [List.mem_singleton.1 hb]
          rintro rfl
          exact hni (.inl ha)
        · refine runnable_snoc P.inv.run ?_
          intro nd' h' s hs
          rw [hnd] at h'
          cases h'
          rcases D s hs with h | h
          · exact .inr h
          · exact .inl (P.inv.leafs s h)
        · exact fun j hj => P.vis j (List.mem_cons_of_mem _ hj)
        · exact fun j hj => (hdone j).2 (.inl (P.mono j hj))
        · intro j hj
          rcases P.new j hj with h | h
          · rcases List.mem_cons.1 h with rfl | h
            · exact .inr (.refl _)
            · exact .inl h
          · exact .inr (hnew j h).1
        · intro j hj
          rcases (hdone j).1 hj with h | rfl
          · rcases P.newD j h with h | h
            · exact .inl h
            · exact .inr (hnew j h).1
          · exact .inr (.refl _)

/-- The arrays only grow. -/
theorem dfs_grows (g : List Node) (f : Nat) : ∀ (i : Nat) (st : Cgraph),
    st.nodes.length ≤ (dfs g f i st).nodes.length ∧ st.leafs.length ≤ (dfs g f i st).leafs.length := by
  induction f with
  | zero => intro i st; exact ⟨Nat.le_refl _, Nat.le_refl _⟩
  | succ f ih =>
    intro i st
    unfold dfs
    split
    · exact ⟨Nat.le_refl _, Nat.le_refl _⟩
    · split
      · exact ⟨Nat.le_refl _, Nat.le_refl _⟩
      · rename_i nd _
        have hfold : ∀ (l : List Nat) (st1 : Cgraph),
            st1.nodes.length ≤ (l.foldl (fun r j => dfs g f j r) st1).nodes.length ∧
            st1.leafs.length ≤ (l.foldl (fun r j => dfs g f j r) st1).leafs.length := by
          intro l
          induction l with
          | nil => intro st1; exact ⟨Nat.le_refl _, Nat.le_refl _⟩
          | cons s l ihl =>
            intro st1
            have h1 := ih s st1
            have h2 := ihl (dfs g f s st1)
            exact ⟨Nat.le_trans h1.1 h2.1, Nat.le_trans h1.2 h2.2⟩
        have h := hfold nd.src { st with visited := i :: st.visited }
        simp only at h ⊢
        split
        · simp only [List.length_append, List.length_cons, List.length_nil]
          omega
        · simp only [List.length_append, List.length_cons, List.length_nil]
          omega

/-- With arrays of a limited size the expansion gives the same, or stops when they are too small. -/
theorem visit_dfs {g : List Node} (hg : Ordered g) (size : Nat) (f : Nat) : ∀ (i : Nat) (st : Cgraph), i < f →
    i < g.length → st.nodes.length ≤ size → st.leafs.length ≤ size →
    visit g size f i st =
      if (dfs g f i st).nodes.length ≤ size ∧ (dfs g f i st).leafs.length ≤ size then .ok (dfs g f i st) else .abort := by
  induction f with
  | zero => intro i st h; omega
  | succ f ih =>
    intro i st hf hl hN hL
    unfold visit dfs
    split
    · rw [if_pos ⟨hN, hL⟩]
    · rw [List.getElem?_eq_getElem hl]
      simp only
      have hnd : g[i]? = some g[i] := List.getElem?_eq_getElem hl
      generalize g[i] = nd at hnd
      have habort : ∀ l : List Nat, l.foldl (fun (r : Res Cgraph) j => r.bind (visit g size f j)) .abort = .abort := by
        intro l
        induction l with
        | nil => rfl
        | cons s l ihl => exact ihl
      have hfold : ∀ (l : List Nat), (∀ s ∈ l, s ∈ nd.src) → ∀ st1 : Cgraph, st1.nodes.length ≤ size →
          st1.leafs.length ≤ size →
          l.foldl (fun (r : Res Cgraph) j => r.bind (visit g size f j)) (.ok st1) =
            if (l.foldl (fun r j => dfs g f j r) st1).nodes.length ≤ size ∧
              (l.foldl (fun r j => dfs g f j r) st1).leafs.length ≤ size then
              .ok (l.foldl (fun r j => dfs g f j r) st1) else .abort := by
        intro l
        induction l with
        | nil => intro _ st1 h1 h2; rw [List.foldl_nil, List.foldl_nil, if_pos ⟨h1, h2⟩]
        | cons s l ihl =>
          intro hs st1 h1 h2
          have hsi := hg i nd hnd s (hs s (by simp))
          rw [List.foldl_cons, List.foldl_cons]
          show List.foldl _ (visit g size f s st1) l = _
          rw [ih s st1 (by omega) (by omega) h1 h2]
          split
          · rename_i h
            exact ihl (fun t ht => hs t (by simp [ht])) _ h.1 h.2
          · rename_i h
            rw [habort, if_neg]
            intro hc
            have hgrow : ∀ (l : List Nat) (st1 : Cgraph),
                st1.nodes.length ≤ (l.foldl (fun r j => dfs g f j r) st1).nodes.length ∧
                st1.leafs.length ≤ (l.foldl (fun r j => dfs g f j r) st1).leafs.length := by
              intro l
              induction l with
              | nil => intro st1; exact ⟨Nat.le_refl _, Nat.le_refl _⟩
              | cons s l ihl =>
                intro st1
                have h1 := dfs_grows g f s st1
                have h2 := ihl (dfs g f s st1)
                exact ⟨Nat.le_trans h1.1 h2.1, Nat.le_trans h1.2 h2.2⟩
            have := hgrow l (dfs g f s st1)
            exact h ⟨by omega, by omega⟩
      rw [hfold nd.src (fun _ h => h) { st with visited := i :: st.visited } hN hL]
      generalize nd.src.foldl (fun r j => dfs g f j r) { st with visited := i :: st.visited } = st2
      by_cases h : st2.nodes.length ≤ size ∧ st2.leafs.length ≤ size
      · rw [if_pos h]
        show (if nd.leaf = true then _ else _) = _
        cases nd.leaf with
        | true =>
          simp only [if_true, List.length_append, List.length_cons, List.length_nil]
          by_cases h2 : st2.leafs.length < size
          · rw [if_pos h2, if_pos (by omega)]
          · rw [if_neg h2, if_neg (by omega)]
        | false =>
          simp only [Bool.false_eq_true, if_false, List.length_append, List.length_cons, List.length_nil]
          by_cases h2 : st2.nodes.length < size
          · rw [if_pos h2, if_pos (by omega)]
          · rw [if_neg h2, if_neg (by omega)]
      · rw [if_neg h]
        show Res.abort = _
        cases nd.leaf with
        | true =>
          simp only [if_true, List.length_append, List.length_cons, List.length_nil]
          rw [if_neg (by omega)]
        | false =>
          simp only [Bool.false_eq_true, if_false, List.length_append, List.length_cons, List.length_nil]
          rw [if_neg (by omega)]

theorem inv_empty (g : List Node) (p : Nat) : Inv g p .empty :=
  ⟨by simp [Cgraph.empty], by simp [Cgraph.empty, Cgraph.Done], by simp [Cgraph.empty], by simp [Cgraph.empty],
    by simp [Cgraph.empty, Cgraph.Done], by simp [Cgraph.empty], by simp [Cgraph.empty],
    by intro a x b h; simp [Cgraph.empty] at h⟩

/-- The unlimited expansion finds exactly what is needed. -/
theorem dfs_done {g : List Node} (hg : Ordered g) {out : Nat} (ho : out < g.length) (j : Nat) :
    (dfs g g.length out .empty).Done j ↔ Needs g out j := by
  obtain ⟨P, D⟩ := dfs_post hg g.length out (out + 1) .empty ho (by omega) ho (inv_empty g _)
  constructor
  · intro h
    rcases P.newD j h with h | h
    · simp [Cgraph.Done, Cgraph.empty] at h
    · exact h
  · have : ∀ i k, Needs g i k → (dfs g g.length out .empty).Done i → (dfs g g.length out .empty).Done k := by
      intro i k h
      induction h with
      | refl i => exact id
      | step i s k nd h1 h2 _ ih => exact fun h => ih (P.inv.closed i h nd h1 s h2)
    exact fun h => this out j h D

end Berts.Nodes

namespace Berts.Nodes

/-- In `g` the sources precede their users, every tensor is needed for one of `R`, and there are `N` operations and `L`
leafs. -/
structure Good (g : List Node) (R : List Nat) (N L : Nat) : Prop where
  ordered : Ordered g
  lt : ∀ r ∈ R, r < g.length
  cover : ∀ j, j < g.length → ∃ r ∈ R, Needs g r j
  ops : opCount g = N
  leafs : leafCount g = L

theorem needs_append {g : List Node} (t : List Node) {i j : Nat} (h : Needs g i j) : Needs (g ++ t) i j := by
  induction h with
  | refl i => exact .refl i
  | step i s j nd h1 h2 _ ih =>
    refine .step i s j nd ?_ h2 ih
    rw [List.getElem?_append_left (List.getElem?_eq_some_iff.1 h1).1]
    exact h1

theorem ordered_snoc {g : List Node} (hg : Ordered g) {nd : Node} (h : ∀ s ∈ nd.src, s < g.length) :
    Ordered (g ++ [nd]) := by
  intro i m hm s hs
  by_cases hi : i < g.length
  · rw [List.getElem?_append_left hi] at hm
    exact hg i m hm s hs
  · rw [List.getElem?_append_right (by omega)] at hm
    have hlt := (List.getElem?_eq_some_iff.1 hm).1
    simp only [List.length_cons, List.length_nil] at hlt
    have : i = g.length := by omega
    subst this
    simp at hm
    subst hm
    exact h s hs

theorem Good.congr {g : List Node} {R R' : List Nat} {N L : Nat} (h : Good g R N L) (hR : ∀ r, r ∈ R ↔ r ∈ R') :
    Good g R' N L :=
  ⟨h.ordered, fun r hr => h.lt r ((hR r).2 hr),
    fun j hj => (h.cover j hj).elim fun r hr => ⟨r, (hR r).1 hr.1, hr.2⟩, h.ops, h.leafs⟩

theorem Good.leaf {g : List Node} {R : List Nat} {N L : Nat} (h : Good g R N L) :
    Good (leaf g).2 ((leaf g).1 :: R) N (L + 1) := by
  refine ⟨ordered_snoc h.ordered (by simp), ?_, ?_, ?_, ?_⟩
  · intro r hr
    simp only [Nodes.leaf, List.length_append, List.length_cons, List.length_nil]
    rcases List.mem_cons.1 hr with rfl | hr
    · simp [Nodes.leaf]
    · have := h.lt r hr
      omega
  · intro j hj
    simp only [Nodes.leaf, List.length_append, List.length_cons, List.length_nil] at hj
    by_cases hj' : j < g.length
    · obtain ⟨r, hr, hn⟩ := h.cover j hj'
      exact ⟨r, List.mem_cons_of_mem _ hr, needs_append _ hn⟩
    · have : j = g.length := by omega
      subst this
      exact ⟨g.length, by simp [Nodes.leaf], .refl _⟩
  · rw [← h.ops]
    simp [Nodes.leaf, opCount]
  · rw [← h.leafs]
    simp [Nodes.leaf, leafCount]

theorem Good.op {g : List Node} {S R : List Nat} {N L : Nat} (h : Good g (S ++ R) N L) :
    Good (op S g).2 ((op S g).1 :: R) (N + 1) L := by
  have hS : ∀ s ∈ S, s < g.length := fun s hs => h.lt s (List.mem_append_left _ hs)
  refine ⟨ordered_snoc h.ordered hS, ?_, ?_, ?_, ?_⟩
  · intro r hr
    simp only [Nodes.op, List.length_append, List.length_cons, List.length_nil]
    rcases List.mem_cons.1 hr with rfl | hr
    · simp [Nodes.op]
    · have := h.lt r (List.mem_append_right _ hr)
      omega
  · intro j hj
    simp only [Nodes.op, List.length_append, List.length_cons, List.length_nil] at hj
    by_cases hj' : j < g.length
    · obtain ⟨r, hr, hn⟩ := h.cover j hj'
      rcases List.mem_append.1 hr with hr | hr
      · exact ⟨g.length, by simp [Nodes.op], .step _ r j ⟨false, S⟩ (by simp [Nodes.op]) hr (needs_append _ hn)⟩
      · exact ⟨r, List.mem_cons_of_mem _ hr, needs_append _ hn⟩
    · have : j = g.length := by omega
      subst this
      exact ⟨g.length, by simp [Nodes.op], .refl _⟩
  · rw [← h.ops]
    simp [Nodes.op, opCount]
  · rw [← h.leafs]
    simp [Nodes.op, leafCount]

theorem Good.empty : Good [] [] 0 0 := ⟨by intro i nd h; simp at h, by simp, by simp, rfl, rfl⟩

theorem Good.swap {g : List Node} {a b : Nat} {R : List Nat} {N L : Nat} (h : Good g (a :: b :: R) N L) :
    Good g (b :: a :: R) N L :=
  h.congr fun _ => (List.Perm.swap b a R).mem_iff

theorem Good.dup {g : List Node} {a : Nat} {R : List Nat} {N L : Nat} (h : Good g (a :: R) N L) :
    Good g (a :: a :: R) N L :=
  h.congr fun r => by simp

/-- The third comes to the front. -/
theorem Good.rot {g : List Node} {a b c : Nat} {R : List Nat} {N L : Nat} (h : Good g (a :: b :: c :: R) N L) :
    Good g (c :: a :: b :: R) N L :=
  h.congr fun _ => ((List.Perm.cons a (List.Perm.swap c b R)).trans (List.Perm.swap c a (b :: R))).mem_iff

theorem Good.rot' {g : List Node} {a b c : Nat} {R : List Nat} {N L : Nat} (h : Good g (a :: b :: c :: R) N L) :
    Good g (b :: c :: a :: R) N L := h.rot.rot

/-- A builder has made a tensor, to be used later together with `R`. -/
def St (r : Nat × List Node) (R : List Nat) (N L : Nat) : Prop := Good r.2 (r.1 :: R) N L

theorem St.bind {x : B Nat} {f : Nat → B Nat} {g : List Node} {R R' : List Nat} {N L N' L' : Nat}
    (h : St (x g) R N L) (k : ∀ a g', Good g' (a :: R) N L → St (f a g') R' N' L') :
    St ((x >>= f) g) R' N' L' := k _ _ h

theorem Good.leaf' {g : List Node} {R : List Nat} {N L : Nat} (h : Good g R N L) : St (Nodes.leaf g) R N (L + 1) :=
  h.leaf

theorem Good.op1 {g : List Node} {x : Nat} {R : List Nat} {N L : Nat} (h : Good g (x :: R) N L) :
    St (Nodes.op [x] g) R (N + 1) L := Good.op (S := [x]) h

theorem Good.op2 {g : List Node} {x y : Nat} {R : List Nat} {N L : Nat} (h : Good g (x :: y :: R) N L) :
    St (Nodes.op [x, y] g) R (N + 1) L := Good.op (S := [x, y]) h

theorem Good.dense {g : List Node} {x : Nat} {R : List Nat} {N L : Nat} (h : Good g (x :: R) N L) :
    St (Nodes.dense x g) R (N + 3) (L + 2) :=
  St.bind h.leaf' fun _ _ h => St.bind h.op2 fun _ _ h => St.bind h.leaf' fun _ _ h => St.bind h.op1 fun _ _ h =>
    h.swap.op2

theorem Good.layerNorm {g : List Node} {x : Nat} {R : List Nat} {N L : Nat} (h : Good g (x :: R) N L) :
    St (Nodes.layerNorm x g) R (N + 5) (L + 2) :=
  St.bind h.op1 fun _ _ h => St.bind h.leaf' fun _ _ h => St.bind h.op1 fun _ _ h => St.bind h.op2 fun _ _ h =>
    St.bind h.leaf' fun _ _ h => St.bind h.op1 fun _ _ h => h.swap.op2

theorem Good.project {g : List Node} {x : Nat} {R : List Nat} {N L : Nat} (h : Good g (x :: R) N L) :
    St (Nodes.project x g) R (N + 4) (L + 2) :=
  St.bind h.dense fun _ _ h => h.op1

theorem Good.permuteCont {g : List Node} {x : Nat} {R : List Nat} {N L : Nat} (h : Good g (x :: R) N L) :
    St (Nodes.permuteCont x g) R (N + 2) L :=
  St.bind h.op1 fun _ _ h => h.op1

theorem Good.attention {g : List Node} {x : Nat} {R : List Nat} {N L : Nat} (h : Good g (x :: R) N L) :
    St (Nodes.attention x g) R (N + 33) (L + 11) :=
  St.bind h.dup.dup.dup.project fun _ _ h => St.bind h.swap.project fun _ _ h => St.bind h.rot.project fun _ _ h =>
    St.bind h.rot.permuteCont fun _ _ h => St.bind h.rot.permuteCont fun _ _ h => St.bind h.rot.permuteCont fun _ _ h =>
    St.bind h.rot'.op2 fun _ _ h => St.bind h.op1 fun _ _ h => St.bind h.swap.op2 fun _ _ h =>
    St.bind h.permuteCont fun _ _ h => St.bind h.leaf' fun _ _ h => St.bind h.swap.op2 fun _ _ h =>
    St.bind h.dense fun _ _ h => St.bind h.swap.op2 fun _ _ h => h.layerNorm

theorem Good.feedForward {g : List Node} {x : Nat} {R : List Nat} {N L : Nat} (h : Good g (x :: R) N L) :
    St (Nodes.feedForward x g) R (N + 13) (L + 6) :=
  St.bind h.dup.dense fun _ _ h => St.bind h.op1 fun _ _ h => St.bind h.dense fun _ _ h =>
    St.bind h.swap.op2 fun _ _ h => h.layerNorm

/-- The fourth comes to the front. -/
theorem Good.rot4 {g : List Node} {a b c d : Nat} {R : List Nat} {N L : Nat} (h : Good g (a :: b :: c :: d :: R) N L) :
    Good g (d :: a :: b :: c :: R) N L :=
  h.congr fun r => by
    simp only [List.mem_cons]
    constructor
    · rintro (h | h | h | h | h) <;> simp [h]
    · rintro (h | h | h | h | h) <;> simp [h]

theorem good_embeddings : St (embeddings []) [] 10 8 :=
  St.bind Good.empty.leaf' fun _ _ h => St.bind h.leaf' fun _ _ h => St.bind h.leaf' fun _ _ h =>
    St.bind h.leaf' fun _ _ h => St.bind h.rot4.swap.op2 fun _ _ h => St.bind h.leaf' fun _ _ h =>
    St.bind h.rot.swap.op2 fun _ _ h => St.bind h.op2 fun _ _ h =>
    St.bind h.leaf' fun _ _ h => St.bind h.rot.swap.op2 fun _ _ h => St.bind h.op2 fun _ _ h => h.layerNorm

theorem good_layerLoop (last : Int) (k : Nat) : ∀ (idx x : Nat) (g : List Node) (N L : Nat), Good g [x] N L →
    St (layerLoop last idx k x g) [] (N + 46 * min k (last - idx).toNat) (L + 17 * min k (last - idx).toNat) := by
  induction k with
  | zero =>
    intro idx x g N L h
    rw [Nat.zero_min]
    exact h
  | succ k ih =>
    intro idx x g N L h
    unfold layerLoop
    split
    · rw [show (last - (idx : Int)).toNat = 0 by omega, Nat.min_zero]
      exact h
    · rw [show min (k + 1) (last - (idx : Int)).toNat = min k (last - ((idx + 1 : Nat) : Int)).toNat + 1 by omega]
      refine St.bind h.attention fun _ _ h => St.bind h.feedForward fun _ _ h => ?_
      have h := ih (idx + 1) _ _ _ _ h
      rw [show N + 46 * (min k (last - ((idx + 1 : Nat) : Int)).toNat + 1)
          = N + 33 + 13 + 46 * min k (last - ((idx + 1 : Nat) : Int)).toNat by omega,
        show L + 17 * (min k (last - ((idx + 1 : Nat) : Int)).toNat + 1)
          = L + 11 + 6 + 17 * min k (last - ((idx + 1 : Nat) : Int)).toNat by omega]
      exact h

theorem good_pooler {poolType x : Nat} {g : List Node} {N L : Nat} (h : Good g [x] N L) :
    St (pooler poolType x g) [] (N + if poolType = 0 then 0 else 5) (L + if poolType = 0 then 0 else 2) := by
  unfold pooler
  split
  · exact h
  · exact St.bind h.op1 fun _ _ h => St.bind h.dense fun _ _ h => h.op1

theorem good_build (n : Nat) (last : Int) (poolType : Nat) :
    St (build n last poolType []) [] (10 + 46 * min n last.toNat + if poolType = 0 then 0 else 5)
      (8 + 17 * min n last.toNat + if poolType = 0 then 0 else 2) := by
  refine St.bind good_embeddings fun _ _ h => ?_
  have h := good_layerLoop last n 0 _ _ _ _ h
  simp only [Int.natCast_zero, Int.sub_zero] at h
  exact St.bind h fun _ _ h => good_pooler h

theorem getElem?_op {g : List Node} {S : List Nat} : (op S g).2[(op S g).1]? = some ⟨false, S⟩ := by
  simp [op]

theorem St.bind' {α : Type} {x : B Nat} {f : Nat → B α} {g : List Node} {R : List Nat} {N L : Nat}
    {Q : α × List Node → Prop} (h : St (x g) R N L) (k : ∀ a g', Good g' (a :: R) N L → Q (f a g')) :
    Q ((x >>= f) g) := k _ _ h

/-- The last two tensors of the head are made. -/
def LmEnd (r : (Nat × Nat) × List Node) (N L : Nat) : Prop := Good r.2 [r.1.2] N L ∧ Needs r.2 r.1.2 r.1.1

theorem Good.lmEnd {p : Nat} {g : List Node} {N L : Nat} (h : Good g [p] N L) :
    LmEnd ((Nodes.op [p] >>= fun o => (pure (p, o) : B (Nat × Nat))) g) (N + 1) L :=
  ⟨h.op1, Needs.step _ p p ⟨false, [p]⟩ getElem?_op (List.mem_singleton.2 rfl) (Needs.refl p)⟩

theorem good_buildLm : LmEnd (buildLm []) 15 7 :=
  St.bind' (Q := fun r => LmEnd r 15 7) Good.empty.leaf' fun _ _ h => St.bind' (Q := fun r => LmEnd r 15 7) h.op1 fun _ _ h =>
    St.bind' (Q := fun r => LmEnd r 15 7) h.dense fun _ _ h => St.bind' (Q := fun r => LmEnd r 15 7) h.op1 fun _ _ h =>
    St.bind' (Q := fun r => LmEnd r 15 7) h.layerNorm fun _ _ h =>
    St.bind' (Q := fun r => LmEnd r 15 7) h.dense fun _ _ h =>
    St.bind' (Q := fun r => LmEnd r 15 7) h.op1 fun _ _ h => h.lmEnd

theorem countP_range (p : Node → Bool) (g : List Node) :
    ((List.range g.length).filter fun i => (g[i]?).any p).length = g.countP p := by
  induction g with
  | nil => rfl
  | cons nd g ih =>
    rw [List.length_cons, List.range_succ_eq_map, List.filter_cons, List.filter_map, List.countP_cons, ← ih]
    simp only [Function.comp_def, List.getElem?_cons_succ, List.getElem?_cons_zero, Option.any_some]
    split <;> simp_all

theorem length_of_mem {g : List Node} {p : Node → Bool} {l : List Nat} (hn : l.Nodup)
    (h : ∀ i, i ∈ l ↔ ∃ nd, g[i]? = some nd ∧ p nd = true) : l.length = g.countP p := by
  rw [← countP_range]
  apply List.Perm.length_eq
  rw [List.perm_ext_iff_of_nodup hn (List.Pairwise.filter _ List.nodup_range)]
  intro i
  rw [h, List.mem_filter, List.mem_range]
  constructor
  · rintro ⟨nd, h1, h2⟩
    exact ⟨(List.getElem?_eq_some_iff.1 h1).1, by simp [h1, h2]⟩
  · rintro ⟨h1, h2⟩
    rw [List.getElem?_eq_getElem h1] at h2 ⊢
    exact ⟨_, rfl, by simpa using h2⟩

/-- The expansion of a graph in which everything is needed. -/
theorem Good.expand {g : List Node} {out N L : Nat} (h : Good g [out] N L) (size : Nat) :
    (N ≤ size ∧ L ≤ size ∧ ∃ c, Nodes.expand size g out = .ok c ∧ c.nodes.length = N ∧ c.leafs.length = L ∧
      c.nodes.Nodup ∧ c.leafs.Nodup ∧ Runnable g c.nodes ∧ (∀ i, i ∈ c.nodes ↔ IsOp g i) ∧
      (∀ i, i ∈ c.leafs ↔ IsLeaf g i)) ∨
    ((size < N ∨ size < L) ∧ Nodes.expand size g out = .abort) := by
  have ho : out < g.length := h.lt out (by simp)
  have hv := visit_dfs h.ordered size g.length out .empty ho ho (by simp [Cgraph.empty]) (by simp [Cgraph.empty])
  obtain ⟨P, -⟩ := dfs_post h.ordered g.length out (out + 1) .empty ho (by omega) ho (inv_empty g _)
  have hd := dfs_done h.ordered ho
  have hall : ∀ j, j < g.length → (dfs g g.length out .empty).Done j := by
    intro j hj
    obtain ⟨r, hr, hn⟩ := h.cover j hj
    rw [List.mem_singleton.1 hr] at hn
    exact (hd j).2 hn
  rw [show visit g size g.length out .empty = Nodes.expand size g out from rfl] at hv
  generalize dfs g g.length out .empty = c at hv P hall
  have hN : ∀ i, i ∈ c.nodes ↔ IsOp g i := by
    intro i
    refine ⟨P.inv.ops i, ?_⟩
    rintro ⟨nd, h1, h2⟩
    rcases hall i (List.getElem?_eq_some_iff.1 h1).1 with h3 | h3
    · exact h3
    · obtain ⟨nd', h4, h5⟩ := P.inv.leafs i h3
      rw [h1] at h4
      cases h4
      rw [h2] at h5
      cases h5
  have hL : ∀ i, i ∈ c.leafs ↔ IsLeaf g i := by
    intro i
    refine ⟨P.inv.leafs i, ?_⟩
    rintro ⟨nd, h1, h2⟩
    rcases hall i (List.getElem?_eq_some_iff.1 h1).1 with h3 | h3
    · obtain ⟨nd', h4, h5⟩ := P.inv.ops i h3
      rw [h1] at h4
      cases h4
      rw [h2] at h5
      cases h5
    · exact h3
  have hNl : c.nodes.length = N := by
    rw [← h.ops]
    refine length_of_mem P.inv.nodupN fun i => ?_
    rw [hN]
    simp [IsOp]
  have hLl : c.leafs.length = L := by
    rw [← h.leafs]
    exact length_of_mem P.inv.nodupL hL
  by_cases hs : N ≤ size ∧ L ≤ size
  · rw [if_pos (by omega)] at hv
    exact .inl ⟨hs.1, hs.2, c, hv, hNl, hLl, P.inv.nodupN, P.inv.nodupL, P.inv.run, hN, hL⟩
  · rw [if_neg (by omega)] at hv
    exact .inr ⟨by omega, hv⟩

end Berts.Nodes
