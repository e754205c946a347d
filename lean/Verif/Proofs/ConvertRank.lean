import Verif.Proofs.ConvertFile

/-! # Helper lemmas: ranks of merges -/

namespace Berts.Convert

open Berts.Unicode
open Berts.Spec
open Berts.Bpe (Str)
open Berts.Props (IsTableOf lastTable lastTable_ok)
open Berts.Roberta (Utf8Vocab mergePairs)

/-! ## Reference BPE depends only on the order of the ranks -/

/-- Two tables that merge the same pairs, in the same order. -/
structure SameOrder {β : Type} (t t' : MergeTable β) : Prop where
  merged : ∀ a b, (t a b).map (·.2) = (t' a b).map (·.2)
  lt : ∀ a b r n r' n' c d q m q' m', t a b = some (r, n) → t' a b = some (r', n') → t c d = some (q, m) →
    t' c d = some (q', m') → (r < q ↔ r' < q')

theorem SameOrder.symm {β : Type} {t t' : MergeTable β} (h : SameOrder t t') : SameOrder t' t :=
  ⟨fun a b => (h.merged a b).symm, fun a b r n r' n' c d q m q' m' h1 h2 h3 h4 =>
    (h.lt a b r' n' r n c d q' m' q m h2 h1 h4 h3).symm⟩

theorem SameOrder.get {β : Type} {t t' : MergeTable β} (h : SameOrder t t') {a b : β} {r : Nat} {n : β}
    (e : t a b = some (r, n)) : ∃ r', t' a b = some (r', n) := by
  have := h.merged a b
  rw [e] at this
  simp only [Option.map_some] at this
  cases h' : t' a b with
  | none => rw [h'] at this; cases this
  | some p =>
    rw [h'] at this
    obtain ⟨r', n'⟩ := p
    simp only [Option.map_some, Option.some.injEq] at this
    subst this
    exact ⟨r', rfl⟩

theorem SameOrder.step {β : Type} {t t' : MergeTable β} (h : SameOrder t t') {w w' : List β} (hs : RefStep t w w') :
    RefStep t' w w' := by
  obtain ⟨pre, a, b, post, r, n, h1, h2, h3, h4⟩ := hs
  obtain ⟨r', h2'⟩ := h.get h2
  refine ⟨pre, a, b, post, r', n, h1, h2', h3, ?_⟩
  intro pre' a' b' post' q' m' e1 e2
  obtain ⟨q, e2'⟩ := h.symm.get e2
  have l1 := h.lt a b r n r' n a' b' q m' q' m' h2 h2' e2' e2
  have l2 := h.lt a' b' q m' q' m' a b r n r' n e2' e2 h2 h2'
  rcases h4 pre' a' b' post' q m' e1 e2' with h5 | ⟨h5, h6⟩
  · exact .inl (l1.1 h5)
  · right
    constructor
    · omega
    · exact h6

theorem SameOrder.bpe {β : Type} {t t' : MergeTable β} (h : SameOrder t t') {w v : List β} (hb : RefBpe t w v) :
    RefBpe t' w v := by
  obtain ⟨h1, h2⟩ := hb
  constructor
  · clear h2
    induction h1 with
    | refl => exact .refl _
    | head hs _ ih => exact .head (h.step hs) ih
  · intro pre a b post e
    have := h2 pre a b post e
    have hm := h.merged a b
    rw [this] at hm
    cases h' : t' a b with
    | none => rfl
    | some p => rw [h'] at hm; cases hm

theorem each_mono {β γ : Type} {R R' : β → γ → Prop} (h : ∀ a b, R a b → R' a b) {l : List β} {m : List γ}
    (he : Each R l m) : Each R' l m := by
  induction l generalizing m with
  | nil => cases m with
    | nil => trivial
    | cons _ _ => exact he.elim
  | cons a l ih => cases m with
    | nil => exact he.elim
    | cons b m => exact ⟨h _ _ he.1, ih he.2⟩

theorem SameOrder.pieces {t t' : MergeTable (List Nat)} (h : SameOrder t t') {l : List (List Nat)}
    {f : List Nat → List (Nat × Nat)} {ps : List (Bool × List Nat)} {idss : List (List Nat)}
    (hr : RefPieces l t f ps idss) : RefPieces l t' f ps idss := by
  unfold RefPieces at hr ⊢
  refine each_mono ?_ hr
  intro p ids hp
  split
  · rename_i e
    rw [if_pos e] at hp
    exact hp
  · rename_i e
    rw [if_neg e] at hp
    obtain ⟨cs, h1, h2, ws, toks, h3, h4, h5, h6⟩ := hp
    exact ⟨cs, h1, h2, ws, toks, h3, h4, each_mono (fun a b hb => h.bpe hb) h5, h6⟩

/-! ## Ranks and positions in the file -/

theorem utf16_inj {a b : List Nat} (ha : ∀ x ∈ a, IsScalar x) (hb : ∀ x ∈ b, IsScalar x)
    (h : utf16Encode a = utf16Encode b) : a = b := by
  have h1 := toCodePoints_encode a ha false
  rw [h, toCodePoints_encode b hb false] at h1
  exact h1.symm

theorem mergePairs_get : ∀ (l : List Nat) (k : Nat) (p : Nat × Nat), (mergePairs l)[k]? = some p →
    l[3 * k]? = some p.1 ∧ l[3 * k + 1]? = some p.2
  | [], k, p, h => by simp [mergePairs] at h
  | [a], k, p, h => by simp [mergePairs] at h
  | [a, b], k, p, h => by simp [mergePairs] at h
  | a :: b :: c :: l, 0, p, h => by
    simp [mergePairs] at h
    subst h
    simp
  | a :: b :: c :: l, k + 1, p, h => by
    have h' : (mergePairs l)[k]? = some p := by simpa [mergePairs] using h
    have := mergePairs_get l k p h'
    rw [show 3 * (k + 1) = 3 * k + 1 + 1 + 1 by omega, show 3 * k + 1 + 1 + 1 + 1 = (3 * k + 1) + 1 + 1 + 1 by omega]
    simpa using this

theorem each_get {β γ : Type} {R : β → γ → Prop} {l : List β} {m : List γ} (h : Each R l m) {k : Nat} {a : β}
    (ha : l[k]? = some a) : ∃ b, m[k]? = some b ∧ R a b := by
  induction l generalizing m k with
  | nil => simp at ha
  | cons x l ih => cases m with
    | nil => exact h.elim
    | cons y m =>
      cases k with
      | zero =>
        simp only [List.getElem?_cons_zero, Option.some.injEq] at ha
        subst ha
        exact ⟨y, rfl, h.1⟩
      | succ k =>
        obtain ⟨b, h1, h2⟩ := ih h.2 (by simpa using ha)
        exact ⟨b, by simpa using h1, h2⟩

/-- The pairs that the loader reads are those of the tokenizer, in the order of the items. -/
theorem pairs_ranks {c : Config} {t : Tokenizer} {rs : List ((List Nat × List Nat) × Nat)} {ts tcs : List (List Nat)}
    (hts : Tokens c t.dict ts) (hu : Utf8Vocab ts tcs) {data : List Nat} {pairs : List (Str × Str)}
    (hlen : data.length = 3 * rs.length)
    (he : Each (fun r p => (r.1.1, p.1) ∈ t.dict ∧ (r.1.2, p.2) ∈ t.dict) rs (mergePairs data))
    (hf : MergeFile tcs data pairs) :
    pairs.length = rs.length ∧ ∀ (k : Nat) p, pairs[k]? = some p → ∃ a b r, (∀ x ∈ a, IsScalar x) ∧
      (∀ x ∈ b, IsScalar x) ∧ rs[k]? = some ((utf8Encode a, utf8Encode b), r) ∧ p = (utf16Encode a, utf16Encode b) := by
  obtain ⟨h1, h2⟩ := hf
  have hl : pairs.length = rs.length := by omega
  refine ⟨hl, fun k p hp => ?_⟩
  obtain ⟨i, j, a, b, e1, e2, e3, e4, e5⟩ := h2 k p hp
  have hk : k < rs.length := by
    have := (List.getElem?_eq_some_iff.1 hp).1
    omega
  obtain ⟨q, q1, q2, q3⟩ := each_get he (List.getElem?_eq_getElem hk)
  obtain ⟨m1, m2⟩ := mergePairs_get data k q q1
  rw [e1] at m1
  rw [e2] at m2
  injection m1 with m1
  injection m2 with m2
  subst m1 m2
  have g1 := hts.given _ _ q2
  have g2 := hts.given _ _ q3
  rw [hu.enc, List.getElem?_map, e3] at g1
  rw [hu.enc, List.getElem?_map, e4] at g2
  simp only [Option.map_some, Option.some.injEq] at g1 g2
  refine ⟨a, b, rs[k].2, hu.scalar a (List.mem_of_getElem? e3), hu.scalar b (List.mem_of_getElem? e4), ?_, e5⟩
  rw [List.getElem?_eq_getElem hk, g1, g2]

theorem ranks_order {rs : List ((List Nat × List Nat) × Nat)} (h : RanksOk rs) {i j : Nat}
    {p q : (List Nat × List Nat) × Nat} (hi : rs[i]? = some p) (hj : rs[j]? = some q) : i < j ↔ p.2 < q.2 := by
  obtain ⟨i1, rfl⟩ := List.getElem?_eq_some_iff.1 hi
  obtain ⟨j1, rfl⟩ := List.getElem?_eq_some_iff.1 hj
  have hp := List.pairwise_iff_getElem.1 h.increasing
  constructor
  · exact hp i j i1 j1
  · intro hlt
    rcases Nat.lt_trichotomy i j with h' | h' | h'
    · exact h'
    · subst h'; omega
    · have := hp j i j1 i1 h'
      omega

theorem ranks_unique {rs : List ((List Nat × List Nat) × Nat)} (h : RanksOk rs) {i j : Nat} {x : List Nat × List Nat}
    {r r' : Nat} (hi : rs[i]? = some (x, r)) (hj : rs[j]? = some (x, r')) : i = j := by
  obtain ⟨i1, e1⟩ := List.getElem?_eq_some_iff.1 hi
  obtain ⟨j1, e2⟩ := List.getElem?_eq_some_iff.1 hj
  have hk := List.pairwise_iff_getElem.1 h.keys
  have hlt : ∀ i j r r' (i1 : i < rs.length) (j1 : j < rs.length), rs[i] = (x, r) → rs[j] = (x, r') → ¬ i < j := by
    intro i j r r' i1 j1 e1 e2 h'
    have := hk i j (by simpa using i1) (by simpa using j1) h'
    simp only [List.getElem_map, e1, e2] at this
    exact this rfl
  have := hlt i j r r' i1 j1 e1 e2
  have := hlt j i r' r j1 i1 e2 e1
  omega

theorem tables_agree {c : Config} {t : Tokenizer} {rs : List ((List Nat × List Nat) × Nat)} {ts tcs : List (List Nat)}
    (hts : Tokens c t.dict ts) (hu : Utf8Vocab ts tcs) {data : List Nat} {pairs : List (Str × Str)}
    (hlen : data.length = 3 * rs.length)
    (he : Each (fun r p => (r.1.1, p.1) ∈ t.dict ∧ (r.1.2, p.2) ∈ t.dict) rs (mergePairs data))
    (hf : MergeFile tcs data pairs) (hr : RanksOk rs) {tbl : MergeTable Str} (ht : RankTable rs tbl) :
    SameOrder (lastTable pairs) tbl := by
  obtain ⟨hl, hp⟩ := pairs_ranks hts hu hlen he hf
  have ho := lastTable_ok pairs
  have key1 : ∀ x y k u, lastTable pairs x y = some (k, u) → ∃ a b r, (∀ x ∈ a, IsScalar x) ∧
      (∀ x ∈ b, IsScalar x) ∧ rs[k]? = some ((utf8Encode a, utf8Encode b), r) ∧ x = utf16Encode a ∧ y = utf16Encode b ∧
      u = x ++ y := by
    intro x y k u h
    obtain ⟨h1, h2⟩ := (ho x y k u).1 h
    obtain ⟨a, b, r, g1, g2, g3, g4⟩ := hp k _ h1.1
    simp only [Prod.mk.injEq] at g4
    exact ⟨a, b, r, g1, g2, g3, g4.1, g4.2, h2⟩
  have key2 : ∀ x y k r a b, rs[k]? = some ((utf8Encode a, utf8Encode b), r) → (∀ x ∈ a, IsScalar x) →
      (∀ x ∈ b, IsScalar x) → x = utf16Encode a → y = utf16Encode b → lastTable pairs x y = some (k, x ++ y) := by
    intro x y k r a b hk ha hb hx hy
    rw [ho]
    refine ⟨⟨?_, ?_⟩, rfl⟩
    · have hlt : k < pairs.length := by
        have := (List.getElem?_eq_some_iff.1 hk).1
        omega
      obtain ⟨a', b', r', g1, g2, g3, g4⟩ := hp k _ (List.getElem?_eq_getElem hlt)
      rw [hk] at g3
      simp only [Option.some.injEq, Prod.mk.injEq] at g3
      have e1 := utf8_inj ha g1 g3.1.1
      have e2 := utf8_inj hb g2 g3.1.2
      subst e1 e2
      rw [List.getElem?_eq_getElem hlt, g4, hx, hy]
    · intro j hj
      obtain ⟨a', b', r', g1, g2, g3, g4⟩ := hp j _ hj
      simp only [Prod.mk.injEq] at g4
      have e1 := utf16_inj ha g1 (hx.symm.trans g4.1)
      have e2 := utf16_inj hb g2 (hy.symm.trans g4.2)
      subst e1 e2
      exact Nat.le_of_eq (ranks_unique hr g3 hk)
  have both : ∀ x y k u r u', lastTable pairs x y = some (k, u) → tbl x y = some (r, u') →
      ∃ z, rs[k]? = some (z, r) := by
    intro x y k u r u' h1 h2
    obtain ⟨a, b, r1, g1, g2, g3, g4, g5, _⟩ := key1 x y k u h1
    obtain ⟨a', b', f1, f2, f3, f4, f5, _⟩ := (ht x y r u').1 h2
    have e1 := utf16_inj g1 f1 (g4.symm.trans f4)
    have e2 := utf16_inj g2 f2 (g5.symm.trans f5)
    subst e1 e2
    obtain ⟨j, hj⟩ := List.getElem?_of_mem f3
    have := ranks_unique hr g3 hj
    subst this
    exact ⟨_, hj⟩
  refine ⟨?_, ?_⟩
  · intro x y
    cases h1 : lastTable pairs x y with
    | some p =>
      obtain ⟨k, u⟩ := p
      obtain ⟨a, b, r1, g1, g2, g3, g4, g5, g6⟩ := key1 x y k u h1
      rw [(ht x y r1 u).2 ⟨a, b, g1, g2, List.mem_of_getElem? g3, g4, g5, g6⟩]
      rfl
    | none =>
      cases h2 : tbl x y with
      | none => rfl
      | some p =>
        obtain ⟨r, u⟩ := p
        obtain ⟨a', b', f1, f2, f3, f4, f5, _⟩ := (ht x y r u).1 h2
        obtain ⟨j, hj⟩ := List.getElem?_of_mem f3
        rw [key2 x y j r a' b' hj f1 f2 f4 f5] at h1
        cases h1
  · intro a b r n r' n' c d q m q' m' h1 h2 h3 h4
    obtain ⟨z, hz⟩ := both _ _ _ _ _ _ h1 h2
    obtain ⟨z', hz'⟩ := both _ _ _ _ _ _ h3 h4
    exact ranks_order hr hz hz'

end Berts.Convert
