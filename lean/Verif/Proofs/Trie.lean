import Verif.Spec.Trie

/-! # Helper lemmas about the trie -/

namespace Berts.Trie

open Berts.Spec

@[simp] theorem child_mk (i : Nat) (ch : Nat → Option Node) : (Node.mk i ch).child = ch := rfl

@[simp] theorem id_mk (i : Nat) (ch : Nat → Option Node) : (Node.mk i ch).id = i := rfl

@[simp] theorem child_new (c : Nat) : Node.new.child c = none := rfl

@[simp] theorem id_new : Node.new.id = INVALID := rfl

/-- Id stored at a path (`INVALID` if the path does not exist). -/
def idAt (n : Node) (s : List Nat) : Nat :=
  match walk n s with
  | none => INVALID
  | some m => m.id

theorem searchTrie_eq (t : Node) (s : List Nat) (hs : s ≠ []) : searchTrie t s = idAt t s := by
  simp only [searchTrie, findNode, hs, if_false, idAt]
  cases walk t s <;> rfl

/-- The path exists. -/
def HasPath (n : Node) (s : List Nat) : Prop := (walk n s).isSome = true

theorem walk_new (s : List Nat) : walk Node.new s = if s = [] then some Node.new else none := by
  cases s <;> simp [walk]

theorem idAt_addLoop (n : Node) (s : List Nat) (id : Nat) (t : List Nat) :
    idAt (addLoop n s id) t = if t = s then id else idAt n t := by
  induction s generalizing n t with
  | nil =>
    cases t with
    | nil => simp [addLoop, idAt, walk]
    | cons d t => simp [addLoop, idAt, walk]
  | cons c s ih =>
    cases t with
    | nil => simp [addLoop, idAt, walk]
    | cons d t =>
      by_cases h : d = c
      · subst h
        have : idAt (addLoop n (d :: s) id) (d :: t) =
            idAt (match n.child d with
              | none => addLoop Node.new s id
              | some m => addLoop m s id) t := by
          simp only [addLoop, idAt, walk, child_mk, if_pos]
          cases n.child d <;> rfl
        rw [this]
        cases hc : n.child d with
        | none =>
          simp only [ih]
          by_cases e : t = s
          · simp [e]
          · simp only [e, if_false, List.cons.injEq, and_false]
            simp only [idAt, walk, hc, walk_new]
            by_cases h0 : t = [] <;> simp [h0]
        | some m =>
          simp only [ih]
          by_cases e : t = s
          · simp [e]
          · simp [e, idAt, walk, hc]
      · simp [addLoop, idAt, walk, h]

theorem hasPath_addLoop (n : Node) (s : List Nat) (id : Nat) (t : List Nat) :
    HasPath (addLoop n s id) t ↔ HasPath n t ∨ t <+: s := by
  induction s generalizing n t with
  | nil =>
    cases t with
    | nil => simp [addLoop, HasPath, walk]
    | cons d t => simp [addLoop, HasPath, walk]
  | cons c s ih =>
    cases t with
    | nil => simp [addLoop, HasPath, walk]
    | cons d t =>
      by_cases h : d = c
      · subst h
        have : HasPath (addLoop n (d :: s) id) (d :: t) ↔
            HasPath (match n.child d with
              | none => addLoop Node.new s id
              | some m => addLoop m s id) t := by
          simp only [addLoop, HasPath, walk, child_mk, if_pos]
          cases n.child d <;> rfl
        rw [this, List.cons_prefix_cons]
        cases hc : n.child d with
        | none =>
          simp only [ih]
          have h1 : HasPath n (d :: t) ↔ False := by simp [HasPath, walk, hc]
          have h2 : HasPath Node.new t ↔ t = [] := by
            simp only [HasPath, walk_new]; split <;> simp_all
          rw [h1, h2]
          constructor
          · rintro (h | h)
            · subst h; simp
            · simp [h]
          · rintro (h | ⟨_, h⟩)
            · exact h.elim
            · exact Or.inr h
        | some m =>
          simp only [ih]
          have h1 : HasPath n (d :: t) ↔ HasPath m t := by simp [HasPath, walk, hc]
          rw [h1]; simp
      · have h' : ¬ (d :: t <+: c :: s) := by
          rw [List.cons_prefix_cons]; exact fun x => h x.1
        simp [addLoop, HasPath, walk, h]

/-- Ids and paths of the trie built from a list. -/
theorem idAt_buildFrom (t : Node) (i : Nat) (ss : List (List Nat)) (s : List Nat)
    (hlen : i + ss.length ≤ INVALID) (hs : s ≠ []) :
    (∀ k, IsLastIndex ss s k → idAt (buildFrom t i ss) s = i + k) ∧
    (s ∉ ss → idAt (buildFrom t i ss) s = idAt t s) := by
  induction ss generalizing t i with
  | nil => exact ⟨fun k hk => by simp [IsLastIndex] at hk, fun _ => rfl⟩
  | cons a ss ih =>
    simp only [List.length_cons] at hlen
    obtain ⟨ih1, ih2⟩ := ih (addStr t a (i % 2 ^ 32)) (i + 1) (by omega)
    constructor
    · intro k hk
      rw [buildFrom]
      cases k with
      | zero =>
        have ha : a = s := by simpa using hk.1
        have hn : s ∉ ss := by
          intro hm
          obtain ⟨j, hj, e⟩ := List.getElem_of_mem hm
          have := hk.2 (j + 1) (by simp [hj, e])
          omega
        rw [ih2 hn, addStr, if_neg (ha ▸ hs), idAt_addLoop, if_pos ha.symm]
        unfold INVALID at hlen
        omega
      | succ k =>
        rw [ih1 k ⟨by simpa using hk.1, fun j hj => by
          have := hk.2 (j + 1) (by simpa using hj); omega⟩]
        omega
    · intro hn
      rw [List.mem_cons, not_or] at hn
      rw [buildFrom, ih2 hn.2, addStr]
      split
      · rfl
      · rw [idAt_addLoop, if_neg hn.1]

theorem hasPath_buildFrom (t : Node) (i : Nat) (ss : List (List Nat)) (s : List Nat) :
    HasPath (buildFrom t i ss) s ↔ HasPath t s ∨ ∃ v ∈ ss, v ≠ [] ∧ s <+: v := by
  induction ss generalizing t i with
  | nil => simp [buildFrom]
  | cons a ss ih =>
    rw [buildFrom, ih, addStr]
    by_cases ha : a = []
    · subst ha; simp
    · rw [if_neg ha, hasPath_addLoop]
      simp only [List.mem_cons, exists_eq_or_imp]
      simp [ha, or_assoc]

theorem hasPath_prefix (n : Node) (p q : List Nat) (h : p <+: q) (hq : HasPath n q) : HasPath n p := by
  induction p generalizing n q with
  | nil => simp [HasPath, walk]
  | cons c p ih =>
    obtain ⟨t, rfl⟩ := h
    simp only [HasPath, List.cons_append, walk] at *
    cases hc : n.child c with
    | none => simp [hc] at hq
    | some m =>
      simp only [hc] at hq
      exact ih m (p ++ t) (List.prefix_append _ _) hq

/-- What the substring loop returns. -/
theorem substrLoop_spec (n : Node) (last : Option Node) (found s : List Nat) :
    ∃ f r, f ++ r = s ∧ (substrLoop n last found s).2 = (found ++ f, r) ∧
      HasPath n f ∧ (∀ q, q <+: s → HasPath n q → q.length ≤ f.length) ∧
      (((substrLoop n last found s).1 = last ∧
          ∀ q, q <+: s → q ≠ [] → idAt n q = INVALID) ∨
       (∃ p m, (substrLoop n last found s).1 = some m ∧ p <+: f ∧ p ≠ [] ∧ walk n p = some m ∧
          m.id ≠ INVALID ∧ ∀ q, q <+: s → q ≠ [] → idAt n q ≠ INVALID → q.length ≤ p.length)) := by
  induction s generalizing n last found with
  | nil =>
    refine ⟨[], [], rfl, by simp [substrLoop], by simp [HasPath, walk], ?_, Or.inl ⟨rfl, ?_⟩⟩
    · intro q hq _; simp [List.prefix_nil.mp hq]
    · intro q hq hne; exact absurd (List.prefix_nil.mp hq) hne
  | cons c cs ih =>
    cases hc : n.child c with
    | none =>
      refine ⟨[], c :: cs, rfl, by simp [substrLoop, hc], by simp [HasPath, walk], ?_, ?_⟩
      · intro q hq hp
        cases q with
        | nil => simp
        | cons d q =>
          rw [List.cons_prefix_cons] at hq
          simp [HasPath, walk, hq.1, hc] at hp
      · refine Or.inl ⟨by simp [substrLoop, hc], ?_⟩
        intro q hq hne
        cases q with
        | nil => exact absurd rfl hne
        | cons d q =>
          rw [List.cons_prefix_cons] at hq
          simp [idAt, walk, hq.1, hc]
    | some m =>
      obtain ⟨f, r, h1, h2, h3, h4, h5⟩ :=
        ih m (if m.id ≠ INVALID then some m else last) (found ++ [c])
      have hstep : substrLoop n last found (c :: cs) =
          substrLoop m (if m.id ≠ INVALID then some m else last) (found ++ [c]) cs := by
        simp [substrLoop, hc]
      have hid : ∀ q, idAt n (c :: q) = idAt m q := by intro q; simp [idAt, walk, hc]
      refine ⟨c :: f, r, by simp [h1], by rw [hstep, h2]; simp, by simpa [HasPath, walk, hc] using h3,
        ?_, ?_⟩
      · intro q hq hp
        cases q with
        | nil => simp
        | cons d q =>
          rw [List.cons_prefix_cons] at hq
          obtain ⟨rfl, hq⟩ := hq
          have := h4 q hq (by simpa [HasPath, walk, hc] using hp)
          simpa using this
      · rw [hstep]
        rcases h5 with ⟨h5, h6⟩ | ⟨p, m', e1, e2, e3, e4, e5, e6⟩
        · by_cases hm : m.id = INVALID
          · left
            rw [h5]
            refine ⟨by simp [hm], ?_⟩
            intro q hq hne
            cases q with
            | nil => exact absurd rfl hne
            | cons d q =>
              rw [List.cons_prefix_cons] at hq
              obtain ⟨rfl, hq⟩ := hq
              rw [hid]
              by_cases hq0 : q = []
              · subst hq0; simp [idAt, walk, hm]
              · exact h6 q hq hq0
          · right
            refine ⟨[c], m, by rw [h5]; simp [hm], by simp, by simp, by simp [walk, hc], hm, ?_⟩
            intro q hq hne hv
            cases q with
            | nil => exact absurd rfl hne
            | cons d q =>
              rw [List.cons_prefix_cons] at hq
              obtain ⟨rfl, hq⟩ := hq
              rw [hid] at hv
              by_cases hq0 : q = []
              · subst hq0; simp
              · exact absurd (h6 q hq hq0) hv
        · right
          refine ⟨c :: p, m', e1, by simpa using e2, by simp, by simpa [walk, hc] using e4, e5, ?_⟩
          intro q hq hne hv
          cases q with
          | nil => exact absurd rfl hne
          | cons d q =>
            rw [List.cons_prefix_cons] at hq
            obtain ⟨rfl, hq⟩ := hq
            rw [hid] at hv
            by_cases hq0 : q = []
            · subst hq0; simp
            · have := e6 q hq hq0 hv
              simpa using this

/-- What the substring search returns, for any start node. -/
theorem searchSubstr_spec (n : Node) (s found rest : List Nat) :
    ((∀ q, q <+: s → q ≠ [] → idAt n q = INVALID) ∧ searchSubstr n s found rest = (INVALID, found, rest)) ∨
    ∃ p f r, f ++ r = s ∧ p <+: f ∧ p ≠ [] ∧ idAt n p ≠ INVALID ∧
      (∀ q, q <+: s → q ≠ [] → idAt n q ≠ INVALID → q.length ≤ p.length) ∧
      HasPath n f ∧ (∀ q, q <+: s → HasPath n q → q.length ≤ f.length) ∧
      searchSubstr n s found rest = (idAt n p, f, r) := by
  by_cases hs : s = []
  · subst hs
    left
    refine ⟨fun q hq hne => absurd (List.prefix_nil.mp hq) hne, by simp [searchSubstr, findSubstr]⟩
  · obtain ⟨f, r, h1, h2, h3, h4, h5⟩ := substrLoop_spec n none [] s
    have hf : findSubstr n s [] [] = substrLoop n none [] s := by simp [findSubstr, hs]
    rcases h5 with ⟨h5, h6⟩ | ⟨p, m, e1, e2, e3, e4, e5, e6⟩
    · left
      refine ⟨h6, ?_⟩
      simp [searchSubstr, hf, h5]
    · right
      have hid : idAt n p = m.id := by simp [idAt, e4]
      refine ⟨p, f, r, h1, e2, e3, by rw [hid]; exact e5, e6, h3, h4, ?_⟩
      simp [searchSubstr, hf, e1, h2, e5, hid]

theorem last_index_exists (l : List (List Nat)) (s : List Nat) (h : s ∈ l) :
    ∃ i, IsLastIndex l s i := by
  induction l with
  | nil => simp at h
  | cons a l ih =>
    by_cases hm : s ∈ l
    · obtain ⟨i, h1, h2⟩ := ih hm
      refine ⟨i + 1, by simpa using h1, ?_⟩
      intro j hj
      cases j with
      | zero => omega
      | succ j => have := h2 j (by simpa using hj); omega
    · have ha : s = a := by simpa [hm] using h
      subst ha
      refine ⟨0, by simp, ?_⟩
      intro j hj
      cases j with
      | zero => omega
      | succ j =>
        exfalso
        exact hm (List.mem_of_getElem? (by simpa using hj))

theorem isLastIndex_lt {l : List (List Nat)} {s : List Nat} {i : Nat} (h : IsLastIndex l s i) :
    i < l.length := by
  have := h.1
  exact (List.getElem?_eq_some_iff.mp this).1

theorem isLastIndex_unique {l : List (List Nat)} {s : List Nat} {i j : Nat} (h : IsLastIndex l s i)
    (h' : IsLastIndex l s j) : i = j := by
  have := h.2 j h'.1
  have := h'.2 i h.1
  omega

/-- Ids of the trie built from an empty one. -/
theorem idAt_build (ss : List (List Nat)) (s : List Nat) (hlen : ss.length ≤ INVALID) (hs : s ≠ []) :
    (∀ i, IsLastIndex ss s i → idAt (buildFrom Node.new 0 ss) s = i) ∧
    (s ∉ ss → idAt (buildFrom Node.new 0 ss) s = INVALID) := by
  obtain ⟨h1, h2⟩ := idAt_buildFrom Node.new 0 ss s (by omega) hs
  refine ⟨fun i hi => by rw [h1 i hi]; omega, fun hn => ?_⟩
  rw [h2 hn]
  simp [idAt, walk_new, hs]

theorem idAt_build_iff (ss : List (List Nat)) (s : List Nat) (hlen : ss.length ≤ INVALID) (hs : s ≠ []) :
    idAt (buildFrom Node.new 0 ss) s ≠ INVALID ↔ s ∈ ss := by
  constructor
  · intro h
    exact Classical.byContradiction fun hn => h ((idAt_build ss s hlen hs).2 hn)
  · intro hm
    obtain ⟨i, hi⟩ := last_index_exists ss s hm
    rw [(idAt_build ss s hlen hs).1 i hi]
    have := isLastIndex_lt hi
    omega

theorem hasPath_build (ss : List (List Nat)) (s : List Nat) (hs : s ≠ []) :
    HasPath (buildFrom Node.new 0 ss) s ↔ ∃ v ∈ ss, s <+: v := by
  rw [hasPath_buildFrom]
  have : ¬ HasPath Node.new s := by simp [HasPath, walk_new, hs]
  constructor
  · rintro (h | ⟨v, hv, _, hp⟩)
    · exact absurd h this
    · exact ⟨v, hv, hp⟩
  · rintro ⟨v, hv, hp⟩
    refine Or.inr ⟨v, hv, ?_, hp⟩
    intro h0; subst h0; exact hs (List.prefix_nil.mp hp)

/-- Walking is compositional. -/
theorem walk_append (n : Node) (p q : List Nat) :
    walk n (p ++ q) = (walk n p).bind (fun m => walk m q) := by
  induction p generalizing n with
  | nil => simp [walk]
  | cons c p ih =>
    simp only [List.cons_append, walk]
    cases n.child c with
    | none => rfl
    | some m => exact ih m

end Berts.Trie
