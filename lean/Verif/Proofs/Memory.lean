import Verif.Spec.Memory

/-!
# Proofs about the memory of strings

The heap is related to the values of `Verif.Model.Unicode`: `Rel h v` says that the objects of the heap
`h` have the values `v`, that no two objects share a buffer and that every buffer belongs to an object.
-/

namespace Berts.Memory

open Berts.Unicode

theorem upd_same {α : Type} (f : Nat → α) (k : Nat) (v : α) : upd f k v k = v := by simp [upd]

theorem upd_ne {α : Type} (f : Nat → α) {k x : Nat} (v : α) (hx : x ≠ k) : upd f k v x = f x := by
  simp [upd, hx]

theorem upd_upd {α : Type} (f : Nat → α) (k : Nat) (v w : α) : upd (upd f k v) k w = upd f k w := by
  funext x
  unfold upd
  split <;> rfl

theorem upd_comm {α : Type} (f : Nat → α) {k j : Nat} (v w : α) (h : k ≠ j) :
    upd (upd f k v) j w = upd (upd f j w) k v := by
  funext x
  unfold upd
  by_cases h1 : x = j <;> by_cases h2 : x = k <;> simp_all

theorem upd_self {α : Type} (f : Nat → α) (k : Nat) (v : α) (h : f k = v) : upd f k v = f := by
  funext x
  unfold upd
  split
  · rename_i hx; rw [hx, h]
  · rfl

/-- An object and its value. -/
structure Rep (h : Heap) (i : Impl) (u : UImpl) : Prop where
  size : i.size = u.size
  err : i.e = u.e
  str : (i.str = none ∧ u.str = none) ∨
    ∃ b l, i.str = some b ∧ u.str = some l ∧ h.bufs b = some (l.map some)

/-- Values that occur. -/
structure Ok (u : UImpl) : Prop where
  null : u.str = none → u.size = none ∨ u.size = some 0
  full : ∀ l, u.str = some l → l ≠ [] ∧ u.size = some l.length

structure Rel (h : Heap) (v : Nat → Option UImpl) : Prop where
  live : ∀ p i, h.impls p = some i → ∃ u, v p = some u ∧ Rep h i u
  dead : ∀ p, h.impls p = none → v p = none
  ok : ∀ p u, v p = some u → Ok u
  uniq : ∀ p q i j b, h.impls p = some i → h.impls q = some j → i.str = some b → j.str = some b → p = q
  owned : ∀ b l, h.bufs b = some l → ∃ p i, h.impls p = some i ∧ i.str = some b
  freshImpl : ∀ p, h.impls p ≠ none ↔ p < h.nextImpl
  freshBuf : ∀ b, h.nextBuf ≤ b → h.bufs b = none

theorem Rel.empty : Rel Heap.empty (fun _ => none) := by
  refine ⟨?_, ?_, ?_, ?_, ?_, ?_, ?_⟩ <;> simp [Heap.empty]

/-- The object of a value. -/
theorem Rel.get {h : Heap} {v : Nat → Option UImpl} (r : Rel h v) {p : Nat} {u : UImpl} (hp : v p = some u) :
    ∃ i, h.impls p = some i ∧ h.get p = .ok i ∧ Rep h i u := by
  cases hi : h.impls p with
  | none => rw [r.dead p hi] at hp; cases hp
  | some i =>
    obtain ⟨u', h1, h2⟩ := r.live p i hi
    rw [hp] at h1
    cases h1
    exact ⟨i, rfl, by simp [Heap.get, hi], h2⟩

theorem Rel.fresh {h : Heap} {v : Nat → Option UImpl} (r : Rel h v) : v h.nextImpl = none := by
  apply r.dead
  have h1 := r.freshImpl h.nextImpl
  cases hh : h.impls h.nextImpl with
  | none => rfl
  | some i => rw [hh] at h1; simp at h1

theorem Rel.lt {h : Heap} {v : Nat → Option UImpl} (r : Rel h v) {p : Nat} {u : UImpl} (hp : v p = some u) :
    p < h.nextImpl := by
  obtain ⟨i, hi, _⟩ := r.get hp
  exact (r.freshImpl p).1 (by rw [hi]; simp)

theorem rel_new {h : Heap} {v : Nat → Option UImpl} (r : Rel h v) :
    Rel (newImpl h).2 (upd v h.nextImpl (some UImpl.default)) := by
  have hn : h.impls h.nextImpl = none := by
    have h1 := r.freshImpl h.nextImpl
    cases hh : h.impls h.nextImpl with
    | none => rfl
    | some i => rw [hh] at h1; simp at h1
  refine ⟨?_, ?_, ?_, ?_, ?_, ?_, ?_⟩
  · intro p i hi
    by_cases hp : p = h.nextImpl
    · subst hp
      simp only [newImpl, upd_same] at hi
      cases hi
      exact ⟨UImpl.default, upd_same _ _ _, ⟨rfl, rfl, .inl ⟨rfl, rfl⟩⟩⟩
    · simp only [newImpl, upd_ne _ _ hp] at hi
      obtain ⟨u, h1, h2⟩ := r.live p i hi
      exact ⟨u, by rw [upd_ne _ _ hp]; exact h1, ⟨h2.size, h2.err, h2.str⟩⟩
  · intro p hi
    by_cases hp : p = h.nextImpl
    · subst hp; simp [newImpl, upd_same] at hi
    · simp only [newImpl, upd_ne _ _ hp] at hi
      rw [upd_ne _ _ hp]; exact r.dead p hi
  · intro p u hu
    by_cases hp : p = h.nextImpl
    · subst hp
      rw [upd_same] at hu
      cases hu
      exact ⟨fun _ => .inl rfl, by simp [UImpl.default]⟩
    · rw [upd_ne _ _ hp] at hu; exact r.ok p u hu
  · intro p q i j b hi hj hb hb'
    have key : ∀ p i, (newImpl h).2.impls p = some i → i.str = some b → h.impls p = some i := by
      intro p i hi hb
      by_cases hp : p = h.nextImpl
      · subst hp; simp only [newImpl, upd_same] at hi; cases hi; cases hb
      · simpa only [newImpl, upd_ne _ _ hp] using hi
    exact r.uniq p q i j b (key p i hi hb) (key q j hj hb') hb hb'
  · intro b l hl
    obtain ⟨p, i, h1, h2⟩ := r.owned b l hl
    refine ⟨p, i, ?_, h2⟩
    have hp : p ≠ h.nextImpl := by rintro rfl; rw [hn] at h1; cases h1
    simp only [newImpl, upd_ne _ _ hp]
    exact h1
  · intro p
    by_cases hp : p = h.nextImpl
    · subst hp; simp [newImpl, upd_same]
    · simp only [newImpl, upd_ne _ _ hp]
      rw [r.freshImpl p]; omega
  · exact r.freshBuf

/-- Changing an object that keeps its buffer. -/
theorem rel_put {h : Heap} {v : Nat → Option UImpl} (r : Rel h v) {p : Nat} {i j : Impl} {w : UImpl}
    (hi : h.impls p = some i) (hs : j.str = i.str) (hw : Rep h j w) (ok : Ok w) :
    Rel (h.put p j) (upd v p (some w)) := by
  have back : ∀ q k, (h.put p j).impls q = some k → ∃ k', h.impls q = some k' ∧ k'.str = k.str := by
    intro q k hk
    by_cases hq : q = p
    · subst hq
      simp only [Heap.put, upd_same] at hk
      cases hk
      exact ⟨i, hi, hs.symm⟩
    · simp only [Heap.put, upd_ne _ _ hq] at hk
      exact ⟨k, hk, rfl⟩
  refine ⟨?_, ?_, ?_, ?_, ?_, ?_, r.freshBuf⟩
  · intro q k hk
    by_cases hq : q = p
    · subst hq
      simp only [Heap.put, upd_same] at hk
      cases hk
      exact ⟨w, upd_same _ _ _, ⟨hw.size, hw.err, hw.str⟩⟩
    · simp only [Heap.put, upd_ne _ _ hq] at hk
      obtain ⟨u, h1, h2⟩ := r.live q k hk
      exact ⟨u, by rw [upd_ne _ _ hq]; exact h1, ⟨h2.size, h2.err, h2.str⟩⟩
  · intro q hk
    by_cases hq : q = p
    · subst hq; simp [Heap.put, upd_same] at hk
    · simp only [Heap.put, upd_ne _ _ hq] at hk
      rw [upd_ne _ _ hq]; exact r.dead q hk
  · intro q u hu
    by_cases hq : q = p
    · subst hq; rw [upd_same] at hu; cases hu; exact ok
    · rw [upd_ne _ _ hq] at hu; exact r.ok q u hu
  · intro q q' k k' b hk hk' hb hb'
    obtain ⟨m, h1, h2⟩ := back q k hk
    obtain ⟨m', h1', h2'⟩ := back q' k' hk'
    exact r.uniq q q' m m' b h1 h1' (by rw [h2, hb]) (by rw [h2', hb'])
  · intro b l hl
    obtain ⟨q, k, h1, h2⟩ := r.owned b l hl
    by_cases hq : q = p
    · subst hq
      rw [hi] at h1
      cases h1
      exact ⟨q, j, by simp [Heap.put, upd_same], by rw [hs, h2]⟩
    · exact ⟨q, k, by simp only [Heap.put, upd_ne _ _ hq]; exact h1, h2⟩
  · intro q
    by_cases hq : q = p
    · subst hq
      have := r.freshImpl q
      rw [hi] at this
      simpa [Heap.put, upd_same] using this
    · simp only [Heap.put, upd_ne _ _ hq]; exact r.freshImpl q

theorem rel_free {h : Heap} {v : Nat → Option UImpl} (r : Rel h v) {p : Nat} {u : UImpl} (hp : v p = some u) :
    ∃ h' i, freeStr h p = .ok h' ∧ Rel h' (upd v p (some u.free)) ∧ h'.nextImpl = h.nextImpl ∧
      h'.impls p = some i ∧ i.str = none := by
  obtain ⟨i, hi, hg, hr⟩ := r.get hp
  have okf : Ok u.free := ⟨fun _ => .inr rfl, by simp [UImpl.free]⟩
  rcases hr.str with ⟨h1, h2⟩ | ⟨b, l, h1, h2, h3⟩
  · refine ⟨h.put p { i with size := some 0 }, { i with size := some 0 },
      by simp only [freeStr, hg, Res.bind_ok, h1, Res.pure_eq], ?_, rfl, by simp [Heap.put, upd_same], h1⟩
    exact rel_put r hi rfl ⟨rfl, hr.err, .inl ⟨h1, rfl⟩⟩ okf
  · refine ⟨{ h.put p { i with str := none, size := some 0 } with bufs := upd h.bufs b none },
      { i with str := none, size := some 0 },
      by simp only [freeStr, hg, Res.bind_ok, h1, h3, Res.pure_eq], ?_, rfl, by simp [Heap.put, upd_same], rfl⟩
    refine ⟨?_, ?_, ?_, ?_, ?_, ?_, ?_⟩
    · intro q k hk
      by_cases hq : q = p
      · subst hq
        simp only [Heap.put, upd_same] at hk
        cases hk
        exact ⟨u.free, upd_same _ _ _, ⟨rfl, hr.err, .inl ⟨rfl, rfl⟩⟩⟩
      · simp only [Heap.put, upd_ne _ _ hq] at hk
        obtain ⟨w, e1, e2⟩ := r.live q k hk
        refine ⟨w, by rw [upd_ne _ _ hq]; exact e1, ⟨e2.size, e2.err, ?_⟩⟩
        rcases e2.str with e3 | ⟨b', l', e3, e4, e5⟩
        · exact .inl e3
        · refine .inr ⟨b', l', e3, e4, ?_⟩
          have hb : b' ≠ b := by
            rintro rfl
            exact hq (r.uniq q p k i b' hk hi e3 h1)
          simp only [upd_ne _ _ hb]
          exact e5
    · intro q hk
      by_cases hq : q = p
      · subst hq; simp [Heap.put, upd_same] at hk
      · simp only [Heap.put, upd_ne _ _ hq] at hk
        rw [upd_ne _ _ hq]; exact r.dead q hk
    · intro q w hw
      by_cases hq : q = p
      · subst hq; rw [upd_same] at hw; cases hw; exact okf
      · rw [upd_ne _ _ hq] at hw; exact r.ok q w hw
    · intro q q' k k' c hk hk' hb hb'
      have key : ∀ q k, upd h.impls p (some { i with str := none, size := some 0 }) q = some k →
          k.str = some c → h.impls q = some k := by
        intro q k hk hb
        by_cases hq : q = p
        · subst hq; rw [upd_same] at hk; cases hk; cases hb
        · rwa [upd_ne _ _ hq] at hk
      exact r.uniq q q' k k' c (key q k hk hb) (key q' k' hk' hb') hb hb'
    · intro c m hm
      have hc : c ≠ b := by rintro rfl; simp [upd_same] at hm
      simp only [upd_ne _ _ hc] at hm
      obtain ⟨q, k, e1, e2⟩ := r.owned c m hm
      have hq : q ≠ p := by
        rintro rfl
        rw [hi] at e1
        cases e1
        rw [h1] at e2
        cases e2
        exact hc rfl
      exact ⟨q, k, by simp only [Heap.put, upd_ne _ _ hq]; exact e1, e2⟩
    · intro q
      by_cases hq : q = p
      · subst hq
        have := r.freshImpl q
        rw [hi] at this
        simpa [Heap.put, upd_same] using this
      · simp only [Heap.put, upd_ne _ _ hq]; exact r.freshImpl q
    · intro c hc
      by_cases e : c = b
      · subst e; simp [upd_same]
      · simp only [upd_ne _ _ e]; exact r.freshBuf c hc

/-- A new buffer with the units `m`, given to the object at `p`. -/
def give (h : Heap) (p : Nat) (i : Impl) (n : Nat) (m : List (Option Nat)) : Heap :=
  { h.put p { i with str := some h.nextBuf, size := some n } with
    bufs := upd h.bufs h.nextBuf (some m), nextBuf := h.nextBuf + 1 }

theorem rel_give {h : Heap} {v : Nat → Option UImpl} (r : Rel h v) {p : Nat} {u : UImpl} {i : Impl}
    (hp : v p = some u) (hi : h.impls p = some i) (hs : i.str = none) (l : List Nat) (hl : l ≠ []) :
    Rel (give h p i l.length (l.map some)) (upd v p (some { u with str := some l, size := some l.length })) := by
  obtain ⟨i', hi', _, hr⟩ := r.get hp
  rw [hi] at hi'
  cases hi'
  have hnb : ∀ q k, h.impls q = some k → k.str ≠ some h.nextBuf := by
    intro q k hk he
    obtain ⟨w, _, e2⟩ := r.live q k hk
    rcases e2.str with e3 | ⟨b', l', e3, e4, e5⟩
    · rw [he] at e3; simp at e3
    · rw [he] at e3
      cases e3
      rw [r.freshBuf _ (Nat.le_refl _)] at e5
      cases e5
  have hbb : ∀ b l, h.bufs b = some l → b ≠ h.nextBuf := by
    rintro b l hb rfl
    rw [r.freshBuf _ (Nat.le_refl _)] at hb
    cases hb
  refine ⟨?_, ?_, ?_, ?_, ?_, ?_, ?_⟩
  · intro q k hk
    by_cases hq : q = p
    · subst hq
      simp only [give, Heap.put, upd_same] at hk
      cases hk
      exact ⟨_, upd_same _ _ _, ⟨rfl, hr.err, .inr ⟨_, _, rfl, rfl, by simp [give, upd_same]⟩⟩⟩
    · simp only [give, Heap.put, upd_ne _ _ hq] at hk
      obtain ⟨w, e1, e2⟩ := r.live q k hk
      refine ⟨w, by rw [upd_ne _ _ hq]; exact e1, ⟨e2.size, e2.err, ?_⟩⟩
      rcases e2.str with e3 | ⟨b', l', e3, e4, e5⟩
      · exact .inl e3
      · exact .inr ⟨b', l', e3, e4, by simp only [give, upd_ne _ _ (hbb _ _ e5)]; exact e5⟩
  · intro q hk
    by_cases hq : q = p
    · subst hq; simp [give, Heap.put, upd_same] at hk
    · simp only [give, Heap.put, upd_ne _ _ hq] at hk
      rw [upd_ne _ _ hq]; exact r.dead q hk
  · intro q w hw
    by_cases hq : q = p
    · subst hq
      rw [upd_same] at hw
      cases hw
      exact ⟨by simp, fun l' e => by cases e; exact ⟨hl, rfl⟩⟩
    · rw [upd_ne _ _ hq] at hw; exact r.ok q w hw
  · intro q q' k k' c hk hk' hb hb'
    by_cases hq : q = p <;> by_cases hq' : q' = p
    · rw [hq, hq']
    · exfalso
      subst hq
      simp only [give, Heap.put, upd_same] at hk
      simp only [give, Heap.put, upd_ne _ _ hq'] at hk'
      cases hk
      simp only [Option.some.injEq] at hb
      subst hb
      exact hnb q' k' hk' hb'
    · exfalso
      subst hq'
      simp only [give, Heap.put, upd_same] at hk'
      simp only [give, Heap.put, upd_ne _ _ hq] at hk
      cases hk'
      simp only [Option.some.injEq] at hb'
      subst hb'
      exact hnb q k hk hb
    · simp only [give, Heap.put, upd_ne _ _ hq] at hk
      simp only [give, Heap.put, upd_ne _ _ hq'] at hk'
      exact r.uniq q q' k k' c hk hk' hb hb'
  · intro c m hm
    by_cases hc : c = h.nextBuf
    · subst hc
      exact ⟨p, _, by simp [give, Heap.put, upd_same]; rfl, rfl⟩
    · simp only [give, upd_ne _ _ hc] at hm
      obtain ⟨q, k, e1, e2⟩ := r.owned c m hm
      have hq : q ≠ p := by
        rintro rfl
        rw [hi] at e1
        cases e1
        rw [hs] at e2
        cases e2
      exact ⟨q, k, by simp only [give, Heap.put, upd_ne _ _ hq]; exact e1, e2⟩
  · intro q
    by_cases hq : q = p
    · subst hq
      have := r.freshImpl q
      rw [hi] at this
      simpa [give, Heap.put, upd_same] using this
    · simp only [give, Heap.put, upd_ne _ _ hq]; exact r.freshImpl q
  · intro c hc
    have : c ≠ h.nextBuf := by
      rintro rfl
      simp only [give] at hc
      omega
    simp only [give, upd_ne _ _ this]
    apply r.freshBuf
    simp only [give] at hc
    omega

theorem rel_alloc {h : Heap} {v : Nat → Option UImpl} (r : Rel h v) {p : Nat} {u : UImpl} (hp : v p = some u)
    (n : Nat) : ∃ h0 i, Rel h0 (upd v p (some u.free)) ∧ h0.nextImpl = h.nextImpl ∧ h0.impls p = some i ∧
      i.str = none ∧
      alloc h p n = .ok (if n ≠ 0 then give h0 p i n (List.replicate n none) else h0) := by
  obtain ⟨h0, i, e1, e2, e3, e4, e5⟩ := rel_free r hp
  have hg : h0.get p = .ok i := by simp [Heap.get, e4]
  refine ⟨h0, i, e2, e3, e4, e5, ?_⟩
  simp only [alloc, e1, Res.bind_ok, hg, Res.pure_eq]
  by_cases hn : n ≠ 0
  · rw [if_pos hn, if_pos hn]
    rfl
  · rw [if_neg hn, if_neg hn]
    have hz : n = 0 := by omega
    have hsz : i.size = some 0 := by
      obtain ⟨w, hw, hr⟩ := e2.live p i e4
      rw [upd_same] at hw
      cases hw
      exact hr.size
    congr 1
    have : ({ i with size := some n } : Impl) = i := by rw [hz, ← hsz]
    rw [this]
    cases h0
    simp only [Heap.put, Heap.mk.injEq, and_true, true_and]
    exact upd_self _ _ _ e4

theorem load_rep {h : Heap} {i : Impl} {u : UImpl} (hr : Rep h i u) (ok : Ok u) {n : Nat} (hn : u.size = some n) :
    load h i.str n = .ok (u.str.getD []) ∧ (u.str.getD []).length = n := by
  rcases hr.str with ⟨h1, h2⟩ | ⟨b, l, h1, h2, h3⟩
  · have := ok.null h2
    rw [hn] at this
    simp at this
    subst this
    simp [load, h2]
  · have ⟨e1, e2⟩ := ok.full l h2
    rw [hn] at e2
    cases e2
    have hl : l.length ≠ 0 := by simpa using e1
    simp only [load, if_neg hl, h1, h3, List.length_map, Nat.le_refl, if_true, h2, Option.getD_some, and_true]
    have : (l.map some).take l.length = l.map some := by
      rw [List.take_of_length_le]; simp
    rw [this]
    have hm : ∀ l : List Nat, (l.map some).mapM id = some l := by
      intro l
      induction l with
      | nil => rfl
      | cons a l ih => simp [ih]
    rw [hm]

theorem store_give {h : Heap} {p : Nat} {i : Impl} {n : Nat} {m : List (Option Nat)} {off : Nat} {us : List Nat}
    (hu : us ≠ []) (hle : off + us.length ≤ m.length) :
    store (give h p i n m) (some h.nextBuf) off us =
      .ok (give h p i n (m.take off ++ us.map some ++ m.drop (off + us.length))) := by
  simp only [store, if_neg hu, give, upd_same, hle, if_true, upd_upd]

/-! ## The operations -/

theorem upd_free_get {v : Nat → Option UImpl} {p : Nat} {x : UImpl} : upd v p (some x) p = some x := upd_same _ _ _

theorem give_get (h : Heap) (p : Nat) (i : Impl) (n : Nat) (m : List (Option Nat)) :
    (give h p i n m).get p = .ok { i with str := some h.nextBuf, size := some n } := by
  simp [give, Heap.get, Heap.put, upd_same]

/-- Setting the error code. -/
theorem rel_err {h : Heap} {v : Nat → Option UImpl} (r : Rel h v) {p : Nat} {u : UImpl} (hp : v p = some u)
    (e : UErr) : ∃ i, h.get p = .ok i ∧ Rel (h.put p { i with e := e }) (upd v p (some { u with e := e })) := by
  obtain ⟨i, hi, hg, hr⟩ := r.get hp
  have ok := r.ok p u hp
  exact ⟨i, hg, rel_put r hi rfl ⟨hr.size, rfl, hr.str⟩ ⟨ok.null, ok.full⟩⟩

theorem rel_fill {h : Heap} {v : Nat → Option UImpl} (r : Rel h v) {p : Nat} {u : UImpl} (hp : v p = some u)
    (us : List Nat) (e : UErr) : ∃ h', fillNew h p us e = .ok h' ∧ h'.nextImpl = h.nextImpl ∧
      Rel h' (upd v p (some { u.allocFill us with e := e })) := by
  obtain ⟨h0, i, r0, en, ei, es, ea⟩ := rel_alloc r hp us.length
  by_cases hn : us = []
  · subst hn
    simp only [List.length_nil, ne_eq, not_true_eq_false, if_false] at ea
    obtain ⟨j, hj, rj⟩ := rel_err r0 upd_free_get e
    refine ⟨h0.put p { j with e := e }, ?_, ?_, ?_⟩
    · simp only [fillNew, List.length_nil, ea, Res.bind_ok, hj, store, if_true, Res.pure_eq]
    · exact en
    · rw [upd_upd] at rj
      exact rj
  · have hl : us.length ≠ 0 := by simpa using hn
    rw [if_pos hl] at ea
    have hst := store_give (h := h0) (p := p) (i := i) (n := us.length)
      (m := List.replicate us.length none) (off := 0) hn (by simp)
    have hm : (List.replicate us.length (none : Option Nat)).take 0 ++ us.map some ++
        (List.replicate us.length (none : Option Nat)).drop (0 + us.length) = us.map some := by simp
    rw [hm] at hst
    have r1 := rel_give r0 upd_free_get ei es us hn
    obtain ⟨j, hj, rj⟩ := rel_err r1 upd_free_get e
    refine ⟨(give h0 p i us.length (us.map some)).put p { j with e := e }, ?_, ?_, ?_⟩
    · rw [give_get] at hj
      cases hj
      simp only [fillNew, ea, Res.bind_ok, give_get, hst, Res.pure_eq]
    · exact en
    · rw [give_get] at hj
      cases hj
      rw [upd_upd, upd_upd] at rj
      simp only [UImpl.allocFill, if_pos hl]
      exact rj

theorem rel_assign {h : Heap} {v : Nat → Option UImpl} (r : Rel h v) {p q : Nat} {u w : UImpl}
    (hpq : p ≠ q) (hp : v p = some u) (hq : v q = some w) :
    ∃ h' x, assignImpl h p q = .ok h' ∧ u.copyFrom w = .ok x ∧ h'.nextImpl = h.nextImpl ∧
      Rel h' (upd v p (some x)) := by
  have okw := r.ok q w hq
  obtain ⟨h0, i, e1, r0, en, ei, es⟩ := rel_free r hp
  have hq0 : upd v p (some u.free) q = some w := by rw [upd_ne _ _ (Ne.symm hpq)]; exact hq
  obtain ⟨o, ho, hgo, hro⟩ := r0.get hq0
  have hgi : h0.get p = .ok i := by simp [Heap.get, ei]
  rcases hro.str with ⟨h1, h2⟩ | ⟨b, l, h1, h2, h3⟩
  · obtain ⟨j, hj, rj⟩ := rel_err r0 upd_free_get w.e
    rw [hgi] at hj
    cases hj
    rw [upd_upd] at rj
    refine ⟨h0.put p { i with e := w.e }, _, ?_, by simp only [UImpl.copyFrom, h2], ?_, rj⟩
    · simp only [assignImpl, if_neg hpq, e1, Res.bind_ok, hgo, h1, hgi, Res.pure_eq, hro.err]
    · exact en
  · obtain ⟨hl, hsz⟩ := okw.full l h2
    have hll : l.length ≠ 0 := by simpa using hl
    obtain ⟨g0, i', s0, sn, si, ss, sa⟩ := rel_alloc r0 upd_free_get l.length
    rw [if_pos hll] at sa
    rw [upd_upd] at s0
    have hq1 : upd v p (some u.free.free) q = some w := by rw [upd_ne _ _ (Ne.symm hpq)]; exact hq
    obtain ⟨o', ho', hgo', hro'⟩ := s0.get hq1
    have hro'' : Rep (give g0 p i' l.length (List.replicate l.length none)) o' w := by
      refine ⟨hro'.size, hro'.err, ?_⟩
      rcases hro'.str with e3 | ⟨b', l', e3, e4, e5⟩
      · exact .inl e3
      · refine .inr ⟨b', l', e3, e4, ?_⟩
        have : b' ≠ g0.nextBuf := by
          rintro rfl
          rw [s0.freshBuf _ (Nat.le_refl _)] at e5
          cases e5
        simp only [give, upd_ne _ _ this]
        exact e5
    have hgq : ∀ m, (give g0 p i' l.length m).get q = .ok o' := by
      intro m
      simp [give, Heap.get, Heap.put, upd_ne _ _ (Ne.symm hpq), ho']
    have ⟨hload, _⟩ := load_rep hro'' okw hsz
    rw [h2, Option.getD_some] at hload
    have hst := store_give (h := g0) (p := p) (i := i') (n := l.length)
      (m := List.replicate l.length none) (off := 0) hl (by simp)
    have hm : (List.replicate l.length (none : Option Nat)).take 0 ++ l.map some ++
        (List.replicate l.length (none : Option Nat)).drop (0 + l.length) = l.map some := by simp
    rw [hm] at hst
    have r1 := rel_give s0 upd_free_get si ss l hl
    obtain ⟨j, hj, rj⟩ := rel_err r1 upd_free_get w.e
    rw [give_get] at hj
    cases hj
    rw [upd_upd, upd_upd] at rj
    refine ⟨(give g0 p i' l.length (l.map some)).put p ⟨some g0.nextBuf, some l.length, w.e⟩,
      { u.allocFill l with e := w.e }, ?_, ?_, ?_, ?_⟩
    · simp only [assignImpl, if_neg hpq, e1, Res.bind_ok, hgo, h1, Impl.readSize, hro.size, hsz, sa, hgq,
        give_get, hro'.size, copyUnits, hload, hst, Res.pure_eq, hro'.err]
    · simp only [UImpl.copyFrom, h2, UImpl.readUnits, hsz, Nat.le_refl, if_true, Res.bind_ok, Res.pure_eq,
        List.take_length]
    · exact sn.trans en
    · simp only [UImpl.allocFill, if_pos hll]
      exact rj

theorem rel_dispose {h : Heap} {v : Nat → Option UImpl} (r : Rel h v) {p : Nat} {u : UImpl} (hp : v p = some u) :
    ∃ h', dispose h p = .ok h' ∧ h'.nextImpl = h.nextImpl ∧ Rel h' (upd v p (some u.dispose)) := by
  obtain ⟨h0, i, e1, r0, en, ei, es⟩ := rel_free r hp
  obtain ⟨j, hj, rj⟩ := rel_err r0 upd_free_get .zero
  rw [upd_upd] at rj
  exact ⟨h0.put p { j with e := .zero }, by simp only [dispose, e1, Res.bind_ok, hj, Res.pure_eq], en, rj⟩

/-- The buffer of `q` goes to `p`. -/
theorem rel_take {h : Heap} {v : Nat → Option UImpl} (r : Rel h v) {p q : Nat} {w : UImpl} {i o : Impl} {n : Nat}
    (hpq : p ≠ q) (hi : h.impls p = some i) (hs : i.str = none) (hq : v q = some w)
    (ho : h.impls q = some o) (hn : w.size = some n) :
    Rel ((h.put p { i with str := o.str, size := some n, e := o.e }).put q ⟨none, some 0, .zero⟩)
      (upd (upd v p (some ⟨w.str, some n, w.e⟩)) q (some ⟨none, some 0, .zero⟩)) := by
  obtain ⟨o', ho', _, hr⟩ := r.get hq
  rw [ho] at ho'
  cases ho'
  have okw := r.ok q w hq
  have back : ∀ k j b, upd (upd h.impls p (some { i with str := o.str, size := some n, e := o.e })) q
      (some ⟨none, some 0, .zero⟩) k = some j → j.str = some b →
      (k = p ∧ o.str = some b) ∨ (k ≠ p ∧ k ≠ q ∧ h.impls k = some j) := by
    intro k j b hk hb
    by_cases h1 : k = q
    · subst h1; rw [upd_same] at hk; cases hk; cases hb
    · rw [upd_ne _ _ h1] at hk
      by_cases h2 : k = p
      · subst h2; rw [upd_same] at hk; cases hk; exact .inl ⟨rfl, hb⟩
      · rw [upd_ne _ _ h2] at hk; exact .inr ⟨h2, h1, hk⟩
  refine ⟨?_, ?_, ?_, ?_, ?_, ?_, r.freshBuf⟩
  · intro k j hk
    simp only [Heap.put] at hk
    by_cases h1 : k = q
    · subst h1
      rw [upd_same] at hk
      cases hk
      exact ⟨_, upd_same _ _ _, ⟨rfl, rfl, .inl ⟨rfl, rfl⟩⟩⟩
    · rw [upd_ne _ _ h1] at hk
      rw [upd_ne _ _ h1]
      by_cases h2 : k = p
      · subst h2
        rw [upd_same] at hk
        cases hk
        exact ⟨_, upd_same _ _ _, ⟨rfl, hr.err, hr.str⟩⟩
      · rw [upd_ne _ _ h2] at hk
        rw [upd_ne _ _ h2]
        obtain ⟨x, e1, e2⟩ := r.live k j hk
        exact ⟨x, e1, ⟨e2.size, e2.err, e2.str⟩⟩
  · intro k hk
    simp only [Heap.put] at hk
    by_cases h1 : k = q
    · subst h1; rw [upd_same] at hk; cases hk
    · rw [upd_ne _ _ h1] at hk
      rw [upd_ne _ _ h1]
      by_cases h2 : k = p
      · subst h2; rw [upd_same] at hk; cases hk
      · rw [upd_ne _ _ h2] at hk
        rw [upd_ne _ _ h2]
        exact r.dead k hk
  · intro k x hx
    by_cases h1 : k = q
    · subst h1
      rw [upd_same] at hx
      cases hx
      exact ⟨fun _ => .inr rfl, by simp⟩
    · rw [upd_ne _ _ h1] at hx
      by_cases h2 : k = p
      · subst h2
        rw [upd_same] at hx
        cases hx
        refine ⟨fun e => ?_, fun l e => ?_⟩
        · have := okw.null e; rw [hn] at this; exact this
        · have := okw.full l e; rw [hn] at this; exact this
      · rw [upd_ne _ _ h2] at hx
        exact r.ok k x hx
  · intro k k' j j' b hk hk' hb hb'
    rcases back k j b hk hb with ⟨h1, h2⟩ | ⟨h1, h2, h3⟩ <;>
      rcases back k' j' b hk' hb' with ⟨h1', h2'⟩ | ⟨h1', h2', h3'⟩
    · rw [h1, h1']
    · exact absurd (r.uniq k' q j' o b h3' ho hb' h2) h2'
    · exact absurd (r.uniq k q j o b h3 ho hb h2') h2
    · exact r.uniq k k' j j' b h3 h3' hb hb'
  · intro b l hb
    obtain ⟨k, j, e1, e2⟩ := r.owned b l hb
    by_cases h1 : k = q
    · subst h1
      rw [ho] at e1
      cases e1
      refine ⟨p, { i with str := o.str, size := some n, e := o.e }, ?_, e2⟩
      simp only [Heap.put, upd_ne _ _ hpq, upd_same]
    · have h2 : k ≠ p := by
        rintro rfl
        rw [hi] at e1
        cases e1
        rw [hs] at e2
        cases e2
      exact ⟨k, j, by simp only [Heap.put, upd_ne _ _ h1, upd_ne _ _ h2]; exact e1, e2⟩
  · intro k
    simp only [Heap.put]
    by_cases h1 : k = q
    · subst h1
      have := r.freshImpl k
      rw [ho] at this
      simpa [upd_same] using this
    · rw [upd_ne _ _ h1]
      by_cases h2 : k = p
      · subst h2
        have := r.freshImpl k
        rw [hi] at this
        simpa [upd_same] using this
      · rw [upd_ne _ _ h2]; exact r.freshImpl k

theorem rel_move {h : Heap} {v : Nat → Option UImpl} (r : Rel h v) {p q : Nat} {u w : UImpl}
    (hpq : p ≠ q) (hp : v p = some u) (hq : v q = some w) :
    (w.size = none ∧ moveImpl h p q = .ub ∧ u.moveFrom w = .ub) ∨
    ∃ h' x y, moveImpl h p q = .ok h' ∧ u.moveFrom w = .ok (x, y) ∧ h'.nextImpl = h.nextImpl ∧
      Rel h' (upd (upd v p (some x)) q (some y)) := by
  obtain ⟨h0, i, e1, r0, en, ei, es⟩ := rel_free r hp
  have hq0 : upd v p (some u.free) q = some w := by rw [upd_ne _ _ (Ne.symm hpq)]; exact hq
  obtain ⟨o, ho, hgo, hro⟩ := r0.get hq0
  have hgi : h0.get p = .ok i := by simp [Heap.get, ei]
  cases hn : w.size with
  | none =>
    refine .inl ⟨rfl, ?_, by simp [UImpl.moveFrom, UImpl.readSize, hn]⟩
    simp only [moveImpl, if_neg hpq, e1, Res.bind_ok, hgo, hgi, Impl.readSize, hro.size, hn, Res.bind_ub]
  | some n =>
    have rt := rel_take r0 hpq ei es hq0 ho hn
    rw [upd_upd] at rt
    refine .inr ⟨_, _, _, ?_, by simp only [UImpl.moveFrom, UImpl.readSize, hn, Res.bind_ok, Res.pure_eq],
      ?_, rt⟩
    · simp only [moveImpl, if_neg hpq, e1, Res.bind_ok, hgo, hgi, Impl.readSize, hro.size, hn, Res.pure_eq]
    · exact en

theorem rel_plus {h : Heap} {v : Nat → Option UImpl} (r : Rel h v) {p q : Nat} {u w : UImpl}
    (hp : v p = some u) (hq : v q = some w) :
    ((u.size = none ∨ w.size = none) ∧ plus h p q = .ub ∧ u.plus w = .ub) ∨
    ∃ h' x, plus h p q = .ok (h.nextImpl, h') ∧ u.plus w = .ok x ∧ h'.nextImpl = h.nextImpl + 1 ∧
      x = UImpl.ofUnits (u.str.getD [] ++ w.str.getD []) ∧ Rel h' (upd v h.nextImpl (some x)) := by
  obtain ⟨l, hl, hgl, hrl⟩ := r.get hp
  obtain ⟨o, ho, hgo, hro⟩ := r.get hq
  have oku := r.ok p u hp
  have okw := r.ok q w hq
  have hread : ∀ u : UImpl, Ok u → ∀ n, u.size = some n → u.readUnits = .ok (u.str.getD []) := by
    intro u ok n hn
    cases hs : u.str with
    | none =>
      have := ok.null hs
      rw [hn] at this
      simp at this
      simp [UImpl.readUnits, hs, hn, this]
    | some m =>
      have := (ok.full m hs).2
      simp [UImpl.readUnits, hs, this]
  cases hn : u.size with
  | none =>
    exact .inl ⟨.inl rfl, by simp [plus, hgl, Impl.readSize, hrl.size, hn],
      by simp [UImpl.plus, UImpl.readUnits, hn]⟩
  | some n =>
    cases hm : w.size with
    | none =>
      exact .inl ⟨.inr rfl, by simp [plus, hgl, hgo, Impl.readSize, hrl.size, hro.size, hn, hm],
        by simp [UImpl.plus, hread u oku n hn]; simp [UImpl.readUnits, hm]⟩
    | some m =>
      have r1 := rel_new r
      have hfr : h.nextImpl ≠ p := by have := r.lt hp; omega
      have hfr' : h.nextImpl ≠ q := by have := r.lt hq; omega
      obtain ⟨h0, i, r0, en, ei, es, ea⟩ := rel_alloc r1 (p := h.nextImpl) upd_free_get (n + m)
      rw [upd_upd] at r0
      have hp0 : upd v h.nextImpl (some UImpl.default.free) p = some u := by
        rw [upd_ne _ _ (Ne.symm hfr)]; exact hp
      have hq0 : upd v h.nextImpl (some UImpl.default.free) q = some w := by
        rw [upd_ne _ _ (Ne.symm hfr')]; exact hq
      -- the buffers of the operands are where they were
      have keep : ∀ (a : Nat) (x : UImpl) (j : Impl) (ms : List (Option Nat)), v a = some x → h.impls a = some j →
          Rep (give h0 h.nextImpl i (n + m) ms) j x := by
        intro a x j ms ha hj
        have hfa : h.nextImpl ≠ a := by have := r.lt ha; omega
        have ha0 : upd v h.nextImpl (some UImpl.default.free) a = some x := by
          rw [upd_ne _ _ (Ne.symm hfa)]; exact ha
        obtain ⟨j', hj', _, hr'⟩ := r0.get ha0
        have hsame : h0.impls a = h.impls a := by
          have hnew : (newImpl h).2.impls h.nextImpl = some ⟨none, none, .zero⟩ := by simp [newImpl, upd_same]
          have hgn : (newImpl h).2.get h.nextImpl = .ok ⟨none, none, .zero⟩ := by simp [Heap.get, hnew]
          have hfree : freeStr (newImpl h).2 h.nextImpl =
              .ok ((newImpl h).2.put h.nextImpl ⟨none, some 0, .zero⟩) := by
            simp only [freeStr, hgn, Res.bind_ok, Res.pure_eq]
          have hgf : ((newImpl h).2.put h.nextImpl ⟨none, some 0, .zero⟩).get h.nextImpl =
              .ok ⟨none, some 0, .zero⟩ := by simp [Heap.get, Heap.put, upd_same]
          have ha' : ∀ k, k ≠ h.nextImpl → h0.impls k = h.impls k := by
            intro k hk
            simp only [alloc, hfree, Res.bind_ok, hgf, Res.pure_eq] at ea
            by_cases hz : n + m ≠ 0
            · rw [if_pos hz, if_pos hz] at ea
              have e := congrArg (fun r => match r with | Res.ok g => Heap.impls g k | _ => none) ea
              simp only [give, Heap.put, newImpl, upd_ne _ _ hk] at e
              exact e.symm
            · rw [if_neg hz, if_neg hz] at ea
              have e := congrArg (fun r => match r with | Res.ok g => Heap.impls g k | _ => none) ea
              simp only [Heap.put, newImpl, upd_ne _ _ hk] at e
              exact e.symm
          exact ha' a (Ne.symm hfa)
        rw [hsame, hj] at hj'
        cases hj'
        refine ⟨hr'.size, hr'.err, ?_⟩
        rcases hr'.str with e3 | ⟨b', l', e3, e4, e5⟩
        · exact .inl e3
        · refine .inr ⟨b', l', e3, e4, ?_⟩
          have : b' ≠ h0.nextBuf := by
            rintro rfl
            rw [r0.freshBuf _ (Nat.le_refl _)] at e5
            cases e5
          simp only [give, upd_ne _ _ this]
          exact e5
      have hplus : u.plus w = .ok (UImpl.ofUnits (u.str.getD [] ++ w.str.getD [])) := by
        simp [UImpl.plus, hread u oku n hn, hread w okw m hm, UImpl.ofUnits]
      have hlu := (load_rep hrl oku hn).2
      have hlw := (load_rep hro okw hm).2
      have hnew1 : (newImpl h).1 = h.nextImpl := rfl
      by_cases hz : n + m ≠ 0
      · rw [if_pos hz] at ea
        have hlen : (u.str.getD [] ++ w.str.getD []).length = n + m := by simp [hlu, hlw]
        have hne : u.str.getD [] ++ w.str.getD [] ≠ [] := by
          intro hc; rw [hc] at hlen; simp at hlen; omega
        have rg := rel_give r0 upd_free_get ei es _ hne
        rw [upd_upd, hlen] at rg
        -- the two copies
        have hc1 : (if n ≠ 0 then copyUnits (give h0 h.nextImpl i (n + m) (List.replicate (n + m) none)) l.str n
              (some h0.nextBuf) 0 else .ok (give h0 h.nextImpl i (n + m) (List.replicate (n + m) none))) =
            .ok (give h0 h.nextImpl i (n + m) ((u.str.getD []).map some ++ List.replicate m none)) := by
          by_cases hn0 : n ≠ 0
          · rw [if_pos hn0]
            have hl1 := (load_rep (keep p u l (List.replicate (n + m) none) hp hl) oku hn).1
            have hne1 : u.str.getD [] ≠ [] := by
              intro hc; rw [hc] at hlu; simp at hlu; omega
            simp only [copyUnits, hl1, Res.bind_ok]
            rw [store_give hne1 (by simp [hlu])]
            simp [hlu]
          · have hn0 : n = 0 := by omega
            subst hn0
            have : u.str.getD [] = [] := List.eq_nil_of_length_eq_zero hlu
            simp [this]
        have hc2 : (if m ≠ 0 then copyUnits
              (give h0 h.nextImpl i (n + m) ((u.str.getD []).map some ++ List.replicate m none)) o.str m
              (some h0.nextBuf) n
              else .ok (give h0 h.nextImpl i (n + m) ((u.str.getD []).map some ++ List.replicate m none))) =
            .ok (give h0 h.nextImpl i (n + m) ((u.str.getD [] ++ w.str.getD []).map some)) := by
          by_cases hm0 : m ≠ 0
          · rw [if_pos hm0]
            have hl1 := (load_rep (keep q w o ((u.str.getD []).map some ++ List.replicate m none) hq ho) okw hm).1
            have hne1 : w.str.getD [] ≠ [] := by
              intro hc; rw [hc] at hlw; simp at hlw; omega
            simp only [copyUnits, hl1, Res.bind_ok]
            rw [store_give hne1 (by simp [hlu, hlw])]
            have e1 : ((u.str.getD []).map some ++ List.replicate m (none : Option Nat)).take n =
                (u.str.getD []).map some := by
              rw [List.take_append_of_le_length (by simp [hlu])]
              rw [List.take_of_length_le (by simp [hlu])]
            have e2 : ((u.str.getD []).map some ++ List.replicate m (none : Option Nat)).drop
                (n + (w.str.getD []).length) = [] := by
              apply List.drop_of_length_le
              simp [hlu, hlw]
            rw [e1, e2]
            simp
          · have hm0 : m = 0 := by omega
            subst hm0
            have : w.str.getD [] = [] := List.eq_nil_of_length_eq_zero hlw
            simp [this]
        refine .inr ⟨give h0 h.nextImpl i (n + m) ((u.str.getD [] ++ w.str.getD []).map some), _, ?_, hplus, ?_,
          rfl, ?_⟩
        · simp only [plus, hgl, hgo, Impl.readSize, hrl.size, hro.size, hn, hm, Res.bind_ok, hnew1, ea,
            give_get, hc1, hc2, Res.pure_eq]
        · exact en
        · have : UImpl.ofUnits (u.str.getD [] ++ w.str.getD []) =
              { UImpl.default.free with str := some (u.str.getD [] ++ w.str.getD []), size := some (n + m) } := by
            simp only [UImpl.ofUnits, UImpl.allocFill, hlen, if_pos hz]
          rw [this]
          exact rg
      · have hn0 : n = 0 := by omega
        have hm0 : m = 0 := by omega
        subst hn0 hm0
        have e1 : u.str.getD [] = [] := List.eq_nil_of_length_eq_zero hlu
        have e2 : w.str.getD [] = [] := List.eq_nil_of_length_eq_zero hlw
        rw [if_neg hz] at ea
        have hgs : h0.get h.nextImpl = .ok i := by simp [Heap.get, ei]
        refine .inr ⟨h0, _, ?_, hplus, ?_, rfl, ?_⟩
        · simp only [Nat.add_zero] at ea
          simp only [plus, hgl, hgo, Impl.readSize, hrl.size, hro.size, hn, hm, Res.bind_ok, hnew1, Nat.add_zero,
            ea, hgs, ne_eq, not_true_eq_false, if_false, Res.pure_eq]
        · exact en
        · rw [e1, e2]
          exact r0

theorem rel_plusAssign {h : Heap} {v : Nat → Option UImpl} (r : Rel h v) {p q : Nat} {u w : UImpl}
    (hp : v p = some u) (hq : v q = some w) :
    ((u.size = none ∨ w.size = none) ∧ plusAssign h p q = .ub) ∨
    (∃ h' x, plusAssign h p q = .ok h' ∧ x.str.getD [] = u.str.getD [] ++ w.str.getD [] ∧
      (u.size ≠ none → x.size ≠ none) ∧
      ((h'.nextImpl = h.nextImpl ∧ (u.str.getD [] = [] ∨ w.str.getD [] = []) ∧ Rel h' (upd v p (some x))) ∨
       (h'.nextImpl = h.nextImpl + 1 ∧ (u.str.getD [] ≠ [] ∧ w.str.getD [] ≠ []) ∧ p ≠ h.nextImpl ∧ ∃ t, t.str = none ∧
         Rel h' (upd (upd v h.nextImpl (some t)) p (some x))))) := by
  obtain ⟨l, hl, hgl, hrl⟩ := r.get hp
  obtain ⟨o, ho, hgo, hro⟩ := r.get hq
  have oku := r.ok p u hp
  have okw := r.ok q w hq
  cases hm : w.size with
  | none => exact .inl ⟨.inr rfl, by simp [plusAssign, hgo, Impl.readSize, hro.size, hm]⟩
  | some m =>
    have hlw := (load_rep hro okw hm).2
    by_cases hm0 : m = 0
    · subst hm0
      have e2 : w.str.getD [] = [] := List.eq_nil_of_length_eq_zero hlw
      refine .inr ⟨h, u, by simp [plusAssign, hgo, hgl, Impl.readSize, hro.size, hm], by simp [e2], id,
        .inl ⟨rfl, .inr e2, ?_⟩⟩
      rw [upd_self _ _ _ hp]
      exact r
    · cases hn : u.size with
      | none => exact .inl ⟨.inl rfl, by simp [plusAssign, hgo, hgl, Impl.readSize, hro.size, hrl.size, hm, hn, hm0]⟩
      | some n =>
        have hlu := (load_rep hrl oku hn).2
        by_cases hn0 : n = 0
        · subst hn0
          have e1 : u.str.getD [] = [] := List.eq_nil_of_length_eq_zero hlu
          have hpq : p ≠ q := by
            rintro rfl
            rw [hp] at hq
            cases hq
            rw [hn] at hm
            cases hm
            exact hm0 rfl
          obtain ⟨h', x, a1, a2, a3, a4⟩ := rel_assign r hpq hp hq
          have hx : x.str.getD [] = w.str.getD [] ∧ x.size ≠ none := by
            unfold UImpl.copyFrom at a2
            cases hs : w.str with
            | none =>
              rw [hs] at a2
              cases a2
              simp [UImpl.free]
            | some k =>
              rw [hs] at a2
              have := okw.full k hs
              simp only [UImpl.readUnits, hs, this.2, Nat.le_refl, if_true, Res.bind_ok, Res.pure_eq,
                List.take_length] at a2
              cases a2
              have hk : k.length ≠ 0 := by simpa using this.1
              simp [UImpl.allocFill, hk, this.1]
          refine .inr ⟨h', x, ?_, by rw [e1, hx.1]; rfl, fun _ => hx.2, .inl ⟨a3, .inl e1, a4⟩⟩
          simp only [plusAssign, hgo, hgl, Impl.readSize, hro.size, hrl.size, hm, hn, Res.bind_ok, if_neg hm0,
            if_true]
          exact a1
        · have hps : p ≠ h.nextImpl := by have := r.lt hp; omega
          rcases rel_plus r hp hq with ⟨hc, _⟩ | ⟨h1, x, b1, b2, b3, b4, b5⟩
          · rw [hn, hm] at hc; simp at hc
          · have hp1 : upd v h.nextImpl (some x) p = some u := by rw [upd_ne _ _ hps]; exact hp
            obtain ⟨h2, y, c1, c2, c3, c4⟩ := rel_assign b5 hps hp1 upd_free_get
            have hs2 : upd (upd v h.nextImpl (some x)) p (some y) h.nextImpl = some x := by
              rw [upd_ne _ _ (Ne.symm hps)]; exact upd_same _ _ _
            obtain ⟨h3, d1, d2, d3⟩ := rel_dispose c4 hs2
            have hlen : (u.str.getD [] ++ w.str.getD []).length ≠ 0 := by simp [hlu, hlw]; omega
            have hne : u.str.getD [] ++ w.str.getD [] ≠ [] := by
              intro hc; rw [hc] at hlen; exact hlen rfl
            have hxs : x.str = some (u.str.getD [] ++ w.str.getD []) ∧
                x.size = some (u.str.getD [] ++ w.str.getD []).length := by
              rw [b4]
              simp only [UImpl.ofUnits, UImpl.allocFill, if_pos hlen]
              exact ⟨trivial, trivial⟩
            have hy : y.str = some (u.str.getD [] ++ w.str.getD []) ∧ y.size ≠ none := by
              unfold UImpl.copyFrom at c2
              rw [hxs.1] at c2
              simp only [UImpl.readUnits, hxs.1, hxs.2, Nat.le_refl, if_true, Res.bind_ok, Res.pure_eq,
                List.take_length] at c2
              cases c2
              simp only [UImpl.allocFill, if_pos hlen]
              exact ⟨trivial, by simp⟩
            refine .inr ⟨h3, y, ?_, by rw [hy.1]; rfl, fun _ => hy.2,
              .inr ⟨?_, ⟨?_, ?_⟩, hps, x.dispose, rfl, ?_⟩⟩
            · simp only [plusAssign, hgo, hgl, Impl.readSize, hro.size, hrl.size, hm, hn, Res.bind_ok, if_neg hm0,
                if_neg hn0, b1, c1, dtor, d1]
            · rw [d2, c3, b3]
            · intro hc; rw [hc] at hlu; exact hn0 hlu.symm
            · intro hc; rw [hc] at hlw; exact hm0 hlw.symm
            · rw [upd_comm _ _ _ hps, upd_upd] at d3
              exact d3

/-! ## Constructors -/

theorem new_get (h : Heap) : (newImpl h).2.get h.nextImpl = .ok ⟨none, none, .zero⟩ := by
  simp [newImpl, Heap.get, upd_same]

theorem put_put (h : Heap) (p : Nat) (i j : Impl) : (h.put p i).put p j = h.put p j := by
  simp only [Heap.put, upd_upd]

theorem rel_units {h : Heap} {v : Nat → Option UImpl} (r : Rel h v) (us : List Nat) :
    ∃ h' x, ctorUnits h us = .ok (h.nextImpl, h') ∧ x = UImpl.ofUnits us ∧ h'.nextImpl = h.nextImpl + 1 ∧
      Rel h' (upd v h.nextImpl (some x)) := by
  obtain ⟨h', e1, e2, e3⟩ := rel_fill (rel_new r) (p := h.nextImpl) upd_free_get us .zero
  rw [upd_upd] at e3
  have hn : (newImpl h).1 = h.nextImpl := rfl
  exact ⟨h', _, by simp only [ctorUnits, hn, e1, Res.bind_ok, Res.pure_eq], rfl, e2, e3⟩

/-- The length that ICU stores in `size` before the buffer exists does not matter. -/
theorem fill_size (h : Heap) (n : Nat) (us : List Nat) (e : UErr) :
    fillNew ((newImpl h).2.put h.nextImpl ⟨none, some n, .zero⟩) h.nextImpl us e =
      fillNew (newImpl h).2 h.nextImpl us e := by
  have h1 : freeStr ((newImpl h).2.put h.nextImpl ⟨none, some n, .zero⟩) h.nextImpl =
      freeStr (newImpl h).2 h.nextImpl := by
    have hg : ((newImpl h).2.put h.nextImpl ⟨none, some n, .zero⟩).get h.nextImpl = .ok ⟨none, some n, .zero⟩ := by
      simp [Heap.get, Heap.put, upd_same]
    simp only [freeStr, hg, new_get, Res.bind_ok, put_put]
  simp only [fillNew, alloc, h1]

theorem rel_fail {h : Heap} {v : Nat → Option UImpl} (r : Rel h v) :
    Rel ((newImpl h).2.put h.nextImpl ⟨none, none, .fail⟩)
      (upd v h.nextImpl (some { UImpl.default with e := .fail })) := by
  obtain ⟨i, hi, ri⟩ := rel_err (rel_new r) (p := h.nextImpl) upd_free_get .fail
  rw [new_get] at hi
  cases hi
  rw [upd_upd] at ri
  exact ri

theorem rel_utf8 {h : Heap} {v : Nat → Option UImpl} (r : Rel h v) (bs : List Nat) :
    ∃ h' x, ctorUtf8 h bs = .ok (h.nextImpl, h') ∧ x = UImpl.ofUtf8 bs ∧ h'.nextImpl = h.nextImpl + 1 ∧
      Rel h' (upd v h.nextImpl (some x)) := by
  have hn : (newImpl h).1 = h.nextImpl := rfl
  cases hd : utf8Decode bs with
  | none =>
    exact ⟨_, _, by simp only [ctorUtf8, hn, hd, new_get, Res.bind_ok, Res.pure_eq],
      by simp only [UImpl.ofUtf8, hd], rfl, rel_fail r⟩
  | some cs =>
    obtain ⟨h', e1, e2, e3⟩ := rel_fill (rel_new r) (p := h.nextImpl) upd_free_get (utf16Encode cs) .warn
    rw [upd_upd] at e3
    exact ⟨h', _, by simp only [ctorUtf8, hn, hd, new_get, fill_size, e1, Res.bind_ok, Res.pure_eq],
      by simp only [UImpl.ofUtf8, hd], e2, e3⟩

theorem rel_utf32 {h : Heap} {v : Nat → Option UImpl} (r : Rel h v) (cs : List Nat) :
    ∃ h' x, ctorUtf32 h cs = .ok (h.nextImpl, h') ∧ x = UImpl.ofUtf32 cs ∧ h'.nextImpl = h.nextImpl + 1 ∧
      Rel h' (upd v h.nextImpl (some x)) := by
  have hn : (newImpl h).1 = h.nextImpl := rfl
  cases hd : cs.all (fun c => decide (c < 0xd800) || (decide (0xe000 ≤ c) && decide (c ≤ 0x10ffff))) with
  | false =>
    exact ⟨_, _, by simp only [ctorUtf32, hn, hd, Bool.false_eq_true, if_false, new_get, Res.bind_ok, Res.pure_eq],
      by simp only [UImpl.ofUtf32, hd, Bool.false_eq_true, if_false], rfl, rel_fail r⟩
  | true =>
    obtain ⟨h', e1, e2, e3⟩ := rel_fill (rel_new r) (p := h.nextImpl) upd_free_get (utf16Encode cs) .warn
    rw [upd_upd] at e3
    exact ⟨h', _, by simp only [ctorUtf32, hn, hd, if_true, new_get, fill_size, e1, Res.bind_ok, Res.pure_eq],
      by simp only [UImpl.ofUtf32, hd, if_true], e2, e3⟩

/-- Copying keeps the units and gives a size. -/
theorem copyFrom_val {u w x : UImpl} (ok : Ok w) (h : u.copyFrom w = .ok x) :
    x.str.getD [] = w.str.getD [] ∧ x.size ≠ none := by
  unfold UImpl.copyFrom at h
  cases hs : w.str with
  | none =>
    rw [hs] at h
    cases h
    simp [UImpl.free]
  | some k =>
    rw [hs] at h
    have := ok.full k hs
    simp only [UImpl.readUnits, hs, this.2, Nat.le_refl, if_true, Res.bind_ok, Res.pure_eq,
      List.take_length] at h
    cases h
    have hk : k.length ≠ 0 := by simpa using this.1
    simp [UImpl.allocFill, hk, this.1]

theorem rel_copy {h : Heap} {v : Nat → Option UImpl} (r : Rel h v) {q : Nat} {w : UImpl} (hq : v q = some w) :
    ∃ h' x, ctorCopy h q = .ok (h.nextImpl, h') ∧ x.str.getD [] = w.str.getD [] ∧ x.size ≠ none ∧
      h'.nextImpl = h.nextImpl + 1 ∧ Rel h' (upd v h.nextImpl (some x)) := by
  have hn : (newImpl h).1 = h.nextImpl := rfl
  have hne : h.nextImpl ≠ q := by have := r.lt hq; omega
  have hq' : upd v h.nextImpl (some UImpl.default) q = some w := by rw [upd_ne _ _ (Ne.symm hne)]; exact hq
  obtain ⟨h', x, e1, e2, e3, e4⟩ := rel_assign (rel_new r) hne upd_free_get hq'
  rw [upd_upd] at e4
  have := copyFrom_val (r.ok q w hq) e2
  exact ⟨h', x, by simp only [ctorCopy, hn, e1, Res.bind_ok, Res.pure_eq], this.1, this.2, e3, e4⟩

theorem moveFrom_val {u w x y : UImpl} (h : u.moveFrom w = .ok (x, y)) :
    x.str = w.str ∧ x.size ≠ none ∧ y.str = none ∧ y.size ≠ none := by
  unfold UImpl.moveFrom UImpl.readSize at h
  cases hs : w.size with
  | none => rw [hs] at h; simp at h
  | some n => rw [hs] at h; simp at h; obtain ⟨rfl, rfl⟩ := h; simp

theorem rel_ctorMove {h : Heap} {v : Nat → Option UImpl} (r : Rel h v) {q : Nat} {w : UImpl} (hq : v q = some w) :
    (w.size = none ∧ ctorMove h q = .ub) ∨
    ∃ h' x y, ctorMove h q = .ok (h.nextImpl, h') ∧ x.str = w.str ∧ x.size ≠ none ∧ y.str = none ∧
      y.size ≠ none ∧ h'.nextImpl = h.nextImpl + 1 ∧ Rel h' (upd (upd v q (some y)) h.nextImpl (some x)) := by
  have hn : (newImpl h).1 = h.nextImpl := rfl
  have hne : h.nextImpl ≠ q := by have := r.lt hq; omega
  have hq' : upd v h.nextImpl (some UImpl.default) q = some w := by rw [upd_ne _ _ (Ne.symm hne)]; exact hq
  rcases rel_move (rel_new r) hne upd_free_get hq' with ⟨e1, e2, _⟩ | ⟨h', x, y, e1, e2, e3, e4⟩
  · exact .inl ⟨e1, by simp only [ctorMove, hn, e2, Res.bind_ub]⟩
  · rw [upd_upd, upd_comm _ _ _ hne] at e4
    obtain ⟨a1, a2, a3, a4⟩ := moveFrom_val e2
    exact .inr ⟨h', x, y, by simp only [ctorMove, hn, e1, Res.bind_ok, Res.pure_eq], a1, a2, a3, a4, e3, e4⟩

/-! ## Programs -/

/-- The variables and the values of their objects; objects that belong to no variable have no buffer. -/
structure Vars (obj : Nat → Option Nat) (σ : Strings) (v : Nat → Option UImpl) : Prop where
  alive : ∀ o p, obj o = some p → ∃ u, v p = some u ∧ σ o = some (u.str.getD [])
  dead : ∀ o, obj o = none → σ o = none
  inj : ∀ o o' p, obj o = some p → obj o' = some p → o = o'
  left : ∀ p u, v p = some u → (∀ o, obj o ≠ some p) → u.str = none

theorem Vars.init : Vars (fun _ => none) (fun _ => none) (fun _ => none) :=
  ⟨by simp, by simp, by simp, by simp⟩

theorem Vars.use {obj : Nat → Option Nat} {σ : Strings} {v : Nat → Option UImpl} (S : Vars obj σ v) {o : Nat} (ho : σ o ≠ none) :
    ∃ p u, obj o = some p ∧  v p = some u ∧ σ o = some (u.str.getD []) ∧
      σ.val o = u.str.getD [] := by
  cases h : obj o with
  | none => exact absurd (S.dead o h) ho
  | some p =>
    obtain ⟨u, h1, h2⟩ := S.alive o p h
    exact ⟨p, u, rfl, h1, h2, by simp [Strings.val, h2]⟩

theorem Vars.free {obj : Nat → Option Nat} {σ : Strings} {v : Nat → Option UImpl} (S : Vars obj σ v) {o : Nat} (ho : σ o = none) :
    obj o = none := by
  cases h : obj o with
  | none => rfl
  | some p => obtain ⟨u, _, h2⟩ := S.alive o p h; rw [ho] at h2; cases h2

/-- All variables have a size. -/
def AllSized (obj : Nat → Option Nat) (v : Nat → Option UImpl) : Prop :=
  ∀ o p u, obj o = some p → v p = some u → u.size ≠ none

/-- A variable's object gets a new value. -/
theorem Vars.set {obj : Nat → Option Nat} {σ : Strings} {v : Nat → Option UImpl} (S : Vars obj σ v) {o p : Nat} (ho : obj o = some p)
    (x : UImpl) :
    Vars obj (upd σ o (some (x.str.getD []))) (upd v p (some x)) ∧
    (x.size ≠ none → AllSized obj v → AllSized obj (upd v p (some x))) := by
  refine ⟨⟨?_, ?_, S.inj, ?_⟩, ?_⟩
  · intro o' p' h
    by_cases hp : p' = p
    · subst hp
      cases S.inj o o' p' ho h
      exact ⟨x, upd_same _ _ _, upd_same _ _ _⟩
    · have ho' : o' ≠ o := by rintro rfl; rw [ho] at h; cases h; exact hp rfl
      rw [upd_ne _ _ hp, upd_ne _ _ ho']
      exact S.alive o' p' h
  · intro o' h
    have ho' : o' ≠ o := by rintro rfl; rw [ho] at h; cases h
    rw [upd_ne _ _ ho']
    exact S.dead o' h
  · intro p' u hu hn
    by_cases hp : p' = p
    · subst hp; exact absurd ho (hn o)
    · rw [upd_ne _ _ hp] at hu; exact S.left p' u hu hn
  · intro hx ha o' p' u h hu
    by_cases hp : p' = p
    · subst hp; rw [upd_same] at hu; cases hu; exact hx
    · rw [upd_ne _ _ hp] at hu; exact ha o' p' u h hu

/-- A new variable. -/
theorem Vars.add {obj : Nat → Option Nat} {σ : Strings} {v : Nat → Option UImpl} (S : Vars obj σ v) {o : Nat} (ho : obj o = none)
    {p : Nat} (hp : v p = none) (x : UImpl) :
    Vars (upd obj o (some p)) (upd σ o (some (x.str.getD []))) (upd v p (some x)) ∧
    (x.size ≠ none → AllSized obj v → AllSized (upd obj o (some p)) (upd v p (some x))) := by
  have hno : ∀ o', obj o' ≠ some p := by
    intro o' h
    obtain ⟨u, h1, _⟩ := S.alive o' p h
    rw [hp] at h1; cases h1
  refine ⟨⟨?_, ?_, ?_, ?_⟩, ?_⟩
  · intro o' p' h
    by_cases e : o' = o
    · subst e
      simp only [upd_same] at h
      cases h
      exact ⟨x, upd_same _ _ _, upd_same _ _ _⟩
    · simp only [upd_ne _ _ e] at h
      have hp' : p' ≠ p := by rintro rfl; exact hno o' h
      rw [upd_ne _ _ hp', upd_ne _ _ e]
      exact S.alive o' p' h
  · intro o' h
    by_cases e : o' = o
    · subst e; simp [upd_same] at h
    · simp only [upd_ne _ _ e] at h
      rw [upd_ne _ _ e]; exact S.dead o' h
  · intro o1 o2 q h1 h2
    by_cases e1 : o1 = o <;> by_cases e2 : o2 = o
    · rw [e1, e2]
    · subst e1
      simp only [upd_same] at h1
      simp only [upd_ne _ _ e2] at h2
      cases h1
      exact absurd h2 (hno o2)
    · subst e2
      simp only [upd_same] at h2
      simp only [upd_ne _ _ e1] at h1
      cases h2
      exact absurd h1 (hno o1)
    · simp only [upd_ne _ _ e1] at h1
      simp only [upd_ne _ _ e2] at h2
      exact S.inj o1 o2 q h1 h2
  · intro p' u hu hn
    by_cases e : p' = p
    · subst e; exact absurd (upd_same _ _ _) (hn o)
    · rw [upd_ne _ _ e] at hu
      refine S.left p' u hu fun o' h => ?_
      have e' : o' ≠ o := by rintro rfl; rw [ho] at h; cases h
      exact hn o' (by simp only [upd_ne _ _ e']; exact h)
  · intro hx ha o' p' u h hu
    by_cases e : p' = p
    · subst e; rw [upd_same] at hu; cases hu; exact hx
    · rw [upd_ne _ _ e] at hu
      have e' : o' ≠ o := by
        rintro rfl
        simp only [upd_same] at h
        cases h
        exact e rfl
      simp only [upd_ne _ _ e'] at h
      exact ha o' p' u h hu

/-- An object that belongs to no variable. -/
theorem Vars.temp {obj : Nat → Option Nat} {σ : Strings} {v : Nat → Option UImpl} (S : Vars obj σ v) {t : Nat} {x : UImpl}
    (ht : v t = none) (hx : x.str = none) :
    Vars obj σ (upd v t (some x)) ∧
    (AllSized obj v → AllSized obj (upd v t (some x))) := by
  have hno : ∀ o', obj o' ≠ some t := by
    intro o' h
    obtain ⟨u, h1, _⟩ := S.alive o' t h
    rw [ht] at h1; cases h1
  refine ⟨⟨?_, S.dead, S.inj, ?_⟩, ?_⟩
  · intro o p h
    have : p ≠ t := by rintro rfl; exact hno o h
    rw [upd_ne _ _ this]
    exact S.alive o p h
  · intro p u hu hn
    by_cases e : p = t
    · subst e; rw [upd_same] at hu; cases hu; exact hx
    · rw [upd_ne _ _ e] at hu; exact S.left p u hu hn
  · intro ha o p u h hu
    have : p ≠ t := by rintro rfl; exact hno o h
    rw [upd_ne _ _ this] at hu
    exact ha o p u h hu

/-- A variable that is destroyed leaves an object without a buffer. -/
theorem Vars.del {obj : Nat → Option Nat} {σ : Strings} {v : Nat → Option UImpl} (S : Vars obj σ v) {o p : Nat}
    (ho : obj o = some p) {x : UImpl} (hx : x.str = none) :
    Vars (upd obj o none) (upd σ o none) (upd v p (some x)) ∧
    (AllSized obj v → AllSized (upd obj o none) (upd v p (some x))) := by
  have key : ∀ o' p', upd obj o none o' = some p' → o' ≠ o ∧ obj o' = some p' ∧ p' ≠ p := by
    intro o' p' h
    by_cases e : o' = o
    · subst e; rw [upd_same] at h; cases h
    · rw [upd_ne _ _ e] at h
      exact ⟨e, h, by rintro rfl; exact e (S.inj o' o p' h ho)⟩
  refine ⟨⟨?_, ?_, ?_, ?_⟩, ?_⟩
  · intro o' p' h
    obtain ⟨e, h1, h2⟩ := key o' p' h
    rw [upd_ne _ _ e, upd_ne _ _ h2]
    exact S.alive o' p' h1
  · intro o' h
    by_cases e : o' = o
    · subst e; exact upd_same _ _ _
    · rw [upd_ne _ _ e] at h
      rw [upd_ne _ _ e]; exact S.dead o' h
  · intro o1 o2 q h1 h2
    exact S.inj o1 o2 q (key o1 q h1).2.1 (key o2 q h2).2.1
  · intro p' u hu hn
    by_cases e : p' = p
    · subst e; rw [upd_same] at hu; cases hu; exact hx
    · rw [upd_ne _ _ e] at hu
      refine S.left p' u hu fun o' h => ?_
      by_cases e' : o' = o
      · subst e'; rw [ho] at h; cases h; exact e rfl
      · exact hn o' (by rw [upd_ne _ _ e']; exact h)
  · intro ha o' p' u h hu
    obtain ⟨e, h1, h2⟩ := key o' p' h
    rw [upd_ne _ _ h2] at hu
    exact ha o' p' u h1 hu

theorem utf8_val (bs : List Nat) : (UImpl.ofUtf8 bs).str.getD [] = utf8Value bs := by
  unfold UImpl.ofUtf8 utf8Value
  cases utf8Decode bs with
  | none => rfl
  | some cs =>
    simp only [UImpl.allocFill]
    split
    · rfl
    · rename_i h
      have : utf16Encode cs = [] := by simpa using h
      rw [this]; rfl

theorem units_val (us : List Nat) : (UImpl.ofUnits us).str.getD [] = us := by
  unfold UImpl.ofUnits UImpl.allocFill
  simp only
  split
  · rfl
  · rename_i h
    have : us = [] := by simpa using h
    rw [this]; rfl

theorem all_iff (cs : List Nat) :
    cs.all (fun c => decide (c < 0xd800) || (decide (0xe000 ≤ c) && decide (c ≤ 0x10ffff))) = true ↔
      ∀ c ∈ cs, c < 0xd800 ∨ (0xe000 ≤ c ∧ c ≤ 0x10ffff) := by
  simp [List.all_eq_true]

theorem utf32_val (cs : List Nat) : (UImpl.ofUtf32 cs).str.getD [] = utf32Value cs := by
  unfold UImpl.ofUtf32 utf32Value
  by_cases h : ∀ c ∈ cs, c < 0xd800 ∨ (0xe000 ≤ c ∧ c ≤ 0x10ffff)
  · rw [if_pos h, if_pos ((all_iff cs).2 h)]
    exact units_val (utf16Encode cs)
  · rw [if_neg h, if_neg (fun hc => h ((all_iff cs).1 hc))]
    rfl

theorem use_ok {s : St} {o p : Nat} (h : s.obj o = some p) : s.use o = .ok p := by simp [St.use, h]

/-- One allowed operation: it is undefined only if a string has no size; otherwise the values are as
expected, and the number of `ustr_impl` objects made is `made`. -/
theorem step_rel {s : St} {σ : Strings} {v : Nat → Option UImpl} (r : Rel s.heap v) (S : Vars s.obj σ v) (op : Op)
    (ha : σ.Allows op) :
    (step s op = .ub ∧ ¬ AllSized s.obj v) ∨
    ∃ s' v', step s op = .ok s' ∧ Rel s'.heap v' ∧ Vars s'.obj (σ.apply op) v' ∧
      s'.heap.nextImpl = s.heap.nextImpl + σ.made op ∧
      (Sized op → AllSized s.obj v → AllSized s'.obj v') := by
  have hfr := r.fresh
  cases op with
  | default o =>
    have ho := S.free ha
    have := S.add ho hfr UImpl.default
    exact .inr ⟨⟨upd s.obj o (some s.heap.nextImpl), (newImpl s.heap).2⟩, _,
         by simp only [step, St.create, ho, Res.bind_ok, Res.pure_eq]; rfl, rel_new r, this.1, rfl,
      fun h => h.elim⟩
  | units o us =>
    have ho := S.free ha
    obtain ⟨h', x, e1, e2, e3, e4⟩ := rel_units r us
    have := S.add ho hfr x
    rw [e2, units_val, ← e2] at this
    exact .inr ⟨⟨upd s.obj o (some s.heap.nextImpl), h'⟩, _,
         by simp only [step, St.create, ho, e1, Res.bind_ok, Res.pure_eq], e4, this.1, e3,
      fun _ => this.2 (by rw [e2]; simp [UImpl.ofUnits, UImpl.allocFill])⟩
  | utf8 o bs =>
    have ho := S.free ha
    obtain ⟨h', x, e1, e2, e3, e4⟩ := rel_utf8 r bs
    have := S.add ho hfr x
    rw [e2, utf8_val, ← e2] at this
    refine .inr ⟨⟨upd s.obj o (some s.heap.nextImpl), h'⟩, _,
         by simp only [step, St.create, ho, e1, Res.bind_ok, Res.pure_eq], e4, this.1, e3,
      fun hs => this.2 ?_⟩
    rw [e2]
    unfold UImpl.ofUtf8
    cases hd : utf8Decode bs with
    | none => exact absurd hd hs
    | some cs => simp [UImpl.allocFill]
  | utf32 o cs =>
    have ho := S.free ha
    obtain ⟨h', x, e1, e2, e3, e4⟩ := rel_utf32 r cs
    have := S.add ho hfr x
    rw [e2, utf32_val, ← e2] at this
    refine .inr ⟨⟨upd s.obj o (some s.heap.nextImpl), h'⟩, _,
         by simp only [step, St.create, ho, e1, Res.bind_ok, Res.pure_eq], e4, this.1, e3,
      fun hs => this.2 ?_⟩
    rw [e2]
    unfold UImpl.ofUtf32
    rw [if_pos ((all_iff cs).2 hs)]
    simp [UImpl.allocFill]
  | copy o q =>
    have ho := S.free ha.1
    obtain ⟨p, u, h1, h2, h3, h4⟩ := S.use ha.2
    obtain ⟨h', x, e1, e2, e3, e4, e5⟩ := rel_copy r h2
    have := S.add ho hfr x
    rw [e2, ← h4] at this
    exact .inr ⟨⟨upd s.obj o (some s.heap.nextImpl), h'⟩, _,
         by simp only [step, use_ok h1, St.create, ho, e1, Res.bind_ok, Res.pure_eq], e5, this.1, e4,
      fun _ => this.2 e3⟩
  | move o q =>
    have ho := S.free ha.1
    obtain ⟨p, u, h1, h2, h3, h4⟩ := S.use ha.2
    rcases rel_ctorMove r h2 with ⟨e1, e2⟩ | ⟨h', x, y, e1, e2, e3, e4, e5, e6, e7⟩
    · exact .inl ⟨by simp only [step, use_ok h1, St.create, ho, e2, Res.bind_ok, Res.bind_ub],
        fun hs => hs q p u h1 h2 e1⟩
    · have S1 := S.set h1 y
      have hfr1 : upd v p (some y) s.heap.nextImpl = none := by
        rw [upd_ne _ _ (by have := r.lt h2; omega)]; exact hfr
      have S2 := S1.1.add ho hfr1 x
      rw [e2, ← h4, e4] at S2
      exact .inr ⟨⟨upd s.obj o (some s.heap.nextImpl), h'⟩, _,
         by simp only [step, use_ok h1, St.create, ho, e1, Res.bind_ok, Res.pure_eq], e7, S2.1, e6,
        fun _ hs => S2.2 e3 (S1.2 e5 hs)⟩
  | sum o q q' =>
    have ho := S.free ha.1
    obtain ⟨p, u, h1, h2, h3, h4⟩ := S.use ha.2.1
    obtain ⟨p', u', h1', h2', h3', h4'⟩ := S.use ha.2.2
    rcases rel_plus r h2 h2' with ⟨e1, e2, _⟩ | ⟨h', x, e1, e2, e3, e4, e5⟩
    · refine .inl ⟨by simp only [step, use_ok h1, use_ok h1', St.create, ho, e2, Res.bind_ok, Res.bind_ub],
        fun hs => ?_⟩
      rcases e1 with e1 | e1
      · exact hs q p u h1 h2 e1
      · exact hs q' p' u' h1' h2' e1
    · have S1 := S.add ho hfr x
      rw [e4, units_val, ← e4, ← h4, ← h4'] at S1
      exact .inr ⟨⟨upd s.obj o (some s.heap.nextImpl), h'⟩, _,
         by simp only [step, use_ok h1, use_ok h1', St.create, ho, e1, Res.bind_ok, Res.pure_eq], e5,
        S1.1, e3, fun _ => S1.2 (by rw [e4]; simp [UImpl.ofUnits, UImpl.allocFill])⟩
  | assign o q =>
    obtain ⟨p, u, h1, h2, h3, h4⟩ := S.use ha.1
    obtain ⟨p', u', h1', h2', h3', h4'⟩ := S.use ha.2
    by_cases e : o = q
    · subst e
      rw [h1] at h1'
      cases h1'
      obtain ⟨i, _, hg, _⟩ := r.get h2
      refine .inr ⟨s, v, by simp [step, use_ok h1, assignImpl, hg], r, ?_, rfl, fun _ => id⟩
      simp only [Strings.apply]
      rw [upd_self _ _ _ (by rw [h3, h4])]
      exact S
    · have hpp : p ≠ p' := by rintro rfl; exact e (S.inj o q p h1 h1')
      obtain ⟨h', x, e1, e2, e3, e4⟩ := rel_assign r hpp h2 h2'
      have hx := copyFrom_val (r.ok p' u' h2') e2
      have S1 := S.set h1 x
      rw [hx.1, ← h4'] at S1
      exact .inr ⟨⟨s.obj, h'⟩, _,
         by simp only [step, use_ok h1, use_ok h1', e1, Res.bind_ok, Res.pure_eq], e4, S1.1, e3,
        fun _ => S1.2 hx.2⟩
  | moveAssign o q =>
    obtain ⟨p, u, h1, h2, h3, h4⟩ := S.use ha.1
    obtain ⟨p', u', h1', h2', h3', h4'⟩ := S.use ha.2
    by_cases e : o = q
    · subst e
      rw [h1] at h1'
      cases h1'
      obtain ⟨i, _, hg, _⟩ := r.get h2
      refine .inr ⟨s, v, by simp [step, use_ok h1, moveImpl, hg], r, ?_, rfl, fun _ => id⟩
      simp only [Strings.apply]
      rw [upd_upd, upd_self _ _ _ (by rw [h3, h4])]
      exact S
    · have hpp : p ≠ p' := by rintro rfl; exact e (S.inj o q p h1 h1')
      rcases rel_move r hpp h2 h2' with ⟨e1, e2, _⟩ | ⟨h', x, y, e1, e2, e3, e4⟩
      · exact .inl ⟨by simp only [step, use_ok h1, use_ok h1', e2, Res.bind_ok, Res.bind_ub],
          fun hs => hs q p' u' h1' h2' e1⟩
      · obtain ⟨a1, a2, a3, a4⟩ := moveFrom_val e2
        have S1 := S.set h1' y
        have S2 := S1.1.set h1 x
        rw [a1, ← h4', a3] at S2
        rw [upd_comm _ _ _ hpp] at e4
        exact .inr ⟨⟨s.obj, h'⟩, _,
         by simp only [step, use_ok h1, use_ok h1', e1, Res.bind_ok, Res.pure_eq], e4, S2.1, e3,
          fun _ hs => S2.2 a2 (S1.2 a4 hs)⟩
  | add o q =>
    obtain ⟨p, u, h1, h2, h3, h4⟩ := S.use ha.1
    obtain ⟨p', u', h1', h2', h3', h4'⟩ := S.use ha.2
    rcases rel_plusAssign r h2 h2' with ⟨e1, e2⟩ | ⟨h', x, e1, e2, e3, e4⟩
    · refine .inl ⟨by simp only [step, use_ok h1, use_ok h1', e2, Res.bind_ok, Res.bind_ub], fun hs => ?_⟩
      rcases e1 with e1 | e1
      · exact hs o p u h1 h2 e1
      · exact hs q p' u' h1' h2' e1
    · rw [← h4, ← h4'] at e2 e4
      rcases e4 with ⟨e4, e5, e6⟩ | ⟨e4, e5, e6, t, e7, e8⟩
      · have S1 := S.set h1 x
        rw [e2] at S1
        refine .inr ⟨⟨s.obj, h'⟩, _,
         by simp only [step, use_ok h1, use_ok h1', e1, Res.bind_ok, Res.pure_eq], e6, S1.1, ?_,
          fun _ hs => S1.2 (e3 (hs o p u h1 h2)) hs⟩
        have : ¬ (σ.val o ≠ [] ∧ σ.val q ≠ []) := by rintro ⟨a, b⟩; exact e5.elim a b
        simp only [Strings.made, if_neg this, e4, Nat.add_zero]
      · have S1 := S.temp hfr e7
        have S2 := S1.1.set h1 x
        rw [e2] at S2
        refine .inr ⟨⟨s.obj, h'⟩, _,
         by simp only [step, use_ok h1, use_ok h1', e1, Res.bind_ok, Res.pure_eq], e8, S2.1, ?_,
          fun _ hs => S2.2 (e3 (hs o p u h1 h2)) (S1.2 hs)⟩
        simp only [Strings.made, if_pos e5, e4]
  | dispose o =>
    obtain ⟨p, u, h1, h2, h3, h4⟩ := S.use ha
    obtain ⟨h', e1, e2, e3⟩ := rel_dispose r h2
    have S1 := S.set h1 u.dispose
    exact .inr ⟨⟨s.obj, h'⟩, _,
         by simp only [step, use_ok h1, e1, Res.bind_ok, Res.pure_eq], e3, S1.1, e2,
      fun _ => S1.2 (by simp [UImpl.dispose, UImpl.free])⟩
  | destroy o =>
    obtain ⟨p, u, h1, h2, h3, h4⟩ := S.use ha
    obtain ⟨h', e1, e2, e3⟩ := rel_dispose r h2
    have S1 := S.del h1 (x := u.dispose) rfl
    exact .inr ⟨⟨upd s.obj o none, h'⟩, _,
         by simp only [step, use_ok h1, dtor, e1, Res.bind_ok, Res.pure_eq], e3, S1.1, e2, fun _ => S1.2⟩

/-- An operation that is not allowed is undefined. -/
theorem step_bad {s : St} {σ : Strings} {v : Nat → Option UImpl} (S : Vars s.obj σ v) (op : Op)
    (ha : ¬ σ.Allows op) : step s op = .ub := by
  have hdead : ∀ o, ¬ σ o ≠ none → s.use o = .ub := by
    intro o h
    have h : σ o = none := Classical.not_not.1 h
    simp [St.use, S.free h]
  have hcr : ∀ o r, ¬ σ o = none → s.create o r = .ub := by
    intro o r h
    obtain ⟨p, u, h1, _⟩ := S.use h
    simp [St.create, h1]
  have hok : ∀ o, σ o ≠ none → ∃ p, s.use o = .ok p := by
    intro o h
    obtain ⟨p, u, h1, _⟩ := S.use h
    exact ⟨p, use_ok h1⟩
  cases op with
  | default o => exact hcr o _ ha
  | units o us => exact hcr o _ ha
  | utf8 o us => exact hcr o _ ha
  | utf32 o us => exact hcr o _ ha
  | copy o q =>
    simp only [step]
    by_cases h : σ q ≠ none
    · obtain ⟨p, hp⟩ := hok q h
      simp only [hp, Res.bind_ok]
      exact hcr o _ fun e => ha ⟨e, h⟩
    · simp only [hdead q h, Res.bind_ub]
  | move o q =>
    simp only [step]
    by_cases h : σ q ≠ none
    · obtain ⟨p, hp⟩ := hok q h
      simp only [hp, Res.bind_ok]
      exact hcr o _ fun e => ha ⟨e, h⟩
    · simp only [hdead q h, Res.bind_ub]
  | sum o q q' =>
    simp only [step]
    by_cases h : σ q ≠ none
    · obtain ⟨p, hp⟩ := hok q h
      simp only [hp, Res.bind_ok]
      by_cases h' : σ q' ≠ none
      · obtain ⟨p', hp'⟩ := hok q' h'
        simp only [hp', Res.bind_ok]
        exact hcr o _ fun e => ha ⟨e, h, h'⟩
      · simp only [hdead q' h', Res.bind_ub]
    · simp only [hdead q h, Res.bind_ub]
  | assign o q =>
    simp only [step]
    by_cases h : σ o ≠ none
    · obtain ⟨p, hp⟩ := hok o h
      have h' : ¬ σ q ≠ none := fun e => ha ⟨h, e⟩
      simp only [hp, Res.bind_ok, hdead q h', Res.bind_ub]
    · simp only [hdead o h, Res.bind_ub]
  | moveAssign o q =>
    simp only [step]
    by_cases h : σ o ≠ none
    · obtain ⟨p, hp⟩ := hok o h
      have h' : ¬ σ q ≠ none := fun e => ha ⟨h, e⟩
      simp only [hp, Res.bind_ok, hdead q h', Res.bind_ub]
    · simp only [hdead o h, Res.bind_ub]
  | add o q =>
    simp only [step]
    by_cases h : σ o ≠ none
    · obtain ⟨p, hp⟩ := hok o h
      have h' : ¬ σ q ≠ none := fun e => ha ⟨h, e⟩
      simp only [hp, Res.bind_ok, hdead q h', Res.bind_ub]
    · simp only [hdead o h, Res.bind_ub]
  | dispose o => simp only [step, hdead o ha, Res.bind_ub]
  | destroy o => simp only [step, hdead o ha, Res.bind_ub]

/-- The whole history. -/
theorem run_rel : ∀ (ops : List Op) {s : St} {σ : Strings} {v : Nat → Option UImpl}, Rel s.heap v →
    Vars s.obj σ v → σ.Legal ops →
    (run s ops = .ub ∧ ¬ (AllSized s.obj v ∧ ∀ op ∈ ops, Sized op)) ∨
    ∃ s' v', run s ops = .ok s' ∧ Rel s'.heap v' ∧ Vars s'.obj (σ.after ops) v' ∧
      s'.heap.nextImpl = s.heap.nextImpl + σ.madeBy ops := by
  intro ops
  induction ops with
  | nil => intro s σ v r S _; exact .inr ⟨s, v, rfl, r, S, rfl⟩
  | cons op ops ih =>
    intro s σ v r S hl
    rcases step_rel r S op hl.1 with ⟨e1, e2⟩ | ⟨s', v', e1, e2, e3, e4, e5⟩
    · exact .inl ⟨by simp only [run, e1, Res.bind_ub], fun h => e2 h.1⟩
    · rcases ih e2 e3 hl.2 with ⟨f1, f2⟩ | ⟨s2, v2, f1, f2, f3, f4⟩
      · refine .inl ⟨by simp only [run, e1, Res.bind_ok, f1], fun h => f2 ⟨?_, ?_⟩⟩
        · exact e5 (h.2 op (List.mem_cons_self ..)) h.1
        · exact fun op' hop => h.2 op' (List.mem_cons_of_mem _ hop)
      · exact .inr ⟨s2, v2, by simp only [run, e1, Res.bind_ok, f1], f2, f3, by rw [f4, e4]; simp only [Strings.madeBy]; omega⟩

/-- A history that is not legal is undefined. -/
theorem run_bad : ∀ (ops : List Op) {s : St} {σ : Strings} {v : Nat → Option UImpl}, Rel s.heap v →
    Vars s.obj σ v → ¬ σ.Legal ops → run s ops = .ub := by
  intro ops
  induction ops with
  | nil => intro s σ v r S h; exact absurd trivial h
  | cons op ops ih =>
    intro s σ v r S hl
    by_cases ha : σ.Allows op
    · rcases step_rel r S op ha with ⟨e1, e2⟩ | ⟨s', v', e1, e2, e3, e4, e5⟩
      · simp only [run, e1, Res.bind_ub]
      · simp only [run, e1, Res.bind_ok]
        exact ih e2 e3 fun h => hl ⟨ha, h⟩
    · simp only [run, step_bad S op ha, Res.bind_ub]

/-- What the memory of a variable holds. -/
theorem units_rel {s : St} {σ : Strings} {v : Nat → Option UImpl} (r : Rel s.heap v) (S : Vars s.obj σ v) {o : Nat}
    {l : List Nat} (h : σ o = some l) : s.units o = .ok l := by
  obtain ⟨p, u, h1, h2, h3, h4⟩ := S.use (o := o) (by rw [h]; simp)
  obtain ⟨i, hi, hg, hr⟩ := r.get h2
  have ok := r.ok p u h2
  rw [h] at h3
  cases h3
  unfold St.units
  rw [use_ok h1]
  simp only [Res.bind_ok, hg]
  rcases hr.str with ⟨e1, e2⟩ | ⟨b, k, e1, e2, e3⟩
  · simp only [e1, e2, Option.getD_none]
  · have hs := (ok.full k e2).2
    have := (load_rep hr ok hs).1
    simp only [e1, Impl.readSize, hr.size, hs, Res.bind_ok]
    rw [e1] at this
    exact this

end Berts.Memory
