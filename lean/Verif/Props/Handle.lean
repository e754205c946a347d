import Verif.Proofs.Handle

/-!
# Properties of the owning handles
-/

namespace Berts.Props

open Berts.Handle

variable {R : Type}

/-- C52: at any point of any history, no resource has been freed twice, nothing a handle owns has been
freed, and no two handles own the same resource. -/
theorem C52_safe {s : St R} {raw all : List R} (h : Legal s raw all) :
    s.freed.Nodup ∧
    (∀ k r, s.obj k = some (some r) → r ∉ s.freed) ∧
    (∀ k k' r, s.obj k = some (some r) → s.obj k' = some (some r) → k = k') ∧
    (∀ r ∈ raw, r ∉ s.freed) := by
  have i := legal_inv h
  exact ⟨i.freedOnce, fun k r e => (i.owned k r (own_of e)).1,
    fun k k' r e e' => i.single k k' r (own_of e) (own_of e'), i.rawLive⟩

/-- C52: once no handle owns anything any more, each resource has been freed exactly once, unless the
program has its pointer (it was never wrapped, or was released); in that case it has not been freed. -/
theorem C52_exactly_once [DecidableEq R] {s : St R} {raw all : List R} (h : Legal s raw all)
    (hend : ∀ k r, s.obj k ≠ some (some r)) (r : R) (hr : r ∈ all) :
    (r ∉ raw ∧ s.freed.count r = 1) ∨ (r ∈ raw ∧ s.freed.count r = 0) := by
  have i := legal_inv h
  rcases (i.all r).1 hr with h1 | h1 | ⟨k, hk⟩
  · exact .inr ⟨h1, List.count_eq_zero.2 (i.rawLive r h1)⟩
  · refine .inl ⟨fun hc => i.rawLive r hc h1, ?_⟩
    have h2 := List.count_pos_iff.2 h1
    have h3 := List.nodup_iff_count.1 i.freedOnce r
    omega
  · exfalso
    unfold own at hk
    cases ho : s.obj k with
    | none => rw [ho] at hk; simp at hk
    | some p =>
      rw [ho] at hk
      simp only [Option.getD_some] at hk
      subst hk
      exact hend k r ho

/-- C52: only resources that were acquired are freed. -/
theorem C52_only_acquired {s : St R} {raw all : List R} (h : Legal s raw all) (r : R) (hr : r ∈ s.freed) :
    r ∈ all := ((legal_inv h).all r).2 (.inr (.inl hr))

/-- C52: operations on objects that are alive (and creations of objects that are not) are defined, and
these are their effects. -/
theorem C52_effects (s : St R) (h o : Nat) (p q : Option R) (hh : s.obj h = some p) (ho : s.obj o = some q)
    (k : Nat) (hk : s.obj k = none) :
    (∃ t, moveCtor s k o = .ok t ∧ t.obj k = some q ∧ t.obj o = some none ∧ t.freed = s.freed) ∧
    (∃ t, moveAssign s h o = .ok t ∧ (h = o → t = s) ∧
      (h ≠ o → t.obj h = some q ∧ t.obj o = some none ∧ t.freed = s.freed ++ p.toList)) ∧
    (∃ t, dispose s h = .ok t ∧ t.obj h = some none ∧ t.freed = s.freed ++ p.toList) ∧
    (∃ t, dtor s h = .ok t ∧ t.obj h = none ∧ t.freed = s.freed ++ p.toList) ∧
    (∃ t, release s h = .ok (p, t) ∧ t.obj h = some none ∧ t.freed = s.freed) := by
  have hko : k ≠ o := by rintro rfl; rw [hk] at ho; cases ho
  have hd : ∃ t, dispose s h = .ok t ∧ t.obj h = some none ∧ t.freed = s.freed ++ p.toList ∧
      ∀ j, j ≠ h → t.obj j = s.obj j := by
    unfold dispose
    rw [hh]
    cases p with
    | none => exact ⟨s, rfl, hh, by simp, fun _ _ => rfl⟩
    | some r => exact ⟨_, rfl, by simp [put], by simp, fun j hj => by simp [put, hj]⟩
  obtain ⟨t, d1, d2, d3, d4⟩ := hd
  refine ⟨?_, ?_, ⟨t, d1, d2, d3⟩, ?_, ?_⟩
  · refine ⟨⟨put (put s.obj k (some q)) o (some none), s.freed⟩,
      by unfold moveCtor ctor; rw [ho]; simp only [hk]; rfl, ?_, ?_, rfl⟩
    · simp [put, hko]
    · simp [put]
  · unfold moveAssign
    rw [hh, ho]
    simp only
    by_cases he : h = o
    · rw [if_pos he]
      exact ⟨s, rfl, fun _ => rfl, fun hc => absurd he hc⟩
    · rw [if_neg he, d1]
      exact ⟨_, rfl, fun hc => absurd hc he, fun _ => ⟨by simp [put, he], by simp [put], d3⟩⟩
  · unfold dtor
    rw [d1]
    exact ⟨_, rfl, by simp [put], d3⟩
  · unfold release
    rw [hh]
    exact ⟨_, rfl, by simp [put], rfl⟩

/-- C52: the pair of contexts made from a file owns both contexts or none. -/
theorem C52_pair (s : St R) (hm hg tmp : Nat) (h1 : s.obj hm = none) (h2 : s.obj hg = none)
    (h3 : s.obj tmp = none) (hne : hm ≠ hg) (hne1 : hm ≠ tmp) (hne2 : hg ≠ tmp) (res : Option (R × R)) :
    ∃ t, ggCtor s hm hg tmp res = .ok t ∧ t.freed = s.freed ∧ t.obj tmp = none ∧
      t.obj hg = some (res.map (·.1)) ∧ t.obj hm = some (res.map (·.2)) := by
  have hne' := Ne.symm hne
  have hne1' := Ne.symm hne1
  have hne2' := Ne.symm hne2
  cases res with
  | none =>
    simp [ggCtor, ctor, moveAssign, dtor, dispose, put, h1, h2, h3, hne, hne1, hne2, hne', hne1', hne2', Res.bind]
  | some p =>
    simp [ggCtor, ctor, moveAssign, dtor, dispose, store, put, h1, h2, h3, hne, hne1, hne2, hne', hne1', hne2',
      Res.bind]

theorem put_put_same (f : Nat → Option (Option R)) (h : Nat) (v w : Option (Option R)) :
    put (put f h v) h w = put f h w := by
  funext k
  unfold put
  split <;> rfl

/-- C52: compiled regular expressions are owned in the same way; so what holds for the histories of handles
holds for those of `regex` objects. -/
theorem C52_regex (s : St R) (h o : Nat) (res : Option R) :
    regexCtor s h res = ctor s h res ∧ regexMove s h o = moveCtor s h o ∧
    regexDtor s h = dtor s h ∧ regexAssign s h o = moveAssign s h o := by
  refine ⟨rfl, ?_, ?_, ?_⟩
  · unfold regexMove moveCtor ctor
    cases ho : s.obj o with
    | none => rfl
    | some p => cases hh : s.obj h <;> rfl
  · unfold regexDtor dtor dispose
    cases hh : s.obj h with
    | none => rfl
    | some p =>
      cases p with
      | none => rfl
      | some r => simp only [Res.bind, put_put_same]
  · unfold regexAssign moveAssign dispose
    cases hh : s.obj h with
    | none => rfl
    | some q =>
      cases ho : s.obj o with
      | none => rfl
      | some p =>
        by_cases e : h = o
        · simp only [e, ne_eq, not_true_eq_false, if_false, if_true]
        · simp only [e, ne_eq, not_false_eq_true, if_true, if_false]
          cases q with
          | none => rfl
          | some r => simp only [Res.bind, put_put_same]

/-- A history: two resources, a move, an assignment that frees the first one, a release. -/
example : ∃ s : St Nat, Legal s [8] [8, 7] ∧ s.freed = [7] := by
  refine ⟨_, Legal.release 0 (some 8) (Legal.moveAssign 0 1 (Legal.wrap [] [] 8 1
    (Legal.acquire 8 (Legal.wrap [] [] 7 0 (Legal.acquire 7 Legal.start (by simp)) rfl) (by simp)) rfl) rfl) rfl, rfl⟩

/-- Self assignment changes nothing. -/
example : ∃ s : St Nat, Legal s [] [7] ∧ s.freed = [] ∧ s.obj 0 = some (some 7) :=
  ⟨_, Legal.moveAssign 0 0 (Legal.wrap [] [] 7 0 (Legal.acquire 7 Legal.start (by simp)) rfl) rfl, rfl, rfl⟩

end Berts.Props
