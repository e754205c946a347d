import Verif.Spec.Handle

/-!
# Proofs about owning handles
-/

namespace Berts.Handle

variable {R : Type}

/-- What a handle owns. -/
def own (s : St R) (h : Nat) : Option R := (s.obj h).getD none

/-- Each acquired resource is in exactly one place: with the program, in a handle, or freed. -/
structure Inv (own : Nat → Option R) (freed raw all : List R) : Prop where
  freedOnce : freed.Nodup
  rawOnce : raw.Nodup
  rawLive : ∀ r ∈ raw, r ∉ freed
  owned : ∀ h r, own h = some r → r ∉ freed ∧ r ∉ raw
  single : ∀ h k r, own h = some r → own k = some r → h = k
  all : ∀ r, r ∈ all ↔ r ∈ raw ∨ r ∈ freed ∨ ∃ h, own h = some r

def upd (f : Nat → Option R) (h : Nat) (v : Option R) : Nat → Option R := fun k => if k = h then v else f k

theorem own_put (s : St R) (h : Nat) (v : Option (Option R)) :
    own ⟨put s.obj h v, s.freed⟩ = upd (own s) h (v.getD none) := by
  funext k
  unfold own put upd
  simp only
  split <;> rfl

theorem upd_same (f : Nat → Option R) (h : Nat) (v : Option R) (hv : f h = v) : upd f h v = f := by
  funext k
  unfold upd
  split
  · rename_i e; rw [e, hv]
  · rfl

theorem inv_acquire {f : Nat → Option R} {freed raw all : List R} (i : Inv f freed raw all) (r : R)
    (hr : r ∉ all) : Inv f freed (r :: raw) (r :: all) := by
  have h0 := i.all r
  have h1 : r ∉ raw := fun h => hr (h0.mpr (.inl h))
  have h2 : r ∉ freed := fun h => hr (h0.mpr (.inr (.inl h)))
  have h3 : ∀ h, f h ≠ some r := fun h e => hr (h0.mpr (.inr (.inr ⟨h, e⟩)))
  refine ⟨i.freedOnce, List.nodup_cons.2 ⟨h1, i.rawOnce⟩, ?_, ?_, i.single, ?_⟩
  · intro a ha
    rcases List.mem_cons.1 ha with rfl | ha
    · exact h2
    · exact i.rawLive a ha
  · intro h a e
    refine ⟨(i.owned h a e).1, ?_⟩
    intro ha
    rcases List.mem_cons.1 ha with rfl | ha
    · exact h3 h e
    · exact (i.owned h a e).2 ha
  · intro a
    simp only [List.mem_cons, i.all a]
    constructor
    · rintro (h | h | h | h)
      · exact .inl (.inl h)
      · exact .inl (.inr h)
      · exact .inr (.inl h)
      · exact .inr (.inr h)
    · rintro ((h | h) | h | h)
      · exact .inl h
      · exact .inr (.inl h)
      · exact .inr (.inr (.inl h))
      · exact .inr (.inr (.inr h))

theorem inv_wrap {f : Nat → Option R} {freed pre post all : List R} {r : R}
    (i : Inv f freed (pre ++ r :: post) all) (h : Nat) (hn : f h = none) :
    Inv (upd f h (some r)) freed (pre ++ post) all := by
  have hp : (pre ++ r :: post).Perm (r :: (pre ++ post)) := List.perm_middle
  have hnd := List.nodup_cons.1 (hp.nodup_iff.1 i.rawOnce)
  have hmem : ∀ a, a ∈ pre ++ r :: post ↔ a = r ∨ a ∈ pre ++ post := by
    intro a; rw [hp.mem_iff, List.mem_cons]
  have hr : r ∈ pre ++ r :: post := (hmem r).2 (.inl rfl)
  refine ⟨i.freedOnce, hnd.2, ?_, ?_, ?_, ?_⟩
  · intro a ha
    exact i.rawLive a ((hmem a).2 (.inr ha))
  · intro k a e
    unfold upd at e
    split at e
    · cases e
      exact ⟨i.rawLive _ hr, hnd.1⟩
    · have := i.owned k a e
      exact ⟨this.1, fun hc => this.2 ((hmem a).2 (.inr hc))⟩
  · intro k k' a e e'
    unfold upd at e e'
    split at e <;> split at e'
    · omega
    · cases e
      exact absurd hr (i.owned _ _ e').2
    · cases e'
      exact absurd hr (i.owned _ _ e).2
    · exact i.single _ _ _ e e'
  · intro a
    rw [i.all a, hmem a]
    constructor
    · rintro ((rfl | ha) | ha | ⟨k, e⟩)
      · exact .inr (.inr ⟨h, by simp [upd]⟩)
      · exact .inl ha
      · exact .inr (.inl ha)
      · refine .inr (.inr ⟨k, ?_⟩)
        unfold upd
        rw [if_neg (by rintro rfl; rw [hn] at e; cases e)]
        exact e
    · rintro (ha | ha | ⟨k, e⟩)
      · exact .inl (.inr ha)
      · exact .inr (.inl ha)
      · unfold upd at e
        split at e
        · cases e; exact .inl (.inl rfl)
        · exact .inr (.inr ⟨k, e⟩)

theorem inv_free {f : Nat → Option R} {freed raw all : List R} {r : R} (i : Inv f freed raw all) (h : Nat)
    (hr : f h = some r) : Inv (upd f h none) (freed ++ [r]) raw all := by
  have h1 := i.owned h r hr
  refine ⟨?_, i.rawOnce, ?_, ?_, ?_, ?_⟩
  · rw [List.nodup_append]
    refine ⟨i.freedOnce, by simp, ?_⟩
    intro a ha b hb e
    simp only [List.mem_singleton] at hb
    subst hb; subst e
    exact h1.1 ha
  · intro a ha hc
    simp only [List.mem_append, List.mem_singleton] at hc
    rcases hc with hc | rfl
    · exact i.rawLive a ha hc
    · exact h1.2 ha
  · intro k a e
    unfold upd at e
    split at e
    · cases e
    · rename_i hk
      refine ⟨?_, (i.owned k a e).2⟩
      intro hc
      simp only [List.mem_append, List.mem_singleton] at hc
      rcases hc with hc | rfl
      · exact (i.owned k a e).1 hc
      · exact hk (i.single _ _ _ e hr)
  · intro k k' a e e'
    unfold upd at e e'
    split at e
    · cases e
    split at e'
    · cases e'
    exact i.single _ _ _ e e'
  · intro a
    rw [i.all a]
    simp only [List.mem_append, List.mem_singleton]
    constructor
    · rintro (ha | ha | ⟨k, e⟩)
      · exact .inl ha
      · exact .inr (.inl (.inl ha))
      · by_cases hk : k = h
        · subst hk
          rw [hr] at e
          cases e
          exact .inr (.inl (.inr rfl))
        · exact .inr (.inr ⟨k, by unfold upd; rw [if_neg hk]; exact e⟩)
    · rintro (ha | (ha | rfl) | ⟨k, e⟩)
      · exact .inl ha
      · exact .inr (.inl ha)
      · exact .inr (.inr ⟨h, hr⟩)
      · unfold upd at e
        split at e
        · cases e
        · exact .inr (.inr ⟨k, e⟩)

theorem inv_release {f : Nat → Option R} {freed raw all : List R} {r : R} (i : Inv f freed raw all) (h : Nat)
    (hr : f h = some r) : Inv (upd f h none) freed (r :: raw) all := by
  have h1 := i.owned h r hr
  refine ⟨i.freedOnce, List.nodup_cons.2 ⟨h1.2, i.rawOnce⟩, ?_, ?_, ?_, ?_⟩
  · intro a ha
    rcases List.mem_cons.1 ha with rfl | ha
    · exact h1.1
    · exact i.rawLive a ha
  · intro k a e
    unfold upd at e
    split at e
    · cases e
    · rename_i hk
      refine ⟨(i.owned k a e).1, ?_⟩
      intro hc
      rcases List.mem_cons.1 hc with rfl | hc
      · exact hk (i.single _ _ _ e hr)
      · exact (i.owned k a e).2 hc
  · intro k k' a e e'
    unfold upd at e e'
    split at e
    · cases e
    split at e'
    · cases e'
    exact i.single _ _ _ e e'
  · intro a
    rw [i.all a]
    simp only [List.mem_cons]
    constructor
    · rintro (ha | ha | ⟨k, e⟩)
      · exact .inl (.inr ha)
      · exact .inr (.inl ha)
      · by_cases hk : k = h
        · subst hk
          rw [hr] at e
          cases e
          exact .inl (.inl rfl)
        · exact .inr (.inr ⟨k, by unfold upd; rw [if_neg hk]; exact e⟩)
    · rintro ((rfl | ha) | ha | ⟨k, e⟩)
      · exact .inr (.inr ⟨h, hr⟩)
      · exact .inl ha
      · exact .inr (.inl ha)
      · unfold upd at e
        split at e
        · cases e
        · exact .inr (.inr ⟨k, e⟩)

/-- Moving is releasing and wrapping. -/
theorem inv_move {f : Nat → Option R} {freed raw all : List R} (i : Inv f freed raw all) (h o : Nat)
    (hn : f h = none) (hne : h ≠ o) : Inv (upd (upd f h (f o)) o none) freed raw all := by
  cases ho : f o with
  | none =>
    rw [upd_same f h none hn, upd_same f o none ho]
    exact i
  | some r =>
    have h1 := inv_release i o ho
    have h2 := inv_wrap (pre := []) (r := r) h1 h (by unfold upd; rw [if_neg hne]; exact hn)
    have : upd (upd f h (some r)) o none = upd (upd f o none) h (some r) := by
      funext k
      unfold upd
      split <;> split <;> first | rfl | omega
    rw [this]
    exact h2

theorem own_of {s : St R} {h : Nat} {p : Option R} (e : s.obj h = some p) : own s h = p := by
  unfold own; rw [e]; rfl

theorem own_dead {s : St R} {h : Nat} (e : s.obj h = none) : own s h = none := by
  unfold own; rw [e]; rfl

theorem dispose_inv {s s' : St R} {raw all : List R} {h : Nat} (i : Inv (own s) s.freed raw all)
    (e : dispose s h = .ok s') :
    Inv (own s') s'.freed raw all ∧ s'.obj h = some none ∧ ∀ k, k ≠ h → s'.obj k = s.obj k := by
  unfold dispose at e
  split at e
  · cases e
  · rename_i ho
    cases e
    exact ⟨i, ho, fun _ _ => rfl⟩
  · rename_i r ho
    cases e
    refine ⟨?_, ?_, ?_⟩
    · have := inv_free i h (own_of ho)
      rw [show own (⟨put s.obj h (some none), s.freed ++ [r]⟩ : St R) = upd (own s) h none from
        own_put s h (some none)]
      exact this
    · simp [put]
    · intro k hk
      simp [put, hk]

theorem ctor_inv_null {s s' : St R} {raw all : List R} {h : Nat} (i : Inv (own s) s.freed raw all)
    (e : ctor s h none = .ok s') :
    Inv (own s') s'.freed raw all ∧ s'.obj h = some none ∧ (∀ k, k ≠ h → s'.obj k = s.obj k) ∧
      s.obj h = none := by
  unfold ctor at e
  split at e
  · cases e
  · rename_i ho
    cases e
    refine ⟨?_, by simp [put], fun k hk => by simp [put, hk], ho⟩
    rw [own_put, Option.getD_some, upd_same _ _ _ (own_dead ho)]
    exact i

theorem ctor_inv {s s' : St R} {pre post all : List R} {r : R} {h : Nat}
    (i : Inv (own s) s.freed (pre ++ r :: post) all) (e : ctor s h (some r) = .ok s') :
    Inv (own s') s'.freed (pre ++ post) all ∧ s'.obj h = some (some r) ∧ (∀ k, k ≠ h → s'.obj k = s.obj k) ∧
      s.obj h = none := by
  unfold ctor at e
  split at e
  · cases e
  · rename_i ho
    cases e
    refine ⟨?_, by simp [put], fun k hk => by simp [put, hk], ho⟩
    rw [own_put]
    exact inv_wrap i h (own_dead ho)

theorem moveCtor_inv {s s' : St R} {raw all : List R} {h o : Nat} (i : Inv (own s) s.freed raw all)
    (e : moveCtor s h o = .ok s') : Inv (own s') s'.freed raw all := by
  unfold moveCtor at e
  split at e
  · cases e
  · rename_i p ho
    unfold ctor at e
    split at e
    · cases e
    · rename_i hh
      cases e
      have hne : h ≠ o := by rintro rfl; rw [hh] at ho; cases ho
      have := inv_move i h o (own_dead hh) hne
      rw [own_of ho] at this
      have e1 := own_put (⟨put s.obj h (some p), s.freed⟩ : St R) o (some none)
      rw [own_put s h (some p)] at e1
      exact e1 ▸ this

theorem moveAssign_inv {s s' : St R} {raw all : List R} {h o : Nat} (i : Inv (own s) s.freed raw all)
    (e : moveAssign s h o = .ok s') : Inv (own s') s'.freed raw all := by
  unfold moveAssign at e
  split at e
  · rename_i q p hh ho
    split at e
    · cases e; exact i
    · rename_i hne
      cases hd : dispose s h with
      | ok t =>
        rw [hd] at e
        cases e
        obtain ⟨i', h1, h2⟩ := dispose_inv i hd
        have hto : t.obj o = some p := by rw [h2 o (Ne.symm hne), ho]
        have := inv_move i' h o (own_of h1) hne
        rw [own_of hto] at this
        have e1 := own_put (⟨put t.obj h (some p), t.freed⟩ : St R) o (some none)
        rw [own_put t h (some p)] at e1
        exact e1 ▸ this
      | ub => rw [hd] at e; cases e
      | abort => rw [hd] at e; cases e
      | hang => rw [hd] at e; cases e
  · cases e

theorem dtor_inv {s s' : St R} {raw all : List R} {h : Nat} (i : Inv (own s) s.freed raw all)
    (e : dtor s h = .ok s') :
    Inv (own s') s'.freed raw all ∧ s'.obj h = none ∧ ∀ k, k ≠ h → s'.obj k = s.obj k := by
  unfold dtor at e
  cases hd : dispose s h with
  | ok t =>
    rw [hd] at e
    cases e
    obtain ⟨i', h1, h2⟩ := dispose_inv i hd
    refine ⟨?_, by simp [put], fun k hk => by simp [put, hk, h2 k hk]⟩
    rw [own_put]
    simp only [Option.getD_none]
    rw [upd_same _ _ _ (own_of h1)]
    exact i'
  | ub => rw [hd] at e; cases e
  | abort => rw [hd] at e; cases e
  | hang => rw [hd] at e; cases e

theorem release_inv {s s' : St R} {raw all : List R} {h : Nat} {p : Option R}
    (i : Inv (own s) s.freed raw all) (e : release s h = .ok (p, s')) :
    Inv (own s') s'.freed (p.toList ++ raw) all := by
  unfold release at e
  split at e
  · cases e
  · rename_i q ho
    cases e
    rw [own_put]
    cases p with
    | none => simp only [Option.getD_some]; rw [upd_same _ _ _ (own_of ho)]; exact i
    | some r => exact inv_release i h (own_of ho)

theorem store_inv {s s' : St R} {pre post all : List R} {r : R} {h : Nat}
    (i : Inv (own s) s.freed (pre ++ r :: post) all) (hn : s.obj h = some none)
    (e : store s h (some r) = .ok s') :
    Inv (own s') s'.freed (pre ++ post) all := by
  unfold store at e
  rw [hn] at e
  cases e
  rw [own_put]
  exact inv_wrap i h (own_of hn)

theorem res_inv {α β : Type} {x : Res α} {f : α → Res β} {b : β} (h : x.bind f = .ok b) :
    ∃ a, x = .ok a ∧ f a = .ok b := by
  cases x with
  | ok a => exact ⟨a, rfl, h⟩
  | ub => cases h
  | abort => cases h
  | hang => cases h

theorem ggCtor_inv {s s' : St R} {raw all : List R} {hm hg tmp : Nat} (i : Inv (own s) s.freed raw all)
    (e : ggCtor s hm hg tmp none = .ok s') : Inv (own s') s'.freed raw all := by
  unfold ggCtor at e
  obtain ⟨s1, e1, e⟩ := res_inv e
  obtain ⟨s2, e2, e⟩ := res_inv e
  obtain ⟨s3, e3, e⟩ := res_inv e
  obtain ⟨s4, e4, e⟩ := res_inv e
  have i1 := (ctor_inv_null i e1).1
  have i2 := (ctor_inv_null i1 e2).1
  have i3 := (ctor_inv_null i2 e3).1
  exact (dtor_inv (moveAssign_inv i3 e4) e).1

theorem ggCtorOk_inv {s s' : St R} {raw all : List R} {hm hg tmp : Nat} {gguf ggml : R}
    (i : Inv (own s) s.freed raw all) (h1 : gguf ∉ all) (h2 : ggml ∉ all) (hne : gguf ≠ ggml)
    (e : ggCtor s hm hg tmp (some (gguf, ggml)) = .ok s') :
    Inv (own s') s'.freed raw (gguf :: ggml :: all) := by
  have ia := inv_acquire (inv_acquire i ggml h2) gguf (by simp [h1, hne])
  unfold ggCtor at e
  obtain ⟨s1, e1, e⟩ := res_inv e
  obtain ⟨s2, e2, e⟩ := res_inv e
  obtain ⟨s3, e3, e⟩ := res_inv e
  obtain ⟨s4, e4, e⟩ := res_inv e
  obtain ⟨i1, h3, _, _⟩ := ctor_inv_null ia e1
  obtain ⟨i2, _, h5, h6⟩ := ctor_inv_null i1 e2
  obtain ⟨s5, e5, e6⟩ := res_inv e3
  have hmg : hm ≠ hg := by rintro rfl; rw [h3] at h6; cases h6
  have i5 := store_inv (pre := [gguf]) i2 (by rw [h5 hm hmg]; exact h3) e5
  have i6 := (ctor_inv (pre := []) i5 e6).1
  exact (dtor_inv (moveAssign_inv i6 e4) e).1

theorem legal_inv {s : St R} {raw all : List R} (h : Legal s raw all) : Inv (own s) s.freed raw all := by
  induction h with
  | start =>
    refine ⟨List.nodup_nil, List.nodup_nil, by simp, ?_, ?_, ?_⟩
    · intro h r e; simp [own, St.init] at e
    · intro h k r e; simp [own, St.init] at e
    · intro r; simp [own, St.init]
  | acquire r _ hr ih => exact inv_acquire ih r hr
  | wrapNull h _ e ih => exact (ctor_inv_null ih e).1
  | wrap pre post r h _ e ih => exact (ctor_inv ih e).1
  | moveCtor h o _ e ih => exact moveCtor_inv ih e
  | moveAssign h o _ e ih => exact moveAssign_inv ih e
  | dispose h _ e ih => exact (dispose_inv ih e).1
  | dtor h _ e ih => exact (dtor_inv ih e).1
  | release h p _ e ih => exact release_inv ih e
  | ggCtorFail hm hg tmp _ e ih => exact ggCtor_inv ih e
  | ggCtor hm hg tmp gguf ggml _ h1 h2 h3 e ih => exact ggCtorOk_inv ih h1 h2 h3 e

end Berts.Handle
