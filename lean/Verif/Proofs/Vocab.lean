import Verif.Spec.Vocab

/-! # Helper lemmas about vocabularies -/

namespace Berts.Vocab

open Berts.Spec

/-- The object stores exactly the list `l` (without duplicates). -/
def Holds (v : VocabT) (l : List (List Nat)) : Prop :=
  v.idToTok = l ∧ l.Nodup ∧ l.length ≤ INVALID ∧ ∀ t i, v.tokToId t = some i ↔ l[i]? = some t

theorem holds_shows {v : VocabT} {l : List (List Nat)} (h : Holds v l) : Shows v l := by
  obtain ⟨h1, h2, h3, h4⟩ := h
  refine ⟨by rw [VocabT.tokenCount, h1], ?_, ?_, ?_⟩
  · intro i
    unfold VocabT.idToToken
    rw [h1]
    split
    · rename_i hl; rw [List.getElem?_eq_none hl]; rfl
    · rfl
  · intro i t ht
    unfold VocabT.tokenToId
    rw [(h4 t i).2 ht]
  · intro t ht
    unfold VocabT.tokenToId
    cases e : v.tokToId t with
    | none => rfl
    | some i => exact absurd (List.mem_of_getElem? ((h4 t i).1 e)) ht

theorem holds_new : Holds VocabT.new [] := by
  refine ⟨rfl, by simp, by simp, ?_⟩
  intro t i; simp [VocabT.new]

theorem getElem?_inj_of_nodup {l : List (List Nat)} (h : l.Nodup) {i j : Nat} {t : List Nat}
    (hi : l[i]? = some t) (hj : l[j]? = some t) : i = j := by
  obtain ⟨h1, e1⟩ := List.getElem?_eq_some_iff.mp hi
  obtain ⟨h2, e2⟩ := List.getElem?_eq_some_iff.mp hj
  rw [List.nodup_iff_pairwise_ne] at h
  rw [List.pairwise_iff_getElem] at h
  rcases Nat.lt_trichotomy i j with hlt | heq | hgt
  · exact absurd (e1.trans e2.symm) (h i j h1 h2 hlt)
  · exact heq
  · exact absurd (e2.trans e1.symm) (h j i h2 h1 hgt)

theorem hasToken_iff {v : VocabT} {l : List (List Nat)} (h : Holds v l) (t : List Nat) :
    v.hasToken t = true ↔ t ∈ l := by
  unfold VocabT.hasToken
  rw [Option.isSome_iff_exists]
  constructor
  · rintro ⟨i, hi⟩
    exact List.mem_of_getElem? ((h.2.2.2 t i).mp hi)
  · intro hm
    obtain ⟨i, hi⟩ := List.getElem?_of_mem hm
    exact ⟨i, (h.2.2.2 t i).mpr hi⟩

theorem addToken_dup {v : VocabT} {l : List (List Nat)} (h : Holds v l) (t : List Nat) (ht : t ∈ l) :
    v.addToken t = (false, v) := by
  unfold VocabT.addToken
  rw [if_pos ((hasToken_iff h t).mpr ht)]

theorem addToken_new {v : VocabT} {l : List (List Nat)} (h : Holds v l) (t : List Nat) (ht : t ∉ l)
    (hl : l.length < INVALID) : (v.addToken t).1 = true ∧ Holds (v.addToken t).2 (l ++ [t]) := by
  unfold VocabT.addToken
  rw [if_neg (fun hh => ht ((hasToken_iff h t).mp hh))]
  refine ⟨rfl, by simp [h.1], ?_, by simp; omega, ?_⟩
  · rw [List.nodup_append]
    refine ⟨h.2.1, by simp, ?_⟩
    intro a ha b hb
    simp only [List.mem_singleton] at hb
    subst hb
    exact fun e => ht (e ▸ ha)
  · intro x i
    dsimp only
    have hlen : v.idToTok.length % 2 ^ 32 = l.length := by
      rw [h.1]; unfold INVALID at hl; omega
    by_cases hx : x = t
    · subst hx
      rw [if_pos rfl, hlen]
      simp only [Option.some.injEq]
      constructor
      · rintro rfl; simp
      · intro hi
        rcases Nat.lt_or_ge i l.length with hlt | hge
        · rw [List.getElem?_append_left hlt] at hi
          exact absurd (List.mem_of_getElem? hi) ht
        · rw [List.getElem?_append_right hge] at hi
          have := (List.getElem?_eq_some_iff.mp hi).1
          simp at this
          omega
    · rw [if_neg hx, h.2.2.2 x i]
      rcases Nat.lt_or_ge i l.length with hlt | hge
      · rw [List.getElem?_append_left hlt]
      · rw [List.getElem?_append_right hge, List.getElem?_eq_none hge]
        constructor
        · intro hh; cases hh
        · intro hi
          obtain ⟨h1, e⟩ := List.getElem?_eq_some_iff.mp hi
          simp at h1
          simp [h1] at e
          exact absurd e.symm hx

theorem tokenToId_mem {v : VocabT} {l : List (List Nat)} (h : Holds v l) (t : List Nat) (i : Nat)
    (hi : l[i]? = some t) : v.tokenToId t = i := by
  unfold VocabT.tokenToId
  rw [(h.2.2.2 t i).mpr hi]

theorem tokenToId_not_mem {v : VocabT} {l : List (List Nat)} (h : Holds v l) (t : List Nat)
    (ht : t ∉ l) : v.tokenToId t = INVALID := by
  unfold VocabT.tokenToId
  cases hh : v.tokToId t with
  | none => rfl
  | some i => exact absurd (List.mem_of_getElem? ((h.2.2.2 t i).mp hh)) ht

theorem tokenToId_lt {v : VocabT} {l : List (List Nat)} (h : Holds v l) (t : List Nat)
    (ht : v.tokenToId t ≠ INVALID) : v.tokenToId t < l.length ∧ l[v.tokenToId t]? = some t := by
  by_cases hm : t ∈ l
  · obtain ⟨i, hi⟩ := List.getElem?_of_mem hm
    rw [tokenToId_mem h t i hi]
    exact ⟨(List.getElem?_eq_some_iff.mp hi).1, hi⟩
  · exact absurd (tokenToId_not_mem h t hm) ht

theorem holds_run (v : VocabT) (l : List (List Nat)) (h : Holds v l) (ops : List Op)
    (hlen : l.length + ops.length ≤ INVALID) :
    Holds (v.run ops) (ops.foldl (fun l o => match o with
      | .add t => if t ∈ l then l else l ++ [t]
      | .clear => []) l) := by
  induction ops generalizing v l with
  | nil => exact h
  | cons o ops ih =>
    simp only [List.length_cons] at hlen
    cases o with
    | add t =>
      by_cases ht : t ∈ l
      · have : (v.addToken t).2 = v := by rw [addToken_dup h t ht]
        simpa [VocabT.run, VocabT.step, this, ht] using ih v l h (by omega)
      · have := (addToken_new h t ht (by omega)).2
        simpa [VocabT.run, VocabT.step, ht] using ih _ _ this (by simp; omega)
    | clear =>
      simpa [VocabT.run, VocabT.step, VocabT.clear] using ih _ _ holds_new (by simp; omega)

theorem readTokens_spec (data : List Nat) (ls : List Nat) (p : Nat) (v : VocabT) (l : List (List Nat))
    (h : Holds v l) (hlen : l.length + ls.length ≤ INVALID) (hfit : p + totalLen ls ≤ data.length) :
    ((l ++ cut ls (data.drop p)).Nodup →
      ∃ v', readTokens data ls p v = .ok (some v', p + totalLen ls) ∧
        Holds v' (l ++ cut ls (data.drop p))) ∧
    (¬ (l ++ cut ls (data.drop p)).Nodup → ∃ q, readTokens data ls p v = .ok (none, q)) := by
  induction ls generalizing p v l with
  | nil =>
    refine ⟨fun _ => ⟨v, by simp [readTokens, totalLen], by simpa [cut] using h⟩, ?_⟩
    intro hn
    exact absurd (by simpa [cut] using h.2.1) hn
  | cons a ls ih =>
    simp only [List.length_cons] at hlen
    simp only [totalLen] at hfit
    generalize hn : (if a = 0 then 256 else a) = n at *
    have hcut : cut (a :: ls) (data.drop p) = (data.drop p).take n :: cut ls (data.drop (p + n)) := by
      simp [cut, hn, List.drop_drop]
    rw [hcut]
    generalize ht : (data.drop p).take n = t
    have hstep : readTokens data (a :: ls) p v =
        match v.addToken t with
        | (false, _) => .ok (none, p + n)
        | (true, v') => readTokens data ls (p + n) v' := by
      simp only [readTokens, hn]
      rw [if_pos (by omega), ht]
      rcases v.addToken t with ⟨_ | _, _⟩ <;> rfl
    rw [hstep]
    by_cases hm : t ∈ l
    · rw [addToken_dup h t hm]
      refine ⟨fun hnd => ?_, fun _ => ⟨_, rfl⟩⟩
      rw [List.nodup_append] at hnd
      exact absurd rfl (hnd.2.2 t hm t (by simp))
    · obtain ⟨h1, h2⟩ := addToken_new h t hm (by omega)
      have hpair : v.addToken t = (true, (v.addToken t).2) := by rw [← h1]
      rw [hpair]
      dsimp only
      have := ih (p + n) (v.addToken t).2 (l ++ [t]) h2 (by simp; omega) (by omega)
      have e : l ++ [t] ++ cut ls (data.drop (p + n)) = l ++ t :: cut ls (data.drop (p + n)) := by simp
      rw [e] at this
      refine ⟨fun hnd => ?_, this.2⟩
      obtain ⟨v', e1, e2⟩ := this.1 hnd
      exact ⟨v', by rw [e1]; simp [totalLen, hn, Nat.add_assoc], e2⟩

theorem writeBlobs_spec (ts : List (List Nat)) (h : ∀ t ∈ ts, t ≠ [] ∧ t.length ≤ 256) (pre : List Nat) :
    ∃ ls, writeBlobs ts = some (ls, ts.flatten) ∧ totalLen ls = ts.flatten.length ∧
      cut ls (ts.flatten ++ pre) = ts ∧ ls.length = ts.length := by
  induction ts with
  | nil => exact ⟨[], rfl, rfl, rfl, rfl⟩
  | cons t ts ih =>
    obtain ⟨ls, h1, h2, h3, h4⟩ := ih (fun x hx => h x (by simp [hx]))
    have ht := h t (by simp)
    have htl : t.length ≠ 0 := by simpa using ht.1
    refine ⟨(if t.length = 256 then 0 else t.length) :: ls, ?_, ?_, ?_, by simp [h4]⟩
    · rw [writeBlobs, if_neg (by omega), h1]
      simp
    · simp only [totalLen, h2, List.flatten_cons, List.length_append]
      split <;> simp_all
    · have hn : (if (if t.length = 256 then 0 else t.length) = 0 then 256
          else (if t.length = 256 then 0 else t.length)) = t.length := by
        split <;> simp_all
      simp only [cut, hn, List.flatten_cons, List.append_assoc]
      rw [List.take_left, List.drop_left, h3]

/-- When the read leaves the data: the tokens before are distinct and fit. -/
theorem readTokens_ub (data : List Nat) (ls : List Nat) (p : Nat) (v : VocabT) (l : List (List Nat))
    (h : Holds v l) (hlen : l.length + ls.length ≤ INVALID) (hp : p ≤ data.length) :
    readTokens data ls p v = .ub ↔ ∃ k, k < ls.length ∧ p + totalLen (ls.take k) ≤ data.length ∧
      data.length < p + totalLen (ls.take (k + 1)) ∧ (l ++ cut (ls.take k) (data.drop p)).Nodup := by
  induction ls generalizing p v l with
  | nil => simp [readTokens]
  | cons a ls ih =>
    simp only [List.length_cons] at hlen
    generalize hn : (if a = 0 then 256 else a) = n
    by_cases hfit : p + n ≤ data.length
    · generalize ht : (data.drop p).take n = t
      have hstep : readTokens data (a :: ls) p v =
          match v.addToken t with
          | (false, _) => .ok (none, p + n)
          | (true, v') => readTokens data ls (p + n) v' := by
        simp only [readTokens, hn]
        rw [if_pos hfit, ht]
        rcases v.addToken t with ⟨_ | _, _⟩ <;> rfl
      rw [hstep]
      have hcut : ∀ k, cut ((a :: ls).take (k + 1)) (data.drop p) =
          t :: cut (ls.take k) (data.drop (p + n)) := by
        intro k; simp [cut, hn, List.drop_drop, ht]
      have htot : ∀ k, totalLen ((a :: ls).take (k + 1)) = n + totalLen (ls.take k) := by
        intro k; simp [totalLen, hn]
      by_cases hm : t ∈ l
      · rw [addToken_dup h t hm]
        refine ⟨fun h => by simp at h, ?_⟩
        rintro ⟨k, hk, h1, h2, h3⟩
        cases k with
        | zero => rw [htot 0] at h2; simp [totalLen] at h2; omega
        | succ k =>
          rw [hcut, List.nodup_append] at h3
          exact absurd rfl (h3.2.2 t hm t (by simp))
      · obtain ⟨h1, h2⟩ := addToken_new h t hm (by omega)
        have hpair : v.addToken t = (true, (v.addToken t).2) := by rw [← h1]
        rw [hpair]
        dsimp only
        rw [ih (p + n) (v.addToken t).2 (l ++ [t]) h2 (by simp; omega) hfit]
        constructor
        · rintro ⟨k, hk, h3, h4, h5⟩
          refine ⟨k + 1, by simp; omega, ?_, ?_, ?_⟩
          · rw [htot]; omega
          · rw [htot]; omega
          · rw [hcut]; simpa using h5
        · rintro ⟨k, hk, h3, h4, h5⟩
          cases k with
          | zero => rw [htot 0] at h4; simp [totalLen] at h4; omega
          | succ k =>
            simp only [List.length_cons] at hk
            rw [htot] at h3 h4
            rw [hcut] at h5
            exact ⟨k, by omega, by omega, by omega, by simpa using h5⟩
    · have hstep : readTokens data (a :: ls) p v = .ub := by
        simp only [readTokens, hn]
        rw [if_neg hfit]
      refine ⟨fun _ => ⟨0, by simp, by simpa [totalLen] using hp, ?_, ?_⟩, fun _ => hstep⟩
      · simp [totalLen, hn]; omega
      · simpa [cut] using h.2.1

/-- The read has no other outcomes. -/
theorem readTokens_cases (data : List Nat) (ls : List Nat) (p : Nat) (v : VocabT) :
    readTokens data ls p v = .ub ∨ ∃ r, readTokens data ls p v = .ok r := by
  induction ls generalizing p v with
  | nil => exact .inr ⟨_, rfl⟩
  | cons a ls ih =>
    simp only [readTokens]
    generalize (if a = 0 then 256 else a) = n
    split
    · split
      · exact .inr ⟨_, rfl⟩
      · exact ih _ _
    · exact .inl rfl

/-- What the converter writes for arbitrary tokens of at most 256 bytes: each empty token counts as 256
bytes. -/
theorem writeBlobs_total (ts : List (List Nat)) (h : ∀ t ∈ ts, t.length ≤ 256) :
    ∃ ls, writeBlobs ts = some (ls, ts.flatten) ∧
      totalLen ls = ts.flatten.length + 256 * ts.count [] ∧ ls.length = ts.length := by
  induction ts with
  | nil => exact ⟨[], rfl, rfl, rfl⟩
  | cons t ts ih =>
    obtain ⟨ls, h1, h2, h3⟩ := ih (fun x hx => h x (by simp [hx]))
    have ht := h t (by simp)
    refine ⟨(if t.length = 256 then 0 else t.length) :: ls, ?_, ?_, by simp [h3]⟩
    · rw [writeBlobs, if_neg (by omega), h1]
      simp
    · simp only [totalLen, h2, List.flatten_cons, List.length_append, List.count_cons]
      cases t with
      | nil => simp; omega
      | cons x xs =>
        simp only [List.length_cons] at ht ⊢
        have : ((x :: xs) == ([] : List Nat)) = false := rfl
        rw [this]
        simp only [Bool.false_eq_true, if_false]
        split <;> split <;> omega

/-! ### Fillers -/

/-- Value of a digit string. -/
def digitsVal (l : List Nat) : Nat := l.foldl (fun a d => a * 10 + (d - 48)) 0

theorem digitsVal_decimal (n : Nat) : digitsVal (decimal n) = n := by
  fun_induction decimal n with
  | case1 n h => simp [digitsVal]
  | case2 n h ih =>
    simp only [digitsVal] at ih
    simp only [digitsVal, List.foldl_append, ih, List.foldl_cons, List.foldl_nil]
    omega

theorem unusedName_inj {a b : Nat} (h : unusedName a = unusedName b) : a = b := by
  unfold unusedName at h
  rw [List.append_assoc, List.append_assoc] at h
  have h1 := List.append_cancel_left h
  have h2 := List.append_cancel_right h1
  rw [← digitsVal_decimal a, h2, digitsVal_decimal]

theorem freshIndex_spec (tokens : List (Option (List Nat))) (fuel k j : Nat)
    (h : freshIndex tokens fuel k = some j) : k ≤ j ∧ some (unusedName j) ∉ tokens := by
  induction fuel generalizing k with
  | zero => simp [freshIndex] at h
  | succ fuel ih =>
    rw [freshIndex] at h
    split at h
    · have := ih (k + 1) h
      exact ⟨by omega, this.2⟩
    · rename_i hn
      cases h
      exact ⟨Nat.le_refl _, hn⟩

theorem freshIndex_none (tokens : List (Option (List Nat))) (fuel k : Nat)
    (h : freshIndex tokens fuel k = none) : ∀ i, i < fuel → some (unusedName (k + i)) ∈ tokens := by
  induction fuel generalizing k with
  | zero => intro i hi; omega
  | succ fuel ih =>
    rw [freshIndex] at h
    split at h
    · rename_i hm
      intro i hi
      cases i with
      | zero => simpa using hm
      | succ i =>
        have := ih (k + 1) h i (by omega)
        rwa [show k + (i + 1) = k + 1 + i by omega]
    · simp at h

theorem length_le_of_inj_mem {α : Type} [DecidableEq α] (l : List α) (n : Nat) (f : Nat → α)
    (hinj : ∀ a b, f a = f b → a = b) (h : ∀ i, i < n → f i ∈ l) : n ≤ l.length := by
  induction n generalizing l with
  | zero => omega
  | succ n ih =>
    have hm := h n (by omega)
    have := ih (l.erase (f n)) (fun i hi => by
      rw [List.mem_erase_of_ne]
      · exact h i (by omega)
      · intro e; have := hinj _ _ e; omega)
    rw [List.length_erase_of_mem hm] at this
    have : 0 < l.length := List.length_pos_of_mem hm
    omega

theorem freshIndex_some (tokens : List (Option (List Nat))) (k : Nat) :
    ∃ j, freshIndex tokens (tokens.length + 1) k = some j := by
  cases h : freshIndex tokens (tokens.length + 1) k with
  | some j => exact ⟨j, rfl⟩
  | none =>
    have := length_le_of_inj_mem tokens (tokens.length + 1) (fun i => some (unusedName (k + i)))
      (fun a b e => by
        have := unusedName_inj (Option.some.inj e); omega)
      (freshIndex_none tokens _ k h)
    omega

theorem fillLoop_spec (tokens todo : List (Option (List Nat))) (k : Nat) :
    ∃ out, fillLoop tokens todo k = some out ∧ out.length = todo.length ∧
      (∀ (i : Nat) t, todo[i]? = some (some t) → out[i]? = some t) ∧
      (∀ (i : Nat), todo[i]? = some none → ∃ j, k ≤ j ∧ out[i]? = some (unusedName j) ∧
        some (unusedName j) ∉ tokens) ∧
      (∀ (i i' : Nat) j, i ≠ i' → todo[i]? = some none → todo[i']? = some none →
        out[i]? = some (unusedName j) → out[i']? ≠ some (unusedName j)) := by
  induction todo generalizing k with
  | nil => exact ⟨[], rfl, rfl, by simp, by simp, by simp⟩
  | cons o todo ih =>
    cases o with
    | some t =>
      obtain ⟨out, h1, h2, h3, h4, h5⟩ := ih k
      refine ⟨t :: out, by simp [fillLoop, h1], by simp [h2], ?_, ?_, ?_⟩
      · intro i u hi
        cases i with
        | zero => simpa using hi
        | succ i => simpa using h3 i u (by simpa using hi)
      · intro i hi
        cases i with
        | zero => simp at hi
        | succ i => simpa using h4 i (by simpa using hi)
      · intro i i' j hne hi hi' ho
        cases i with
        | zero => simp at hi
        | succ i =>
          cases i' with
          | zero => simp at hi'
          | succ i' =>
            simpa using h5 i i' j (by omega) (by simpa using hi) (by simpa using hi') (by simpa using ho)
    | none =>
      obtain ⟨j, hj⟩ := freshIndex_some tokens k
      obtain ⟨hkj, hjn⟩ := freshIndex_spec tokens _ k j hj
      obtain ⟨out, h1, h2, h3, h4, h5⟩ := ih (j + 1)
      refine ⟨unusedName j :: out, by simp [fillLoop, hj, h1], by simp [h2], ?_, ?_, ?_⟩
      · intro i u hi
        cases i with
        | zero => simp at hi
        | succ i => simpa using h3 i u (by simpa using hi)
      · intro i hi
        cases i with
        | zero => exact ⟨j, hkj, by simp, hjn⟩
        | succ i =>
          obtain ⟨j', e1, e2, e3⟩ := h4 i (by simpa using hi)
          exact ⟨j', by omega, by simpa using e2, e3⟩
      · intro i i' m hne hi hi' ho ho'
        cases i with
        | zero =>
          cases i' with
          | zero => exact hne rfl
          | succ i' =>
            obtain ⟨j', e1, e2, e3⟩ := h4 i' (by simpa using hi')
            simp only [List.getElem?_cons_zero, Option.some.injEq] at ho
            simp only [List.getElem?_cons_succ] at ho'
            rw [e2] at ho'
            have a := unusedName_inj ho
            have b := unusedName_inj (Option.some.inj ho')
            omega
        | succ i =>
          cases i' with
          | zero =>
            obtain ⟨j', e1, e2, e3⟩ := h4 i (by simpa using hi)
            simp only [List.getElem?_cons_zero, Option.some.injEq] at ho'
            simp only [List.getElem?_cons_succ] at ho
            rw [e2] at ho
            have a := unusedName_inj ho'
            have b := unusedName_inj (Option.some.inj ho)
            omega
          | succ i' =>
            exact h5 i i' m (by omega) (by simpa using hi) (by simpa using hi') (by simpa using ho)
              (by simpa using ho')

/-- What `placeTokens` stores. -/
theorem placeTokens_spec (tokens : List (Option (List Nat))) (dict : List (List Nat × Nat))
    (out : List (Option (List Nat))) (h : placeTokens tokens dict = some out) :
    out.length = tokens.length ∧
    (∀ (i : Nat) t, out[i]? = some (some t) ↔ tokens[i]? = some (some t) ∨ (t, i) ∈ dict) := by
  induction dict generalizing tokens with
  | nil =>
    simp only [placeTokens, Option.some.injEq] at h
    subst h
    simp
  | cons d dict ih =>
    obtain ⟨t0, id⟩ := d
    rw [placeTokens] at h
    split at h
    · rename_i hid
      have hlt := (List.getElem?_eq_some_iff.mp hid).1
      obtain ⟨h1, h2⟩ := ih _ h
      refine ⟨by simpa using h1, ?_⟩
      intro i t
      rw [h2 i t, List.getElem?_set]
      by_cases hi : id = i
      · subst hi
        simp only [if_true, hlt, hid]
        simp [eq_comm]
      · rw [if_neg hi]
        simp [show ¬ i = id from fun e => hi e.symm]
    · cases h

end Berts.Vocab

namespace Berts.Vocab

open Berts.Spec

/-- A successful read never left the data. -/
theorem readTokens_fits (data : List Nat) (ls : List Nat) (p : Nat) (v v' : VocabT) (q : Nat)
    (hp : p ≤ data.length)
    (h : readTokens data ls p v = .ok (some v', q)) : q = p + totalLen ls ∧ q ≤ data.length := by
  induction ls generalizing p v with
  | nil => simp [readTokens] at h; simp [totalLen]; omega
  | cons a ls ih =>
    simp only [readTokens] at h
    generalize hn : (if a = 0 then 256 else a) = n at *
    split at h
    · rename_i hfit
      split at h
      · simp at h
      · have := ih (p + n) _ hfit h
        simp only [totalLen, hn]
        omega
    · cases h

theorem initVocab_holds (sizeT dataT : Option BlobTensor) (init : VocabT → Option VocabT) (w : VocabT)
    (hlen : ∀ t, sizeT = some t → t.bytes.length ≤ INVALID)
    (h : initVocab sizeT dataT VocabT.new init = .ok (some w)) :
    ∃ ls ds, IsBlob sizeT ls ∧ IsBlob dataT ds ∧ totalLen ls = ds.length ∧ (cut ls ds).Nodup ∧
      ∃ v, init v = some w ∧ Holds v (cut ls ds) := by
  unfold initVocab at h
  split at h
  · cases h
  · cases h
  rename_i st dt
  obtain ⟨i1, n1, ls⟩ := st
  obtain ⟨i2, n2, ds⟩ := dt
  simp only at h
  split at h
  · cases h
  rename_i hn
  split at h
  · cases h
  split at h
  · cases h
  rename_i hi1 hi2
  have hn1 : n1 = 1 := by omega
  have hn2 : n2 = 1 := by omega
  have hi1 : i1 = true := by simpa using hi1
  have hi2 : i2 = true := by simpa using hi2
  subst hn1 hn2 hi1 hi2
  have hlen := hlen _ rfl
  simp only at hlen
  refine ⟨ls, ds, rfl, rfl, ?_⟩
  cases hr : readTokens ds ls 0 VocabT.new with
  | ub => rw [hr] at h; cases h
  | abort => rw [hr] at h; cases h
  | hang => rw [hr] at h; cases h
  | ok rp =>
    obtain ⟨r, p⟩ := rp
    rw [hr] at h
    simp only [Res.bind_ok] at h
    cases r with
    | none => cases h
    | some v =>
      simp only [] at h
      split at h
      · cases h
      · rename_i hp
        simp only [ne_eq, Decidable.not_not] at hp
        obtain ⟨e1, e2⟩ := readTokens_fits ds ls 0 VocabT.new v p (by omega) hr
        have hfit : 0 + totalLen ls ≤ ds.length := by omega
        have hspec := readTokens_spec ds ls 0 VocabT.new [] holds_new (by simpa using hlen) hfit
        simp only [List.nil_append, List.drop_zero] at hspec
        have hnd : (cut ls ds).Nodup := by
          refine Classical.byContradiction fun hn => ?_
          obtain ⟨q, hq⟩ := hspec.2 hn
          rw [hr] at hq
          cases hq
        obtain ⟨v', f1, f2⟩ := hspec.1 hnd
        rw [hr] at f1
        have hv : v = v' := by
          have := Res.ok.inj f1
          exact Option.some.inj (Prod.mk.inj this).1
        subst hv
        exact ⟨by omega, hnd, v, by simpa using h, f2⟩

end Berts.Vocab
