import Verif.Proofs.BpeStrings

/-! # Lemmas about whole words -/

namespace Berts.Bpe

open Berts.Unicode Berts.Spec

/-- The string shown for an id. -/
def Bpe.shown (b : Bpe) (id : Nat) : Str :=
  match b.idToToken id with
  | some t => t
  | none => b.unk

theorem wordToTokens_eq (b : Bpe) (S : List Sym) :
    wordToTokens b S = (S.map (·.id)).map b.shown := by
  unfold wordToTokens
  rw [List.map_map]
  apply List.map_congr_left
  intro s _
  simp only [Bpe.shown, Function.comp_apply]
  cases b.idToToken s.id <;> rfl

/-! ## Initial ids -/

theorem addIds_known (b : Bpe) (acc : List (Nat × Nat)) (cs : List (Str × Nat))
    (h : ∀ c ∈ cs, ∃ id, b.tokenToId c.1 = some id) :
    (addIds b acc cs).map (fun p => some p.1) =
      acc.map (fun p => some p.1) ++ cs.map (fun c => b.tokenToId c.1) := by
  induction cs generalizing acc with
  | nil => simp [addIds]
  | cons c cs ih =>
    obtain ⟨s, len⟩ := c
    obtain ⟨id, hid⟩ := h (s, len) (by simp)
    rw [addIds, hid]
    simp only
    rw [ih _ (fun c hc => h c (by simp [hc]))]
    simp only at hid
    simp [hid]

theorem addIds_nounk (b : Bpe) (acc : List (Nat × Nat)) (cs : List (Str × Nat))
    (h : b.unk = [] ∨ b.tokenToId b.unk = none) :
    (addIds b acc cs).map (·.1) = acc.map (·.1) ++ cs.filterMap (fun c => b.tokenToId c.1) := by
  fun_induction addIds b acc cs with
  | case1 acc => simp
  | case2 acc s len cs id hid ih => rw [ih]; simp [hid]
  | case3 acc s len cs hid hu u hu2 hf ih =>
    rcases h with h | h
    · exact absurd h hu
    · rw [h] at hu2; cases hu2
  | case4 acc s len cs hid hu u hu2 hf ih =>
    rcases h with h | h
    · exact absurd h hu
    · rw [h] at hu2; cases hu2
  | case5 acc s len cs hid hu hu2 ih => rw [ih]; simp [hid]
  | case6 acc s len cs hid hu ih => rw [ih]; simp [hid]

theorem addIds_each (b : Bpe) (u : Nat) (acc : List (Nat × Nat)) (cs : List (Str × Nat))
    (h0 : b.unk ≠ []) (h : b.tokenToId b.unk = some u) (hf : b.fuseUnk = false) :
    (addIds b acc cs).map (·.1) = acc.map (·.1) ++ cs.map (fun c => (b.tokenToId c.1).getD u) := by
  fun_induction addIds b acc cs with
  | case1 acc => simp
  | case2 acc s len cs id hid ih => rw [ih]; simp [hid]
  | case3 acc s len cs hid hu u' hu2 hf ih =>
    rw [h] at hu2; simp only [Option.some.injEq] at hu2; subst hu2
    rw [ih]; simp [hid]
  | case4 acc s len cs hid hu u hu2 hf' ih => rw [hf] at hf'; simp at hf'
  | case5 acc s len cs hid hu hu2 ih => rw [h] at hu2; cases hu2
  | case6 acc s len cs hid hu ih => exact absurd h0 hu

theorem addIds_fused (b : Bpe) (u : Nat) (acc : List (Nat × Nat)) (cs : List (Str × Nat))
    (h0 : b.unk ≠ []) (h : b.tokenToId b.unk = some u) (hf : b.fuseUnk = true)
    (hne : ∀ c ∈ cs, b.tokenToId c.1 ≠ some u) :
    ((acc.getLast?.map (·.1) ≠ some u) →
      (addIds b acc cs).map (·.1) =
        acc.map (·.1) ++ fusedIds u (cs.map (fun c => b.tokenToId c.1))) ∧
    ((acc.getLast?.map (·.1) = some u) →
      (addIds b acc cs).map (·.1) =
        acc.map (·.1) ++ fusedIds u ((cs.map (fun c => b.tokenToId c.1)).dropWhile Option.isNone)) := by
  have cond : ∀ acc : List (Nat × Nat),
      (match acc.getLast? with | none => false | some p => p.1 == u) = true ↔
        acc.getLast?.map (·.1) = some u := by
    intro acc; cases acc.getLast? <;> simp
  fun_induction addIds b acc cs with
  | case1 acc => simp [fusedIds]
  | case2 acc s len cs id hid ih =>
    have hid' := hne (s, len) (by simp)
    simp only at hid'
    have ih := (ih (fun c hc => hne c (by simp [hc]))).1 (by simp; intro e; rw [hid, e] at hid'; exact hid' rfl)
    constructor <;> intro _ <;> rw [ih] <;> simp [hid, fusedIds]
  | case3 acc s len cs hid hu u' hu2 hf' ih =>
    rw [h] at hu2; simp only [Option.some.injEq] at hu2; subst hu2
    have ih := (ih (fun c hc => hne c (by simp [hc]))).2 (by simp)
    have hl : ¬ acc.getLast?.map (·.1) = some u := by
      rw [← cond]; rw [hf] at hf'
      cases hg : acc.getLast? <;> simp_all
    refine ⟨fun _ => ?_, fun h => absurd h hl⟩
    rw [ih]; simp [hid, fusedIds]
  | case4 acc s len cs hid hu u' hu2 hf' ih =>
    rw [h] at hu2; simp only [Option.some.injEq] at hu2; subst hu2
    have ih := (ih (fun c hc => hne c (by simp [hc])))
    have hl : acc.getLast?.map (·.1) = some u := by
      rw [← cond]; rw [hf] at hf'
      cases hg : acc.getLast? <;> simp_all
    refine ⟨fun h => absurd hl h, fun h => ?_⟩
    rw [ih.2 h]; simp [hid]
  | case5 acc s len cs hid hu hu2 ih => rw [h] at hu2; cases hu2
  | case6 acc s len cs hid hu ih => exact absurd h0 hu

/-- The lookups of the characters of a word. -/
def lookups (b : Bpe) (text : Str) : List (Option Nat) :=
  (charTokens b.prefx b.suffix (toCodePoints text)).map b.tokenToId

theorem lookups_eq (b : Bpe) (text : Str) :
    (charStrings b (eachCp false text).length 0 (eachCp false text)).map (fun c => b.tokenToId c.1) =
      lookups b text := by
  rw [lookups, ← charStrings_fst, List.map_map]; rfl

theorem initSyms_ids (b : Bpe) (text : Str) :
    (initialSymbols b text).map (·.id) = (initIds b text).map (·.1) := by
  rw [initialSymbols_eq, linked_ids]

theorem charTokens_plain (cs : List Nat) : charTokens [] [] cs = cs.map utf16Of := by
  unfold charTokens
  apply List.ext_getElem?
  intro i
  simp

theorem known_ids (b : Bpe) (text : Str)
    (h : ∀ s ∈ charTokens b.prefx b.suffix (toCodePoints text), ∃ id, b.tokenToId s = some id) :
    ((initialSymbols b text).map (·.id)).map some =
      (charTokens b.prefx b.suffix (toCodePoints text)).map b.tokenToId := by
  rw [initSyms_ids, List.map_map]
  have := addIds_known b [] (charStrings b (eachCp false text).length 0 (eachCp false text)) ?_
  · unfold initIds
    rw [show (some ∘ fun p : Nat × Nat => p.1) = (fun p => some p.1) from rfl, this]
    rw [List.map_nil, List.nil_append]
    exact lookups_eq b text
  · intro c hc
    apply h
    rw [← charStrings_fst]
    exact List.mem_map.mpr ⟨c, hc, rfl⟩

/-! ## Runs -/

/-- A call on a whole word. -/
theorem word_run (b : Bpe) (draw : Nat → Rat) (pick : Nat → List Entry → Nat)
    (hp : ∀ t q, q ≠ [] → pick t q < q.length) (text : Str) (fuel : Nat)
    (hf : 9 * codepoints text * codepoints text ≤ fuel) :
    ∃ n S a', n ≤ 9 * codepoints text * codepoints text ∧
      mergeAll ⟨b.merge, b.dropout, draw, pick⟩ fuel (initialSymbols b text) = .ok (S, n) ∧
      StepsN ⟨b.merge, b.dropout, draw, pick⟩ n (absInit b.merge (initIds b text)) a' ∧ a'.q = [] ∧
      S.map (·.id) = a'.L.map (·.id) := by
  have hlen := initIds_length b text
  have hb : 9 * (initIds b text).length * (initIds b text).length ≤
      9 * codepoints text * codepoints text := Nat.mul_le_mul (Nat.mul_le_mul_left 9 hlen) hlen
  obtain ⟨n, S, a', h1, h2, h3, h4, h5⟩ := mergeAll_terminates ⟨b.merge, b.dropout, draw, pick⟩ hp fuel
    (initIds b text) (initIds_pos b text) (by omega)
  rw [initialSymbols_eq]
  exact ⟨n, S, a', by omega, h2, h3, h4, h5⟩

theorem absInit_ids (merge : List ((Nat × Nat) × (Nat × Nat))) (l : List (Nat × Nat)) :
    (absInit merge l).L.map (·.id) = l.map (·.1) := blks_ids 0 l

theorem StepsN.all_drop {c : Cfg} {n : Nat} {a b : Abs} (h : StepsN c n a b) (hd : ∀ t, c.drops t) :
    b.L = a.L := by
  induction h with
  | refl => rfl
  | step h1 _ ih =>
    rw [ih]
    cases h1 with
    | skip => rfl
    | act e L' new he hnd => exact absurd (hd _) hnd

/-- The reference run of a word. -/
theorem word_ref {b : Bpe} {vocab : List (Str × Nat)} (hl : Loaded b vocab)
    (hi : (vocab.map (·.2)).Nodup) (draw : Nat → Rat) (pick : Nat → List Entry → Nat)
    (hd : b.dropout ≤ 0)
    (hp : ∀ t q, q ≠ [] → ∃ e, q[pick t q]? = some e ∧ ∀ f ∈ q, e.less f = false)
    (pc sc uc : List Nat) (hpre : b.prefx = utf16Encode pc)
    (hpc : ∀ c ∈ pc, IsScalar c) (hs : b.suffix = utf16Encode sc) (hsc : ∀ c ∈ sc, IsScalar c)
    (hu : b.unk = utf16Encode uc) (huc : ∀ c ∈ uc, IsScalar c)
    (hlen : uc ≠ [] → pc.length < uc.length) (text : Str) (ht : ∀ u ∈ text, u < 0x10000) (fuel : Nat)
    (hf : 9 * codepoints text * codepoints text ≤ fuel) :
    ∃ n S, mergeAll ⟨b.merge, b.dropout, draw, pick⟩ fuel (initialSymbols b text) = .ok (S, n) ∧
      RefBpe (tableOf b.merge) ((initialSymbols b text).map (·.id)) (S.map (·.id)) := by
  have htop : Cfg.IsTop ⟨b.merge, b.dropout, draw, pick⟩ := hp
  obtain ⟨n, S, a', h1, h2, h3, h4, h5⟩ := word_run b draw pick htop.inRange text fuel hf
  obtain ⟨st, s1, s2⟩ := initIds_strings b text pc sc uc hpre hpc hs hsc hu huc hlen ht
  obtain ⟨J, j1, j2⟩ := spanTable_exists hl hi (initIds b text) st s1 s2
  have hsorted : (absInit b.merge (initIds b text)).L.Pairwise (fun x y => x.ix < y.ix) :=
    blks_sorted 0 _
  have hcov := covered_init b.merge (initIds b text)
  refine ⟨n, S, h2, ?_, ?_⟩
  · rw [h5, initSyms_ids, ← absInit_ids b.merge]
    exact StepsN.refSteps j1 htop hd h3 hsorted hcov rfl (spans_init _ j2)
  · rw [h5]
    exact (h3.covered hsorted hcov).1.normal h4 (h3.no_skip hd rfl)

/-! ## Reference runs under a renaming of the tokens -/

theorem refBpe_map {α β : Type} (f : α → β) (tn : MergeTable α) (ts : MergeTable β) (P : α → Prop)
    (h1 : ∀ a b r n, P a → P b → tn a b = some (r, n) → ts (f a) (f b) = some (r, f n) ∧ P n)
    (h2 : ∀ a b, P a → P b → tn a b = none → ts (f a) (f b) = none)
    {w v : List α} (h : RefBpe tn w v) (hw : ∀ a ∈ w, P a) : RefBpe ts (w.map f) (v.map f) := by
  have conv : ∀ {w : List α} {pre : List β} {x y : β} {post : List β}, (∀ a ∈ w, P a) →
      w.map f = pre ++ x :: y :: post → ∃ pre' a b post', w = pre' ++ a :: b :: post' ∧
        pre'.length = pre.length ∧ f a = x ∧ f b = y ∧ P a ∧ P b := by
    intro w pre x y post hw h
    obtain ⟨A, L2, rfl, h1, h2⟩ := List.map_eq_append_iff.mp h
    obtain ⟨a, L3, rfl, h3, h4⟩ := List.map_eq_cons_iff.mp h2
    obtain ⟨b, B, rfl, h5, h6⟩ := List.map_eq_cons_iff.mp h4
    exact ⟨A, a, b, B, rfl, by rw [← h1]; simp, h3, h5, hw a (by simp), hw b (by simp)⟩
  have step : ∀ {w w' : List α}, (∀ a ∈ w, P a) → RefStep tn w w' →
      RefStep ts (w.map f) (w'.map f) ∧ ∀ a ∈ w', P a := by
    intro w w' hw ⟨pre, a, b, post, r, n, e1, e2, e3, e4⟩
    subst e1
    obtain ⟨g1, g2⟩ := h1 a b r n (hw a (by simp)) (hw b (by simp)) e2
    refine ⟨⟨pre.map f, f a, f b, post.map f, r, f n, by simp, g1, by simp [e3], ?_⟩, ?_⟩
    · intro pre' x y post' r' m he hm
      obtain ⟨p2, a2, b2, q2, k1, k2, rfl, rfl, k5, k6⟩ := conv hw he
      cases hn : tn a2 b2 with
      | none => rw [h2 a2 b2 k5 k6 hn] at hm; cases hm
      | some rn =>
        obtain ⟨r2, n2⟩ := rn
        rw [(h1 a2 b2 r2 n2 k5 k6 hn).1] at hm
        simp only [Option.some.injEq, Prod.mk.injEq] at hm
        have := e4 p2 a2 b2 q2 r2 n2 k1 hn
        rw [List.length_map, ← k2, ← hm.1]
        exact this
    · subst e3
      intro c hc
      simp only [List.mem_append, List.mem_cons] at hc
      rcases hc with hc | rfl | hc
      · exact hw c (by simp [hc])
      · exact g2
      · exact hw c (by simp [hc])
  obtain ⟨hs, hn⟩ := h
  have hall : Star (RefStep ts) (w.map f) (v.map f) ∧ ∀ a ∈ v, P a := by
    induction hs with
    | refl a => exact ⟨Star.refl _, hw⟩
    | head h1 _ ih =>
      obtain ⟨s1, s2⟩ := step hw h1
      obtain ⟨i1, i2⟩ := ih s2 hn
      exact ⟨Star.head s1 i1, i2⟩
  refine ⟨hall.1, ?_⟩
  intro pre x y post he
  obtain ⟨p2, a2, b2, q2, k1, k2, rfl, rfl, k5, k6⟩ := conv hall.2 he
  exact h2 a2 b2 k5 k6 (hn _ _ _ _ k1)

/-- The ids of a list of token pairs. -/
theorem pairIds_spec (vocab : List (Str × Nat)) (pairs : List (Str × Str)) :
    (∀ ms, pairIds vocab pairs = some ms ↔
      ms.map (fun p => (some p.1, some p.2)) = pairs.map (fun p => (find vocab p.1, find vocab p.2))) := by
  induction pairs with
  | nil => intro ms; simp [pairIds]
  | cons p pairs ih =>
    obtain ⟨t0, t1⟩ := p
    intro ms
    rw [pairIds]
    cases h0 : find vocab t0 with
    | none => cases ms <;> simp [h0]
    | some i0 =>
      cases h1 : find vocab t1 with
      | none => cases ms <;> simp [h0, h1]
      | some i1 =>
        simp only [Option.map_eq_some_iff]
        constructor
        · rintro ⟨l, hl, rfl⟩
          have := (ih l).mp hl
          simp [h0, h1, this]
        · intro h
          cases ms with
          | nil => simp at h
          | cons q ms =>
            simp only [List.map_cons, List.cons.injEq, Prod.mk.injEq, h0, h1, Option.some.injEq] at h
            refine ⟨ms, (ih ms).mpr h.2, ?_⟩
            obtain ⟨⟨rfl, rfl⟩, _⟩ := h
            rfl

/-! ## Merges and the unknown token -/

theorem mergeStep_count {tbl : MergeTable Nat} (u : Nat)
    (hf : ∀ a b r n, tbl a b = some (r, n) → a ≠ u ∧ b ≠ u ∧ n ≠ u) {w v : List Nat}
    (h : Star (MergeStep tbl) w v) : v.count u = w.count u := by
  induction h with
  | refl => rfl
  | head hs _ ih =>
    obtain ⟨p, a, b, q, r, n, e1, e2, e3⟩ := hs
    obtain ⟨g1, g2, g3⟩ := hf a b r n e2
    rw [ih, e1, e3]
    simp [List.count_cons_of_ne, g1, g2, g3]

/-! ## Schedules with quadratically many iterations -/

/-- In the iterations from `t` on: `k - 1` drops and one acceptance, and so on with `k - 1`. -/
def Good (d : Nat → Prop) : Nat → Nat → Prop
  | 0, _ => True
  | k + 1, t => (∀ i, i < k → d (t + i)) ∧ ¬ d (t + k) ∧ Good d k (t + k + 1)

def sched : Nat → Nat → Bool
  | 0, _ => false
  | k + 1, t => if t < k then true else if t = k then false else sched k (t - (k + 1))

theorem good_sched (d : Nat → Prop) (k t : Nat) (h : ∀ i, d (t + i) ↔ sched k i = true) :
    Good d k t := by
  induction k generalizing t with
  | zero => trivial
  | succ k ih =>
    refine ⟨fun i hi => ?_, ?_, ih _ (fun i => ?_)⟩
    · rw [h]; simp [sched, hi]
    · rw [h]; simp [sched]
    · have := h (k + 1 + i)
      rw [show t + k + 1 + i = t + (k + 1 + i) by omega, this]
      simp only [sched]
      rw [if_neg (by omega), if_neg (by omega), show k + 1 + i - (k + 1) = i by omega]

/-- If merges never push anything, a good schedule makes the loop run quadratically long. -/
theorem StepsN.slow {c : Cfg} (hnew : ∀ L e L' new, Fate c.merge L e L' new → new = [])
    {n : Nat} {a b : Abs} (h : StepsN c n a b) (hb : b.q = []) (j k : Nat) (hjk : j ≤ k)
    (hq : a.q.length = j + 1) (hs : a.skip.length = k - j)
    (hd : ∀ i, i < j → c.drops (a.pops + i)) (hn : ¬ c.drops (a.pops + j))
    (hg : Good c.drops k (a.pops + j + 1)) : 2 * (j + 1) + k * (k + 1) ≤ 2 * n := by
  induction h generalizing j k with
  | refl => rw [hb] at hq; simp at hq
  | @step n a b d h1 h2 ih =>
    cases h1 with
    | skip e he hdr =>
      have hlt := getElem?_lt he
      cases j with
      | zero => exact absurd hdr hn
      | succ j =>
        have := ih hb j k (by omega)
          (by rw [List.length_eraseIdx_of_lt hlt]; omega)
          (by simp; omega)
          (fun i hi => by
            have := hd (i + 1) (by omega)
            rw [show a.pops + 1 + i = a.pops + (i + 1) by omega]; exact this)
          (by rw [show a.pops + 1 + j = a.pops + (j + 1) by omega]; exact hn)
          (by
            rw [show a.pops + 1 + j + 1 = a.pops + (j + 1) + 1 by omega]; exact hg)
        omega
    | act e L' new he hdr hf =>
      have hlt := getElem?_lt he
      have hnil := hnew _ _ _ _ hf
      subst hnil
      cases j with
      | succ j => exact absurd (hd 0 (by omega)) hdr
      | zero =>
        cases k with
        | zero => omega
        | succ k =>
          obtain ⟨g1, g2, g3⟩ := hg
          have := ih hb k k (Nat.le_refl _)
            (by simp only [List.append_nil, List.length_append]
                rw [List.length_eraseIdx_of_lt hlt]; omega)
            (by simp) g1 g2 g3
          have e : (k + 1) * (k + 1 + 1) = k * (k + 1) + 2 * (k + 1) := by
            rw [Nat.mul_add, Nat.mul_comm (k+1) (k+1), Nat.mul_add]
            have : (k+1) * k = k * (k+1) := Nat.mul_comm _ _
            omega
          omega

end Berts.Bpe
