import Verif.Proofs.BpeWords
import Verif.Proofs.RobertaLog

/-! # The merges that byte pair encoding reports -/

namespace Berts.Bpe

open Berts.Unicode Berts.Spec Berts.Roberta

/-- One iteration, on blocks, with the merge it reports. -/
inductive LStep (c : Cfg) (a : Abs) : List (Nat × Nat × Nat) → Abs → Prop
  | skip (e : Entry) : a.q[c.pick a.pops a.q]? = some e → c.drops a.pops →
      LStep c a [] ⟨a.L, a.q.eraseIdx (c.pick a.pops a.q), a.skip ++ [e], a.pops + 1⟩
  | stale (e : Entry) : a.q[c.pick a.pops a.q]? = some e → ¬ c.drops a.pops →
      (∀ A x y B, a.L = A ++ x :: y :: B → x.ix = e.index → ∀ r, find c.merge (x.id, y.id) ≠ some (r, e.newId)) →
      LStep c a [] ⟨a.L, a.q.eraseIdx (c.pick a.pops a.q) ++ a.skip ++ [], [], a.pops + 1⟩
  | merge (e : Entry) (A : List Blk) (x y : Blk) (B : List Blk) (r : Nat) :
      a.q[c.pick a.pops a.q]? = some e → ¬ c.drops a.pops → a.L = A ++ x :: y :: B → x.ix = e.index →
      find c.merge (x.id, y.id) = some (r, e.newId) →
      LStep c a [(x.id, y.id, e.newId)] ⟨A ++ ⟨x.ix, e.newId, x.len + y.len⟩ :: B,
        a.q.eraseIdx (c.pick a.pops a.q) ++ a.skip ++ (pushPrev c.merge A e.newId ++ pushNext c.merge x.ix e.newId B),
        [], a.pops + 1⟩

theorem LStep.step {c : Cfg} {a b : Abs} {ms : List (Nat × Nat × Nat)} (h : LStep c a ms b) : AStep c a b := by
  cases h with
  | skip e h1 h2 => exact .skip e h1 h2
  | stale e h1 h2 h3 => exact .act e _ _ h1 h2 (.stale h3)
  | merge e A x y B r h1 h2 h3 h4 h5 => exact .act e _ _ h1 h2 (.merge A x y B r h3 h4 h5)

/-- Iterations with the merges they report. -/
inductive LSteps (c : Cfg) : Abs → List (Nat × Nat × Nat) → Abs → Prop
  | refl (a : Abs) : LSteps c a [] a
  | step {a b d : Abs} {m ms : List (Nat × Nat × Nat)} : LStep c a m b → LSteps c b ms d → LSteps c a (m ++ ms) d

theorem merged_step {c : Cfg} {s : St} {a b : Abs} {e : Entry} (h : Rel s a)
    (he : s.q[c.pick s.pops s.q]? = some e) (st : AStep c a b) : LStep c a (merged c s e) b := by
  have he' : a.q[c.pick a.pops a.q]? = some e := by rw [← h.q, ← h.pops]; exact he
  cases st with
  | skip e1 h1 h2 =>
    rw [he'] at h1
    cases Option.some.inj h1
    have : merged c s e = [] := by unfold merged; rw [if_pos (by rw [h.pops]; exact h2)]
    rw [this]
    exact .skip e he' h2
  | act e1 L' new h1 h2 hf =>
    rw [he'] at h1
    cases Option.some.inj h1
    have hnd : ¬ (0 < c.dropout ∧ c.draw s.pops < c.dropout) := by rw [h.pops]; exact h2
    cases hf with
    | stale hst =>
      have : merged c s e = [] := by
        unfold merged
        rw [if_neg hnd]
        split
        · rfl
        · rename_i sym hs
          split
          · rfl
          · rename_i hl
            obtain ⟨A, x, B, hL, hx, hsym⟩ := mem_split_at h.inv hs hl
            split
            · rfl
            · rename_i nextPos hn
              split
              · rfl
              · rename_i right hr
                split
                · rfl
                · rename_i rank newId hfi
                  split
                  · rfl
                  · rename_i hne
                    have hne : newId = e.newId := by simpa using hne
                    subst hsym
                    cases B with
                    | nil => simp [headIx] at hn
                    | cons y B =>
                      simp only [headIx, Option.some.injEq] at hn
                      subst hn
                      have hinv := h.inv.seg
                      rw [hL] at hinv
                      have hseg := ((Seg_append _ _ _ _ _).mp hinv).2.2.2.1
                      rw [hr] at hseg
                      have hid : right.id = y.id := by rw [Option.some.inj hseg]
                      rw [hid, hne] at hfi
                      exact absurd hfi (hst A x y B hL hx rank)
      rw [this]
      exact .stale e he' h2 hst
    | merge A x y B r hL hx hfi =>
      have hinv := h.inv.seg
      rw [hL] at hinv
      have hseg := (Seg_append _ _ _ _ _).mp hinv
      have hxs := hseg.2.1
      have hxl := hseg.2.2.1
      have hys := hseg.2.2.2.1
      have : merged c s e = [(x.id, y.id, e.newId)] := by
        unfold merged
        rw [if_neg hnd, ← hx, hxs]
        simp only [headIx]
        rw [if_neg (by omega), hys]
        simp only [hfi, ne_eq, not_true_eq_false, if_false]
      rw [this]
      exact .merge e A x y B r he' h2 hL hx hfi

theorem iteration_rel (c : Cfg) (s : St) (a : Abs) (h : Rel s a) (e : Entry)
    (hget : s.q[c.pick s.pops s.q]? = some e) :
    ∃ s1 a1, iteration c s e (s.q.eraseIdx (c.pick s.pops s.q)) = .ok s1 ∧ AStep c a a1 ∧ Rel s1 a1 := by
  have hmem : e ∈ s.q := List.mem_of_getElem? hget
  by_cases hd : 0 < c.dropout ∧ c.draw s.pops < c.dropout
  · refine ⟨_, ⟨a.L, a.q.eraseIdx (c.pick a.pops a.q), a.skip ++ [e], a.pops + 1⟩,
      by unfold iteration; rw [if_pos hd], AStep.skip e ?_ ?_, ?_⟩
    · rw [← h.q, ← h.pops]; exact hget
    · rw [← h.pops]; exact hd
    · refine ⟨h.inv, by simp [h.q, h.pops], by simp [h.skip], by simp [h.pops], ?_⟩
      intro f hf
      apply h.bound
      simp only [List.mem_append, List.mem_singleton] at hf ⊢
      rcases hf with hf | hf | hf
      · exact Or.inl (List.mem_of_mem_eraseIdx hf)
      · exact Or.inr hf
      · subst hf; exact Or.inl hmem
  · obtain ⟨syms', L', new, h1, h2, h3, h4⟩ := iteration_spec c s e
      (s.q.eraseIdx (c.pick s.pops s.q)) a.L h.inv (h.bound e (by simp [hmem])) hd
    refine ⟨_, ⟨L', a.q.eraseIdx (c.pick a.pops a.q) ++ a.skip ++ new, [], a.pops + 1⟩, h1,
      AStep.act e L' new ?_ ?_ h2, ?_⟩
    · rw [← h.q, ← h.pops]; exact hget
    · rw [← h.pops]; exact hd
    · refine ⟨h3, by simp [h.q, h.pops, h.skip], rfl, by simp [h.pops], ?_⟩
      intro f hf
      simp only [List.append_nil, List.mem_append] at hf
      simp only
      rw [h4]
      rcases hf with (hf | hf) | hf
      · exact h.bound f (by simp [List.mem_of_mem_eraseIdx hf])
      · exact h.bound f (by simp [hf])
      · obtain ⟨x, hx, hxf⟩ := h2.new_index f hf
        rw [← hxf, ← h4]; exact h3.lt x hx

theorem merges_steps (c : Cfg) (hp : c.InRange) (fuel : Nat) (s : St) (a : Abs) (h : Rel s a) (s' : St)
    (ho : mainLoop c fuel s = .ok s') : ∃ a', LSteps c a (merges c fuel s) a' ∧ Rel s' a' ∧ a'.q = [] := by
  induction fuel generalizing s a with
  | zero =>
    unfold mainLoop at ho
    unfold merges
    by_cases hq : s.q = []
    · rw [if_pos hq] at ho ⊢
      cases Res.ok.inj ho
      exact ⟨a, .refl a, h, by rw [← h.q]; exact hq⟩
    · rw [if_neg hq] at ho
      cases ho
  | succ fuel ih =>
    unfold mainLoop at ho
    unfold merges
    by_cases hq : s.q = []
    · rw [if_pos hq] at ho ⊢
      cases Res.ok.inj ho
      exact ⟨a, .refl a, h, by rw [← h.q]; exact hq⟩
    · rw [if_neg hq] at ho ⊢
      have hlt := hp s.pops s.q hq
      have hget : s.q[c.pick s.pops s.q]? = some s.q[c.pick s.pops s.q] := List.getElem?_eq_getElem hlt
      simp only [hget] at ho ⊢
      obtain ⟨s1, a1, h1, h2, h3⟩ := iteration_rel c s a h _ hget
      rw [h1] at ho ⊢
      obtain ⟨a', h4, h5⟩ := ih s1 a1 h3 ho
      exact ⟨a', .step (merged_step h hget h2) h4, h5⟩

/-! ## Derivations -/

theorem LStep.trace {c : Cfg} {a b : Abs} {m : List (Nat × Nat × Nat)} (h : LStep c a m b)
    {ms : List (Nat × Nat × Nat)} {v : List Nat} (ht : Trace (tableOf c.merge) (b.L.map (·.id)) ms v) :
    Trace (tableOf c.merge) (a.L.map (·.id)) (m ++ ms) v := by
  cases h with
  | skip e h1 h2 => exact ht
  | stale e h1 h2 h3 => exact ht
  | merge e A x y B r h1 h2 h3 h4 h5 =>
    rw [h3]
    simp only [List.map_append, List.map_cons] at ht ⊢
    exact .merge h5 ht

theorem LSteps.trace {c : Cfg} {a b : Abs} {ms : List (Nat × Nat × Nat)} (h : LSteps c a ms b) :
    Trace (tableOf c.merge) (a.L.map (·.id)) ms (b.L.map (·.id)) := by
  induction h with
  | refl a => exact .done _
  | step h1 _ ih => exact h1.trace ih

theorem LStep.refTrace {c : Cfg} {N : Nat} {J : Nat → Nat → Option Nat} (hJ : SpanTable c.merge N J)
    (ht : c.IsTop) {a b : Abs} (hs : a.L.Pairwise (fun x y => x.ix < y.ix))
    (hc : Covered c.merge a) (hsk : a.skip = []) (h : Spans c.merge N J a) {m : List (Nat × Nat × Nat)}
    (st : LStep c a m b) {ms : List (Nat × Nat × Nat)} {v : List Nat}
    (htr : RefTrace (tableOf c.merge) (b.L.map (·.id)) ms v) :
    RefTrace (tableOf c.merge) (a.L.map (·.id)) (m ++ ms) v := by
  cases st with
  | skip e h1 h2 => exact htr
  | stale e h1 h2 h3 => exact htr
  | merge e A x y B r he hd hL hx hf =>
    have hq : a.q ≠ [] := by rintro hq; rw [hq] at he; simp at he
    obtain ⟨e', he', htop⟩ := ht a.pops a.q hq
    rw [he] at he'
    simp only [Option.some.injEq] at he'
    subst he'
    have hr : e.rank = r := h.rank hJ (List.mem_of_getElem? he) hL hx hf
    have goal : RefTrace (tableOf c.merge) (A.map (·.id) ++ x.id :: y.id :: B.map (·.id)) ((x.id, y.id, e.newId) :: ms)
        v := by
      refine .merge (r := r) hf ?_ (by simpa using htr)
      intro pre' a' b' post' r' n' hsp hf'
      have hsp : a.L.map (·.id) = pre' ++ a' :: b' :: post' := by rw [hL]; simpa using hsp
      obtain ⟨A', x', y', B', hL', rfl, rfl, rfl, rfl⟩ := map_split_pair hsp
      have hmem := hc A' x' y' B' r' n' hL' hf'
      rw [hsk, List.append_nil] at hmem
      have := htop _ hmem
      unfold Entry.less at this
      simp only [hr] at this
      by_cases hrr : r ≠ r'
      · rw [if_pos hrr] at this
        left
        have := of_decide_eq_false this
        omega
      · rw [if_neg hrr] at this
        have := of_decide_eq_false this
        right
        refine ⟨by omega, ?_⟩
        rw [List.length_map, List.length_map]
        rw [hL] at hL' hs
        exact sorted_length_le hs hL' (by omega)
    rw [hL]
    simpa using goal

theorem LSteps.refTrace {c : Cfg} {N : Nat} {J : Nat → Nat → Option Nat}
    (hJ : SpanTable c.merge N J) (ht : c.IsTop) (hd : c.dropout ≤ 0) {a b : Abs} {ms : List (Nat × Nat × Nat)}
    (st : LSteps c a ms b) (hs : a.L.Pairwise (fun x y => x.ix < y.ix))
    (hc : Covered c.merge a) (hsk : a.skip = []) (h : Spans c.merge N J a) :
    RefTrace (tableOf c.merge) (a.L.map (·.id)) ms (b.L.map (·.id)) := by
  induction st with
  | refl => exact .done _
  | @step a b d m ms h1 h2 ih =>
    exact h1.refTrace hJ ht hs hc hsk h
      (ih (h1.step.sorted hs) (h1.step.covered hs hc)
        ((StepsN.step h1.step (StepsN.refl b)).no_skip hd hsk) (h1.step.spans hJ hs h))

/-- The merges reported for a word. -/
def wordMerges (b : Bpe) (v : Env) (text : Str) : List (Nat × Nat × Nat) :=
  merges ⟨b.merge, b.dropout, v.draw, v.pick⟩ v.fuel
    ⟨initialSymbols b text, initQueue b.merge 0 (initialSymbols b text), [], 0⟩

theorem word_steps (b : Bpe) (v : Env) (hp : ∀ t q, q ≠ [] → v.pick t q < q.length) (text : Str) {S : List Sym} {n : Nat}
    (ho : mergeAll ⟨b.merge, b.dropout, v.draw, v.pick⟩ v.fuel (initialSymbols b text) = .ok (S, n)) :
    ∃ a', LSteps ⟨b.merge, b.dropout, v.draw, v.pick⟩ (absInit b.merge (initIds b text)) (wordMerges b v text) a' ∧
      S.map (·.id) = a'.L.map (·.id) := by
  unfold mergeAll at ho
  obtain ⟨s', h1, h2⟩ := bind_eq_ok ho
  injection h2 with h2
  injection h2 with h2 h3
  have hr := rel_init b.merge (initIds b text) (initIds_pos b text)
  rw [← initialSymbols_eq] at hr
  obtain ⟨a', h4, h5, _⟩ := merges_steps ⟨b.merge, b.dropout, v.draw, v.pick⟩ hp v.fuel _ _ hr s' h1
  refine ⟨a', h4, ?_⟩
  rw [← h2]
  exact h5.inv.filter

theorem word_trace (b : Bpe) (v : Env) (hp : ∀ t q, q ≠ [] → v.pick t q < q.length) (text : Str) {S : List Sym} {n : Nat}
    (ho : mergeAll ⟨b.merge, b.dropout, v.draw, v.pick⟩ v.fuel (initialSymbols b text) = .ok (S, n)) :
    Trace (tableOf b.merge) ((initialSymbols b text).map (·.id)) (wordMerges b v text) (S.map (·.id)) := by
  obtain ⟨a', h1, h2⟩ := word_steps b v hp text ho
  rw [h2, initSyms_ids, ← absInit_ids b.merge]
  exact h1.trace

theorem word_refTrace {b : Bpe} {vocab : List (Str × Nat)} (hl : Loaded b vocab)
    (hi : (vocab.map (·.2)).Nodup) (v : Env) (hd : b.dropout ≤ 0)
    (hp : ∀ t q, q ≠ [] → ∃ e, q[v.pick t q]? = some e ∧ ∀ f ∈ q, e.less f = false)
    (pc sc uc : List Nat) (hpre : b.prefx = utf16Encode pc)
    (hpc : ∀ c ∈ pc, IsScalar c) (hs : b.suffix = utf16Encode sc) (hsc : ∀ c ∈ sc, IsScalar c)
    (hu : b.unk = utf16Encode uc) (huc : ∀ c ∈ uc, IsScalar c)
    (hlen : uc ≠ [] → pc.length < uc.length) (text : Str) (ht : ∀ u ∈ text, u < 0x10000) {S : List Sym} {n : Nat}
    (ho : mergeAll ⟨b.merge, b.dropout, v.draw, v.pick⟩ v.fuel (initialSymbols b text) = .ok (S, n)) :
    RefTrace (tableOf b.merge) ((initialSymbols b text).map (·.id)) (wordMerges b v text) (S.map (·.id)) := by
  have htop : Cfg.IsTop ⟨b.merge, b.dropout, v.draw, v.pick⟩ := hp
  obtain ⟨a', h1, h2⟩ := word_steps b v htop.inRange text ho
  obtain ⟨st, s1, s2⟩ := initIds_strings b text pc sc uc hpre hpc hs hsc hu huc hlen ht
  obtain ⟨J, j1, j2⟩ := spanTable_exists hl hi (initIds b text) st s1 s2
  rw [h2, initSyms_ids, ← absInit_ids b.merge]
  exact h1.refTrace j1 htop hd (blks_sorted 0 _) (covered_init b.merge (initIds b text)) rfl (spans_init _ j2)

/-- The ids in parentheses. -/
theorem idText_spaced (syms : List Sym) : idText syms = bytes! "(" ++ spaced (syms.map (·.id)) ++ bytes! ")" := by
  have : ∀ syms : List Sym, (syms.flatMap fun s => Vocab.decimal s.id ++ [32]).dropLast = spaced (syms.map (·.id)) := by
    intro syms
    induction syms with
    | nil => rfl
    | cons s syms ih =>
      cases syms with
      | nil => simp [spaced]
      | cons s' syms =>
        rw [List.flatMap_cons, List.dropLast_append_of_ne_nil (by simp), ih]
        simp [spaced]
  unfold idText
  rw [this]
  rfl

end Berts.Bpe
