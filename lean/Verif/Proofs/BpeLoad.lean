import Verif.Proofs.Bpe

/-! # Lemmas about loading, the initial symbols and the queue contract -/

namespace Berts.Bpe

open Berts.Unicode Berts.Spec

/-! ## `merge_all` -/

theorem mergeAll_run (c : Cfg) (hp : c.InRange) (fuel : Nat) (l : List (Nat × Nat))
    (hl : ∀ p ∈ l, 0 < p.2) :
    (mergeAll c fuel (linked l) = .hang ∧ ∃ a', StepsN c fuel (absInit c.merge l) a' ∧ a'.q ≠ []) ∨
    (∃ n S a', n ≤ fuel ∧ mergeAll c fuel (linked l) = .ok (S, n) ∧
      StepsN c n (absInit c.merge l) a' ∧ a'.q = [] ∧ S.map (·.id) = a'.L.map (·.id)) := by
  unfold mergeAll
  rcases mainLoop_spec c hp fuel _ _ (rel_init c.merge l hl) with ⟨h1, h2⟩ | ⟨n, s', a', hn, h1, h2, h3, h4⟩
  · left; rw [h1]; exact ⟨rfl, h2⟩
  · right
    rw [h1]
    refine ⟨n, _, a', hn, ?_, h2, h4, h3.inv.filter⟩
    have := h2.pops
    simp only [absInit, Nat.zero_add] at this
    simp only [Res.bind]
    rw [h3.pops, this]

theorem phi_init (merge : List ((Nat × Nat) × (Nat × Nat))) (l : List (Nat × Nat)) :
    (absInit merge l).phi ≤ l.length - 1 + 2 * l.length ∧ (absInit merge l).q.length ≤ l.length - 1 := by
  have := absQueue_len merge (blks 0 l)
  rw [blks_length] at this
  simp only [Abs.phi, absInit, blks_length, List.length_nil]
  omega

/-- An iteration allowance that is always sufficient. -/
theorem mergeAll_terminates (c : Cfg) (hp : c.InRange) (fuel : Nat) (l : List (Nat × Nat))
    (hl : ∀ p ∈ l, 0 < p.2) (hf : 9 * l.length * l.length ≤ fuel) :
    ∃ n S a', n ≤ 9 * l.length * l.length ∧ mergeAll c fuel (linked l) = .ok (S, n) ∧
      StepsN c n (absInit c.merge l) a' ∧ a'.q = [] ∧ S.map (·.id) = a'.L.map (·.id) := by
  obtain ⟨p1, p2⟩ := phi_init c.merge l
  have bound : ∀ {n : Nat} {a' : Abs}, StepsN c n (absInit c.merge l) a' →
      n + a'.q.length ≤ 9 * l.length * l.length := by
    intro n a' h
    have := h.quadratic ((absInit c.merge l).phi + 1) (by omega)
    have h3 : (absInit c.merge l).phi * ((absInit c.merge l).phi + 1) ≤
        (3 * l.length - 1) * (3 * l.length) := by
      cases hm : l.length with
      | zero => simp [hm] at p1; rw [p1]; simp
      | succ m => exact Nat.mul_le_mul (by omega) (by omega)
    have h4 : (3 * l.length - 1) * (3 * l.length) + l.length ≤ 9 * l.length * l.length := by
      cases hm : l.length with
      | zero => simp
      | succ m =>
        have : (3 * (m + 1) - 1) * (3 * (m + 1)) + 3 * (m + 1) = 9 * (m + 1) * (m + 1) := by
          have e : 3 * (m + 1) - 1 = 3 * m + 2 := by omega
          rw [e]; grind
        omega
    omega
  rcases mergeAll_run c hp fuel l hl with ⟨_, a', h2, h3⟩ | ⟨n, S, a', hn, h1, h2, h3, h4⟩
  · have := bound h2
    have : 0 < a'.q.length := List.length_pos_iff.mpr h3
    omega
  · have := bound h2
    exact ⟨n, S, a', by omega, h1, h2, h3, h4⟩

theorem mergeAll_linear (c : Cfg) (hp : c.InRange) (hd : c.dropout ≤ 0) (fuel : Nat)
    (l : List (Nat × Nat)) (hl : ∀ p ∈ l, 0 < p.2) (hf : 3 * (l.length - 1) ≤ fuel) :
    ∃ n S a', n ≤ 3 * (l.length - 1) ∧ mergeAll c fuel (linked l) = .ok (S, n) ∧
      StepsN c n (absInit c.merge l) a' ∧ a'.q = [] ∧ S.map (·.id) = a'.L.map (·.id) := by
  obtain ⟨p1, p2⟩ := phi_init c.merge l
  have bound : ∀ {n : Nat} {a' : Abs}, StepsN c n (absInit c.merge l) a' →
      n + a'.q.length ≤ 3 * (l.length - 1) := by
    intro n a' h
    have h1 := h.linear hd
    cases hm : l with
    | nil =>
      subst hm
      simp only [List.length_nil] at p1 ⊢
      have : a'.q.length ≤ a'.phi := by unfold Abs.phi; omega
      omega
    | cons p l' =>
      have h2 : a'.L ≠ [] := h.nonempty (by rw [hm]; simp [absInit, blks])
      have h3 : 0 < a'.L.length := List.length_pos_iff.mpr h2
      have : a'.q.length + 2 ≤ a'.phi := by unfold Abs.phi; omega
      rw [← hm]
      omega
  rcases mergeAll_run c hp fuel l hl with ⟨_, a', h2, h3⟩ | ⟨n, S, a', hn, h1, h2, h3, h4⟩
  · have := bound h2
    have : 0 < a'.q.length := List.length_pos_iff.mpr h3
    omega
  · have := bound h2
    exact ⟨n, S, a', by omega, h1, h2, h3, h4⟩

/-! ## A queue oracle that meets the contract -/

/-- Position of a greatest element. -/
def topIdx : List Entry → Nat
  | [] => 0
  | [_] => 0
  | e :: f :: es =>
    match (f :: es)[topIdx (f :: es)]? with
    | some g => if e.less g then topIdx (f :: es) + 1 else 0
    | none => 0

theorem less_trans {a b c : Entry} (h1 : a.less b = false) (h2 : b.less c = false) :
    a.less c = false := by
  unfold Entry.less at *
  grind

theorem less_asymm {a b : Entry} (h1 : a.less b = true) : b.less a = false := by
  unfold Entry.less at *
  grind

theorem less_irrefl (a : Entry) : a.less a = false := by
  unfold Entry.less
  grind

theorem topIdx_spec (q : List Entry) (hq : q ≠ []) :
    ∃ e, q[topIdx q]? = some e ∧ ∀ f ∈ q, e.less f = false := by
  fun_induction topIdx q with
  | case1 => exact absurd rfl hq
  | case2 e => exact ⟨e, rfl, by simp [less_irrefl]⟩
  | case3 e f es g hg hl ih =>
    obtain ⟨g', h1, h2⟩ := ih (by simp)
    rw [hg] at h1
    simp only [Option.some.injEq] at h1
    subst h1
    refine ⟨g, by rw [List.getElem?_cons_succ]; exact hg, fun h hh => ?_⟩
    rcases List.mem_cons.mp hh with rfl | hh
    · exact less_asymm hl
    · exact h2 h hh
  | case4 e f es g hg hl ih =>
    obtain ⟨g', h1, h2⟩ := ih (by simp)
    rw [hg] at h1
    simp only [Option.some.injEq] at h1
    subst h1
    refine ⟨e, rfl, fun h hh => ?_⟩
    rcases List.mem_cons.mp hh with rfl | hh
    · exact less_irrefl _
    · exact less_trans (by simpa using hl) (h2 h hh)
  | case5 e f es hg ih =>
    obtain ⟨g', h1, h2⟩ := ih (by simp)
    rw [hg] at h1; cases h1

/-! ## Initial symbols -/

/-- The (id, length) pairs that `addChars` appends. -/
def addIds (b : Bpe) (acc : List (Nat × Nat)) : List (Str × Nat) → List (Nat × Nat)
  | [] => acc
  | (s, len) :: cs =>
    match b.tokenToId s with
    | some id => addIds b (acc ++ [(id, len)]) cs
    | none =>
      if b.unk ≠ [] then
        match b.tokenToId b.unk with
        | some u =>
          if !b.fuseUnk || !(match acc.getLast? with | none => false | some p => p.1 == u) then
            addIds b (acc ++ [(u, len + codepoints b.unk)]) cs
          else addIds b acc cs
        | none => addIds b acc cs
      else addIds b acc cs

theorem lastIs_linked (l : List (Nat × Nat)) (u : Nat) :
    lastIs (linked l) u = (match l.getLast? with | none => false | some p => p.1 == u) := by
  have h := congrArg List.getLast? (linked_ids l)
  rw [List.getLast?_map, List.getLast?_map] at h
  unfold lastIs
  cases h1 : (linked l).getLast? <;> cases h2 : l.getLast? <;> simp_all

theorem addChars_linked (b : Bpe) (acc : List (Nat × Nat)) (cs : List (Str × Nat)) :
    addChars b (linked acc) cs = linked (addIds b acc cs) := by
  fun_induction addIds b acc cs with
  | case1 acc => rfl
  | case2 acc s len cs id hid ih =>
    rw [addChars, hid]; simp only; rw [addSym_linked]; exact ih
  | case3 acc s len cs hid hu u hu2 hf ih =>
    rw [addChars, hid]; simp only; rw [if_pos hu, hu2]; simp only
    rw [lastIs_linked, if_pos hf, addSym_linked]; exact ih
  | case4 acc s len cs hid hu u hu2 hf ih =>
    rw [addChars, hid]; simp only; rw [if_pos hu, hu2]; simp only
    rw [lastIs_linked, if_neg hf]; exact ih
  | case5 acc s len cs hid hu hu2 ih =>
    rw [addChars, hid]; simp only; rw [if_pos hu, hu2]; exact ih
  | case6 acc s len cs hid hu ih =>
    rw [addChars, hid]; simp only; rw [if_neg hu]; exact ih

/-- The (id, length) pairs of the initial symbols of a text. -/
def initIds (b : Bpe) (text : Str) : List (Nat × Nat) :=
  addIds b [] (charStrings b (eachCp false text).length 0 (eachCp false text))

theorem initialSymbols_eq (b : Bpe) (text : Str) : initialSymbols b text = linked (initIds b text) := by
  unfold initialSymbols initIds
  rw [← addChars_linked]
  rfl

theorem charStrings_pos (b : Bpe) (n i : Nat) (ps : List Cp) :
    ∀ p ∈ charStrings b n i ps, 0 < p.2 := by
  induction ps generalizing i with
  | nil => simp [charStrings]
  | cons p ps ih =>
    intro x hx
    rw [charStrings] at hx
    rcases List.mem_cons.mp hx with rfl | hx
    · clear hx
      simp only
      by_cases h1 : i = n - 1 <;> by_cases h2 : i = 0 <;> simp [h1, h2] <;> (try split) <;> omega
    · exact ih _ x hx

theorem charStrings_length (b : Bpe) (n i : Nat) (ps : List Cp) :
    (charStrings b n i ps).length = ps.length := by
  induction ps generalizing i with
  | nil => rfl
  | cons p ps ih => simp [charStrings, ih]

theorem addIds_pos (b : Bpe) (acc : List (Nat × Nat)) (cs : List (Str × Nat))
    (ha : ∀ p ∈ acc, 0 < p.2) (hc : ∀ p ∈ cs, 0 < p.2) : ∀ p ∈ addIds b acc cs, 0 < p.2 := by
  fun_induction addIds b acc cs with
  | case1 acc => exact ha
  | case2 acc s len cs id hid ih =>
    refine ih (fun p hp => ?_) (fun p hp => hc p (by simp [hp]))
    rcases List.mem_append.mp hp with hp | hp
    · exact ha p hp
    · simp at hp; subst hp; exact hc (s, len) (by simp)
  | case3 acc s len cs hid hu u hu2 hf ih =>
    refine ih (fun p hp => ?_) (fun p hp => hc p (by simp [hp]))
    rcases List.mem_append.mp hp with hp | hp
    · exact ha p hp
    · simp at hp; subst hp
      have := hc (s, len) (by simp)
      simp only at this ⊢; omega
  | case4 acc s len cs hid hu u hu2 hf ih => exact ih ha (fun p hp => hc p (by simp [hp]))
  | case5 acc s len cs hid hu hu2 ih => exact ih ha (fun p hp => hc p (by simp [hp]))
  | case6 acc s len cs hid hu ih => exact ih ha (fun p hp => hc p (by simp [hp]))

theorem addIds_length (b : Bpe) (acc : List (Nat × Nat)) (cs : List (Str × Nat)) :
    (addIds b acc cs).length ≤ acc.length + cs.length := by
  fun_induction addIds b acc cs <;> simp at * <;> omega

theorem initIds_pos (b : Bpe) (text : Str) : ∀ p ∈ initIds b text, 0 < p.2 :=
  addIds_pos b [] _ (by simp) (charStrings_pos b _ _ _)

theorem initIds_length (b : Bpe) (text : Str) : (initIds b text).length ≤ codepoints text := by
  have := addIds_length b [] (charStrings b (eachCp false text).length 0 (eachCp false text))
  rw [charStrings_length] at this
  simpa [initIds, codepoints] using this

/-- The strings given to the vocabulary lookup. -/
theorem charStrings_fst (b : Bpe) (text : Str) :
    (charStrings b (eachCp false text).length 0 (eachCp false text)).map (·.1) =
      charTokens b.prefx b.suffix (toCodePoints text) := by
  have gen : ∀ (n i : Nat) (ps : List Cp),
      (charStrings b n i ps).map (·.1) = ps.mapIdx fun j p =>
        (if i + j = 0 then [] else b.prefx) ++ utf16Of p.c ++
          (if i + j = n - 1 then b.suffix else []) := by
    intro n i ps
    induction ps generalizing i with
    | nil => rfl
    | cons p ps ih =>
      rw [charStrings, List.mapIdx_cons, List.map_cons, ih]
      congr 1
      · simp only [Nat.add_zero, ne_eq, ite_not]
        by_cases h1 : i = 0 <;> by_cases h2 : i = n - 1 <;> simp [h1, h2] <;> grind
      · congr 1
        funext j q
        have e : i + (j + 1) = i + 1 + j := by omega
        rw [e]
  rw [gen]
  unfold charTokens toCodePoints
  apply List.ext_getElem?
  intro i
  simp only [List.getElem?_mapIdx, List.getElem?_map, List.length_map, Option.map_map]
  cases hi : (eachCp false text)[i]? with
  | none => rfl
  | some p =>
    have := getElem?_lt hi
    simp only [Option.map_some, Function.comp, Nat.zero_add]
    by_cases h : i = (eachCp false text).length - 1
    · have h' : i + 1 = (eachCp false text).length := by omega
      rw [if_pos h, if_pos h']
    · have h' : ¬ i + 1 = (eachCp false text).length := by omega
      rw [if_neg h, if_neg h']

/-! ## Loading -/

theorem addVocab_frame (b : Bpe) (v : List (Str × Nat)) :
    b.addVocab v = { b with vocab := (b.addVocab v).vocab, vocabR := (b.addVocab v).vocabR } := by
  induction v generalizing b with
  | nil => rfl
  | cons p v ih =>
    obtain ⟨s, id⟩ := p
    rw [Bpe.addVocab, ih]

theorem addVocab_token (b : Bpe) (v : List (Str × Nat)) (hk : (v.map (·.1)).Nodup) (t : Str) :
    (∀ id, (t, id) ∈ v → find (b.addVocab v).vocab t = some id) ∧
    (t ∉ v.map (·.1) → find (b.addVocab v).vocab t = find b.vocab t) := by
  induction v generalizing b with
  | nil => exact ⟨by simp, fun _ => rfl⟩
  | cons p v ih =>
    obtain ⟨s, id⟩ := p
    simp only [List.map_cons, List.nodup_cons] at hk
    have ih := ih { b with vocab := assign b.vocab s id, vocabR := assign b.vocabR id s } hk.2
    refine ⟨fun id' h => ?_, fun h => ?_⟩
    · rcases List.mem_cons.mp h with h | h
      · simp only [Prod.mk.injEq] at h
        obtain ⟨rfl, rfl⟩ := h
        rw [Bpe.addVocab, ih.2 hk.1]
        simp [find_assign]
      · exact ih.1 id' h
    · simp only [List.map_cons, List.mem_cons, not_or] at h
      rw [Bpe.addVocab, ih.2 h.2]
      simp [find_assign, h.1]

theorem addVocab_id (b : Bpe) (v : List (Str × Nat)) (hk : (v.map (·.2)).Nodup) (id : Nat) :
    (∀ t, (t, id) ∈ v → find (b.addVocab v).vocabR id = some t) ∧
    (id ∉ v.map (·.2) → find (b.addVocab v).vocabR id = find b.vocabR id) := by
  induction v generalizing b with
  | nil => exact ⟨by simp, fun _ => rfl⟩
  | cons p v ih =>
    obtain ⟨s, id'⟩ := p
    simp only [List.map_cons, List.nodup_cons] at hk
    have ih := ih { b with vocab := assign b.vocab s id', vocabR := assign b.vocabR id' s } hk.2
    refine ⟨fun t h => ?_, fun h => ?_⟩
    · rcases List.mem_cons.mp h with h | h
      · simp only [Prod.mk.injEq] at h
        obtain ⟨rfl, rfl⟩ := h
        rw [Bpe.addVocab, ih.2 hk.1]
        simp [find_assign]
      · exact ih.1 t h
    · simp only [List.map_cons, List.mem_cons, not_or] at h
      rw [Bpe.addVocab, ih.2 h.2]
      simp [find_assign, h.1]

theorem utf16Encode_lt' (cs : List Nat) (h : ∀ c ∈ cs, IsScalar c) : ∀ u ∈ utf16Encode cs, u < 0x10000 := by
  intro u hu
  simp only [utf16Encode, List.mem_flatMap] at hu
  obtain ⟨c, hc, hu⟩ := hu
  have := h c hc
  unfold IsScalar at this
  unfold utf16Of at hu
  split at hu
  · simp at hu; omega
  · simp at hu; omega

/-- `concat` is defined for representable tokens. -/
theorem concat_ok (b : Bpe) (t0 t1 : Str) (h : ∀ u ∈ t1, u < 0x10000) :
    b.concat t0 t1 = .ok (if codepoints b.prefx = 0 then t0 ++ t1
      else joined (codepoints b.prefx) t0 t1) := by
  unfold Bpe.concat
  split
  · rfl
  · have hs : sliceLoop (codepoints b.prefx) none 0 [] (eachCp false t1) =
        (toCodePoints t1).drop (codepoints b.prefx) := by
      have gen : ∀ (n i : Nat) (acc : List Nat) (ps : List Cp),
          sliceLoop n none i acc ps = acc ++ (ps.map (·.c)).drop (n - i) := by
        intro n i acc ps
        induction ps generalizing i acc with
        | nil => simp [sliceLoop]
        | cons p ps ih =>
          rw [sliceLoop]
          by_cases hi : i < n
          · rw [if_pos hi, ih]
            have e : n - i = (n - (i + 1)) + 1 := by omega
            rw [e]; simp
          · rw [if_neg hi, ih]
            have e1 : n - i = 0 := by omega
            have e2 : n - (i + 1) = 0 := by omega
            simp [e1, e2]
      rw [gen]; simp [toCodePoints]
    have hr : Rep (slice t1 (codepoints b.prefx) none)
        (utf16Encode ((toCodePoints t1).drop (codepoints b.prefx))) := by
      unfold slice
      rw [hs]
      exact rep_ofUtf32 _ (fun c hc => scalar_of_eachCp t1 h c (List.mem_of_mem_drop hc))
    rw [readUnits_rep hr]
    rfl

/-- The id of the token a pair is merged into, if everything is known. -/
def pairResult (b : Bpe) (p : Nat × Nat) : Option Nat :=
  match b.idToToken p.1, b.idToToken p.2 with
  | some t0, some t1 =>
    b.tokenToId (if codepoints b.prefx = 0 then t0 ++ t1 else joined (codepoints b.prefx) t0 t1)
  | _, _ => none

theorem addMerges_spec (rs : Nat) (b : Bpe) (k : Nat) (ms : List (Nat × Nat))
    (hu : ∀ id t, b.idToToken id = some t → ∀ u ∈ t, u < 0x10000) :
    ∃ ok b', Bpe.addMerges rs b k ms = .ok (ok, b') ∧ b' = { b with merge := b'.merge } ∧
      (ok = true ↔ ∀ p ∈ ms, (pairResult b p).isSome) ∧
      (ok = true → ∀ p, (p ∉ ms → find b'.merge p = find b.merge p) ∧
        ∀ i, IsLastAt ms p i → ∃ n, pairResult b p = some n ∧
          find b'.merge p = some ((rs + (k + i)) % 2 ^ 32, n)) := by
  induction ms generalizing b k with
  | nil =>
    refine ⟨true, b, rfl, rfl, by simp, fun _ p => ⟨fun _ => rfl, fun i hi => ?_⟩⟩
    have := hi.1; simp at this
  | cons q ms ih =>
    obtain ⟨i0, i1⟩ := q
    rw [Bpe.addMerges]
    cases h0 : b.idToToken i0 with
    | none =>
      refine ⟨false, b, rfl, rfl, ?_, by simp⟩
      simp only [Bool.false_eq_true, false_iff]
      intro h
      have := h (i0, i1) (by simp)
      simp [pairResult, h0] at this
    | some t0 =>
    cases h1 : b.idToToken i1 with
    | none =>
      refine ⟨false, b, rfl, rfl, ?_, by simp⟩
      simp only [Bool.false_eq_true, false_iff]
      intro h
      have := h (i0, i1) (by simp)
      simp [pairResult, h0, h1] at this
    | some t1 =>
    simp only
    rw [concat_ok b t0 t1 (hu i1 t1 h1)]
    simp only [Res.bind]
    have hpr : pairResult b (i0, i1) = b.tokenToId (if codepoints b.prefx = 0 then t0 ++ t1
        else joined (codepoints b.prefx) t0 t1) := by
      simp [pairResult, h0, h1]
    rw [← hpr]
    cases hn : pairResult b (i0, i1) with
    | none =>
      refine ⟨false, b, rfl, rfl, ?_, by simp⟩
      simp only [Bool.false_eq_true, false_iff]
      intro h
      have := h (i0, i1) (by simp)
      rw [hn] at this; cases this
    | some n =>
    simp only
    obtain ⟨ok, b', e1, e2, e3, e4⟩ :=
      ih { b with merge := assign b.merge (i0, i1) ((rs + k) % 2 ^ 32, n) } (k + 1) hu
    refine ⟨ok, b', e1, e2, ?_, ?_⟩
    · rw [e3]
      simp only [List.mem_cons, forall_eq_or_imp, hn, Option.isSome_some, true_and]
      exact Iff.rfl
    · intro hok p
      obtain ⟨e5, e6⟩ := e4 hok p
      refine ⟨fun hp => ?_, fun i hi => ?_⟩
      · simp only [List.mem_cons, not_or] at hp
        rw [e5 hp.2]
        simp [find_assign, hp.1]
      · by_cases hm : p ∈ ms
        · cases i with
          | zero =>
            obtain ⟨j, hj⟩ := List.mem_iff_getElem?.mp hm
            have := hi.2 (j + 1) (by simpa using hj)
            omega
          | succ i =>
            have : IsLastAt ms p i := by
              refine ⟨by simpa using hi.1, fun j hj => ?_⟩
              have := hi.2 (j + 1) (by simpa using hj)
              omega
            obtain ⟨n', f1, f2⟩ := e6 i this
            refine ⟨n', f1, ?_⟩
            rw [f2]
            have e : rs + (k + 1 + i) = rs + (k + (i + 1)) := by omega
            rw [e]
        · cases i with
          | zero =>
            have : (i0, i1) = p := by simpa using hi.1
            subst this
            refine ⟨n, hn, ?_⟩
            rw [e5 hm]
            simp [find_assign]
          | succ i =>
            have := hi.1
            simp only [List.getElem?_cons_succ] at this
            exact absurd (List.mem_of_getElem? this) hm

end Berts.Bpe
