import Verif.Spec.Bert
import Verif.Proofs.Unicode
import Verif.Proofs.Trie

/-! # Lemmas about the BERT tokenizer -/

namespace Berts.Bert

open Berts.Unicode Berts.Trie Berts.Vocab Berts.Spec

theorem res_bind_ok {α β : Type} {r : Res α} {f : α → Res β} {b : β} (h : r.bind f = .ok b) :
    ∃ a, r = .ok a ∧ f a = .ok b := by
  cases r with
  | ok a => exact ⟨a, rfl, h⟩
  | ub => cases h
  | abort => cases h
  | hang => cases h

/-! ## Iterating over well-formed text -/

/-- The record `each_cp` passes for a scalar. -/
def cpOf (c : Nat) : Cp :=
  if c < 0x10000 then Cp.ofUnit c
  else ⟨c, 0xd800 + (c - 0x10000) / 0x400, 0xdc00 + (c - 0x10000) % 0x400⟩

theorem cpOf_c (c : Nat) : (cpOf c).c = c := by unfold cpOf; split <;> rfl

theorem eachCp_encode (skip : Bool) (cs : List Nat) (h : ∀ c ∈ cs, IsScalar c) :
    eachCp skip (utf16Encode cs) = cs.map cpOf := by
  unfold eachCp
  induction cs with
  | nil => rfl
  | cons c cs ih =>
    have hc : IsScalar c := h c (by simp)
    have ih := ih (fun x hx => h x (by simp [hx]))
    unfold IsScalar at hc
    have e : utf16Encode (c :: cs) = utf16Of c ++ utf16Encode cs := by simp [utf16Encode]
    rw [e]
    unfold utf16Of
    split
    · rename_i hlt
      have h1 : ¬ (0xdc00 ≤ c ∧ c < 0xe000) := by omega
      have h2 : ¬ (0xd800 ≤ c ∧ c < 0xdc00) := by omega
      simp only [List.cons_append, List.nil_append, eachCpFrom, eachCpStep, if_neg h1, if_neg h2]
      simp [ih, cpOf, hlt]
    · rename_i hlt
      generalize ha : 0xd800 + (c - 0x10000) / 0x400 = a
      generalize hb : 0xdc00 + (c - 0x10000) % 0x400 = b
      have h1 : ¬ (0xdc00 ≤ a ∧ a < 0xe000) := by omega
      have h2 : (0xd800 ≤ a ∧ a < 0xdc00) := by omega
      have h3 : (0xdc00 ≤ b ∧ b < 0xe000) := by omega
      have h4 : a ≠ 0 := by omega
      have h5 : ((a - 0xd800) * 0x400 + (b - 0xdc00)) + 0x10000 = c := by omega
      simp only [List.cons_append, List.nil_append, eachCpFrom, eachCpStep, if_neg h1, if_pos h2,
        if_pos h3, if_neg h4, h5]
      simp [ih, cpOf, hlt, ha, hb]

theorem pushUnits_cpOf (c : Nat) (h : IsScalar c) : pushUnits (cpOf c) = utf16Of c := by
  unfold IsScalar at h
  unfold cpOf utf16Of pushUnits Cp.isPair
  split
  · simp [Cp.ofUnit]; omega
  · simp

theorem utf16Of_ne_nil (c : Nat) : utf16Of c ≠ [] := by unfold utf16Of; split <;> simp

theorem utf16Encode_eq_nil (cs : List Nat) : utf16Encode cs = [] ↔ cs = [] := by
  cases cs with
  | nil => simp [utf16Encode]
  | cons c cs => simp [utf16Encode, utf16Of_ne_nil]

theorem utf16Encode_append (a b : List Nat) :
    utf16Encode (a ++ b) = utf16Encode a ++ utf16Encode b := by simp [utf16Encode]

theorem flatMap_pushUnits (cs : List Nat) (h : ∀ c ∈ cs, IsScalar c) :
    (cs.map cpOf).flatMap pushUnits = utf16Encode cs := by
  induction cs with
  | nil => rfl
  | cons c cs ih =>
    rw [List.map_cons, List.flatMap_cons, ih (fun x hx => h x (by simp [hx])),
      pushUnits_cpOf c (h c (by simp))]
    simp [utf16Encode]

/-! ## The word splitter -/

theorem pushUnits_ne_nil (p : Cp) : pushUnits p ≠ [] := by unfold pushUnits; split <;> simp

theorem splitLoop_space (cur : List Nat) (xs ys : List Cp) (p : Cp) (hp : p.c = 32) :
    Bert.splitLoop cur (xs ++ p :: ys) = Bert.splitLoop cur xs ++ Bert.splitLoop [] ys := by
  induction xs generalizing cur with
  | nil =>
    simp only [List.nil_append, Bert.splitLoop, hp, if_true]
    by_cases h : cur = [] <;> simp [h]
  | cons x xs ih =>
    simp only [List.cons_append, Bert.splitLoop]
    split
    · split
      · exact ih []
      · rw [ih [], List.cons_append]
    · exact ih _

theorem splitLoop_solid (cur : List Nat) (xs : List Cp) (h : ∀ p ∈ xs, p.c ≠ 32) :
    Bert.splitLoop cur xs =
      if cur ++ xs.flatMap pushUnits = [] then [] else [cur ++ xs.flatMap pushUnits] := by
  induction xs generalizing cur with
  | nil => simp [Bert.splitLoop]
  | cons x xs ih =>
    have hx : x.c ≠ 32 := h x (by simp)
    rw [Bert.splitLoop, if_neg hx, ih _ (fun p hp => h p (by simp [hp]))]
    simp [List.append_assoc]

theorem splitLoop_words (cur : List Nat) (xs : List Cp) :
    (∀ w ∈ Bert.splitLoop cur xs, w ≠ []) ∧
    (Bert.splitLoop cur xs).flatten = cur ++ (xs.filter (fun p => p.c ≠ 32)).flatMap pushUnits := by
  induction xs generalizing cur with
  | nil => by_cases h : cur = [] <;> simp [Bert.splitLoop, h]
  | cons x xs ih =>
    simp only [Bert.splitLoop]
    by_cases hx : x.c = 32
    · rw [if_pos hx]
      by_cases hc : cur = []
      · subst hc; simp [hx, ih]
        exact fun a ha => (ih []).1 a ha
      · simp [hx, ih, hc]
        exact fun a ha => (ih []).1 a ha
    · simp [hx, ih]
      exact fun a ha => (ih _).1 a ha

/-! ## Cleaning -/

theorem isWs_iff (u : Icu) (c : Nat) : isWs u c = true ↔ Blank u c := by
  simp [isWs, Blank, or_assoc]

theorem isCtrl_iff (u : Icu) (c : Nat) : isCtrl u c = true ↔ Control u c := by
  simp [isCtrl, Control, and_assoc]

theorem isCjk_iff (c : Nat) : isCjk c = true ↔ Ideograph c := by
  simp [isCjk, Ideograph, cjkBlocks, or_assoc]

theorem cleanAndSplit_encode (u : Icu) (cond : TokInfo) (cs : List Nat) (h : ∀ c ∈ cs, IsScalar c) :
    cleanAndSplit u cond (utf16Encode cs) =
      Bert.splitLoop [] (cs.flatMap (fun c => cleanCp u cond (cpOf c))) := by
  unfold cleanAndSplit
  rw [eachCp_encode false cs h, List.flatMap_map]

theorem cleanCp_removed (u : Icu) (cond : TokInfo) (hb : BasicMode cond) (c : Nat) (hc : ¬ Kept u c) :
    cleanCp u cond (cpOf c) = [] := by
  obtain ⟨h1, h2, h3, h4⟩ := hb
  unfold cleanCp
  rw [cpOf_c, h1, h2, h3]
  by_cases a1 : c = 0
  · simp [a1]
  · by_cases a2 : c = 0xfffd
    · simp [a2]
    · have : Control u c := by
        unfold Kept at hc
        exact Classical.byContradiction fun hn => hc ⟨a1, a2, hn⟩
      simp [a1, a2, (isCtrl_iff u c).mpr this]

theorem cleanCp_blank (u : Icu) (cond : TokInfo) (hw : cond.normWs = true) (c : Nat) (hk : Kept u c)
    (hc : Blank u c) : cleanCp u cond (cpOf c) = [Cp.ofUnit 32] := by
  unfold Kept at hk
  have h3 : isCtrl u c = false := by
    rw [Bool.eq_false_iff]; exact fun h => hk.2.2 ((isCtrl_iff u c).mp h)
  unfold cleanCp
  simp [cpOf_c, hk.1, hk.2.1, h3, hw, (isWs_iff u c).mpr hc]

theorem cleanCp_solid (u : Icu) (cond : TokInfo) (c : Nat) (hk : Solid u c) :
    cleanCp u cond (cpOf c) =
      if Ideograph c ∧ cond.addCjk = true then [Cp.ofUnit 32, cpOf c, Cp.ofUnit 32] else [cpOf c] := by
  obtain ⟨⟨h1, h2, h3⟩, h4⟩ := hk
  have h3 : isCtrl u c = false := by
    rw [Bool.eq_false_iff]; exact fun h => h3 ((isCtrl_iff u c).mp h)
  have h4 : isWs u c = false := by
    rw [Bool.eq_false_iff]; exact fun h => h4 ((isWs_iff u c).mp h)
  unfold cleanCp
  simp [cpOf_c, h1, h2, h3, h4, isCjk_iff]

theorem solid_ne_space (u : Icu) (c : Nat) (h : Solid u c) : c ≠ 32 := by
  rintro rfl; exact h.2 (Or.inl (by simp))

theorem filter_clean (u : Icu) (cond : TokInfo) (hb : BasicMode cond) (cs : List Nat) :
    (cs.flatMap (fun c => cleanCp u cond (cpOf c))).filter (fun p => decide (p.c ≠ 32)) =
      (cs.filter (fun c => decide (Solid u c))).map cpOf := by
  induction cs with
  | nil => rfl
  | cons c cs ih =>
    rw [List.flatMap_cons, List.filter_append, ih]
    by_cases hk : Kept u c
    · by_cases hw : Blank u c
      · have hs : ¬ Solid u c := fun h => h.2 hw
        rw [cleanCp_blank u cond hb.2.2.2 c hk hw]
        simp [Cp.ofUnit, List.filter_cons, hs]
      · have hs : Solid u c := ⟨hk, hw⟩
        have h32 := solid_ne_space u c hs
        rw [cleanCp_solid u cond c hs]
        split <;> simp [Cp.ofUnit, cpOf_c, h32, List.filter_cons, hs]
    · have hs : ¬ Solid u c := fun h => hk h.1
      rw [cleanCp_removed u cond hb c hk]
      simp [List.filter_cons, hs]

theorem cleaned_solid (u : Icu) (cond : TokInfo) (hb : BasicMode cond) (cs : List Nat)
    (hc : ∀ c ∈ cs, ¬ Kept u c ∨ (¬ Blank u c ∧ (cond.addCjk = true → ¬ Ideograph c))) :
    cs.flatMap (fun c => cleanCp u cond (cpOf c)) =
      (cs.filter (fun c => decide (Kept u c))).map cpOf := by
  induction cs with
  | nil => rfl
  | cons c cs ih =>
    rw [List.flatMap_cons, ih (fun x hx => hc x (by simp [hx]))]
    by_cases hk : Kept u c
    · rcases hc c (by simp) with h | ⟨h1, h2⟩
      · exact absurd hk h
      · rw [cleanCp_solid u cond c ⟨hk, h1⟩, if_neg (fun h => h2 h.2 h.1),
          List.filter_cons_of_pos (by simpa using hk)]
        rfl
    · rw [cleanCp_removed u cond hb c hk, List.filter_cons_of_neg (by simpa using hk)]
      rfl

/-- All words, in any mode: units other than 32, and not empty. -/
theorem splitLoop_no_space (cur : List Nat) (xs : List Cp) (hcur : 32 ∉ cur)
    (hx : ∀ p ∈ xs, p.c ≠ 32 → 32 ∉ pushUnits p) : ∀ w ∈ Bert.splitLoop cur xs, 32 ∉ w := by
  induction xs generalizing cur with
  | nil => by_cases h : cur = [] <;> simp [Bert.splitLoop, h, hcur]
  | cons x xs ih =>
    have ih' := fun cur h => ih cur h (fun p hp => hx p (by simp [hp]))
    simp only [Bert.splitLoop]
    split
    · split
      · exact ih' [] (by simp)
      · intro w hw
        rcases List.mem_cons.mp hw with rfl | hw
        · exact hcur
        · exact ih' [] (by simp) w hw
    · rename_i h32
      refine ih' _ ?_
      simp [hcur, hx x (by simp) h32]

/-- What `each_cp` guarantees about its records, as far as `pushUnits` is concerned. -/
def GoodCp (p : Cp) : Prop :=
  if p.isPair then (p.hi ≠ 32 ∧ p.hi < 0x10000) ∧ (p.lo ≠ 32 ∧ p.lo < 0x10000) else p.c < 0x10000

theorem goodCp_ofUnit (n : Nat) (h : n < 0x10000) : GoodCp (Cp.ofUnit n) := by
  simp [GoodCp, Cp.isPair, Cp.ofUnit, h]

theorem goodCp_eachCpFrom (skip : Bool) (sur : Nat) (us : List Nat) (hu : ∀ y ∈ us, y < 0x10000)
    (hs : sur = 0 ∨ (0xd800 ≤ sur ∧ sur < 0xdc00)) : ∀ x ∈ eachCpFrom skip sur us, GoodCp x := by
  have lone : ∀ x : Cp, sur ≠ 0 → x = ⟨0xfffd, sur, 0⟩ → GoodCp x := by
    rintro x h0 rfl
    simp [GoodCp, Cp.isPair, h0]; omega
  induction us generalizing sur with
  | nil =>
    intro x hx
    rw [eachCpFrom] at hx
    by_cases h0 : sur = 0
    · simp [h0] at hx
    · cases skip <;> simp [h0] at hx
      exact lone x h0 hx
  | cons y us ih =>
    have hy := hu y (by simp)
    have hu' : ∀ z ∈ us, z < 0x10000 := fun z hz => hu z (by simp [hz])
    intro x hx
    rw [eachCpFrom, List.mem_append] at hx
    by_cases h1 : 0xdc00 ≤ y ∧ y < 0xe000
    · rw [eachCpStep, if_pos h1] at hx
      by_cases h0 : sur = 0
      · rw [if_pos h0] at hx
        rcases hx with hx | hx
        · cases skip <;> simp at hx
          subst hx
          simp [GoodCp, Cp.isPair]; omega
        · exact ih sur hu' (Or.inl h0) (fun x h => absurd h0 h) x hx
      · rw [if_neg h0] at hx
        rcases hx with hx | hx
        · simp at hx
          subst hx
          simp [GoodCp, Cp.isPair, h0]; omega
        · exact ih 0 hu' (Or.inl rfl) (fun x h => absurd rfl h) x hx
    · rw [eachCpStep, if_neg h1] at hx
      have hpre : ∀ x, x ∈ (if sur ≠ 0 then (if skip then [] else [(⟨0xfffd, sur, 0⟩ : Cp)]) else []) →
          GoodCp x := by
        intro x hx
        by_cases h0 : sur = 0
        · simp [h0] at hx
        · cases skip <;> simp [h0] at hx
          exact lone x h0 hx
      by_cases h2 : 0xd800 ≤ y ∧ y < 0xdc00
      · rw [if_pos h2] at hx
        rcases hx with hx | hx
        · exact hpre x hx
        · refine ih y hu' (Or.inr h2) ?_ x hx
          rintro x _ rfl
          simp [GoodCp, Cp.isPair]; omega
      · rw [if_neg h2] at hx
        rcases hx with hx | hx
        · rcases List.mem_append.mp hx with hx | hx
          · exact hpre x hx
          · simp at hx; subst hx; exact goodCp_ofUnit y hy
        · exact ih 0 hu' (Or.inl rfl) (fun x h => absurd rfl h) x hx

theorem goodCp_clean (u : Icu) (cond : TokInfo) (x : Cp) (hx : GoodCp x) :
    ∀ p ∈ cleanCp u cond x, GoodCp p := by
  have trunc : ∀ n, GoodCp (Cp.ofUnit (n % 65536)) := fun n =>
    goodCp_ofUnit _ (Nat.mod_lt _ (by decide))
  have h32 : GoodCp (Cp.ofUnit 32) := goodCp_ofUnit 32 (by decide)
  intro p hp
  unfold cleanCp at hp
  repeat' split at hp
  all_goals
    simp only [List.mem_cons, List.not_mem_nil, or_false] at hp
  · rw [hp]; exact trunc _
  · rw [hp]; exact trunc _
  · rw [hp]; exact trunc _
  · rw [hp]; exact h32
  · rw [hp]; exact trunc _
  · rcases hp with h | h | h <;> rw [h] <;> assumption
  · rw [hp]; exact hx

theorem goodCp_units (p : Cp) (h : GoodCp p) :
    (∀ x ∈ pushUnits p, x < 0x10000) ∧ (p.c ≠ 32 → 32 ∉ pushUnits p) := by
  unfold GoodCp at h
  unfold pushUnits
  split at h
  · rename_i hp
    rw [if_pos hp]
    simp; omega
  · rename_i hp
    rw [if_neg hp]
    simp; omega

theorem cleaned_good (u : Icu) (cond : TokInfo) (us : List Nat) (hu : ∀ y ∈ us, y < 0x10000) :
    ∀ p ∈ (eachCp false us).flatMap (cleanCp u cond), GoodCp p := by
  intro p hp
  obtain ⟨x, hx, hpx⟩ := List.mem_flatMap.mp hp
  exact goodCp_clean u cond x (goodCp_eachCpFrom false 0 us hu (Or.inl rfl) x hx) p hpx

theorem cleanAndSplit_lt (u : Icu) (cond : TokInfo) (us : List Nat) (hu : ∀ y ∈ us, y < 0x10000) :
    ∀ w ∈ cleanAndSplit u cond us, ∀ x ∈ w, x < 0x10000 := by
  intro w hw x hx
  have h2 := (splitLoop_words [] ((eachCp false us).flatMap (cleanCp u cond))).2
  have hx' : x ∈ (cleanAndSplit u cond us).flatten := List.mem_flatten.mpr ⟨w, hw, hx⟩
  unfold cleanAndSplit at hx'
  rw [h2, List.nil_append] at hx'
  obtain ⟨p, hp, hxp⟩ := List.mem_flatMap.mp hx'
  exact (goodCp_units p (cleaned_good u cond us hu p (List.mem_filter.mp hp).1)).1 x hxp

/-! ## Punctuation -/

theorem isPunct_iff (u : Icu) (c : Nat) : isPunct u.catP c = true ↔ Punct u c := by
  simp only [isPunct, asciiPunct, Punct, Bool.or_eq_true, Bool.and_eq_true, decide_eq_true_eq]
  constructor
  · rintro (h | h)
    · exact Or.inl (by omega)
    · exact Or.inr h
  · rintro (h | h)
    · exact Or.inl (by omega)
    · exact Or.inr h

theorem puncLoop_flatten (u : Icu) (temp cs : List Nat) : (puncLoop u temp cs).flatten = temp ++ cs := by
  induction cs generalizing temp with
  | nil => by_cases h : temp = [] <;> simp [puncLoop, h]
  | cons c cs ih =>
    simp only [puncLoop]
    split
    · by_cases h : temp = [] <;> simp [h, ih]
    · simp [ih]

theorem puncLoop_punct (u : Icu) (temp a b : List Nat) (c : Nat) (hc : Punct u c) :
    puncLoop u temp (a ++ c :: b) = puncLoop u temp a ++ [c] :: puncLoop u [] b := by
  induction a generalizing temp with
  | nil => simp [puncLoop, (isPunct_iff u c).mpr hc]
  | cons x a ih =>
    simp only [List.cons_append, puncLoop]
    split
    · simp [ih]
    · exact ih _

theorem puncLoop_plain (u : Icu) (temp cs : List Nat) (h : ∀ c ∈ cs, ¬ Punct u c) :
    puncLoop u temp cs = if temp ++ cs = [] then [] else [temp ++ cs] := by
  induction cs generalizing temp with
  | nil => simp [puncLoop]
  | cons c cs ih =>
    have hc : ¬ isPunct u.catP c = true := fun hh => h c (by simp) ((isPunct_iff u c).mp hh)
    rw [puncLoop, if_neg hc, ih _ (fun x hx => h x (by simp [hx]))]
    simp

theorem puncLoop_pieces (u : Icu) (temp cs : List Nat) (ht : ∀ c ∈ temp, ¬ Punct u c) :
    ∀ p ∈ puncLoop u temp cs, (∃ c, Punct u c ∧ p = [c]) ∨ (p ≠ [] ∧ ∀ c ∈ p, ¬ Punct u c) := by
  induction cs generalizing temp with
  | nil =>
    intro p hp
    by_cases h : temp = []
    · simp [puncLoop, h] at hp
    · simp [puncLoop, h] at hp; subst hp; exact Or.inr ⟨h, ht⟩
  | cons c cs ih =>
    intro p hp
    simp only [puncLoop] at hp
    split at hp
    · rename_i hc
      rcases List.mem_append.mp hp with hp | hp
      · by_cases h : temp = []
        · simp [h] at hp
        · simp [h] at hp; subst hp; exact Or.inr ⟨h, ht⟩
      · rcases List.mem_cons.mp hp with rfl | hp
        · exact Or.inl ⟨c, (isPunct_iff u c).mp hc, rfl⟩
        · exact ih [] (by simp) p hp
    · rename_i hc
      refine ih (temp ++ [c]) ?_ p hp
      intro x hx
      rcases List.mem_append.mp hx with hx | hx
      · exact ht x hx
      · simp at hx; subst hx; exact fun hh => hc ((isPunct_iff u x).mpr hh)

theorem puncLoop_mem (u : Icu) (cs : List Nat) : ∀ p ∈ puncLoop u [] cs, ∀ c ∈ p, c ∈ cs := by
  intro p hp c hc
  have := puncLoop_flatten u [] cs
  rw [List.nil_append] at this
  rw [← this]
  exact List.mem_flatten.mpr ⟨p, hp, hc⟩

theorem puncLoop_head (u : Icu) (temp cs : List Nat) :
    ∀ p ps, puncLoop u temp cs = p :: ps → temp ≠ [] → temp <+: p := by
  induction cs generalizing temp with
  | nil =>
    intro p ps h ht
    simp [puncLoop, ht] at h
    rw [h.1]; exact List.prefix_refl _
  | cons c cs ih =>
    intro p ps h ht
    simp only [puncLoop] at h
    split at h
    · simp [ht] at h
      rw [h.1]; exact List.prefix_refl _
    · exact (List.prefix_append temp [c]).trans (ih _ p ps h (by simp))

theorem puncLoop_maximal (u : Icu) (temp cs : List Nat) :
    ∀ (a b : List (List Nat)) (p q : List Nat), puncLoop u temp cs = a ++ p :: q :: b →
      (∃ c, Punct u c ∧ p = [c]) ∨ (∃ c, Punct u c ∧ q = [c]) := by
  induction cs generalizing temp with
  | nil =>
    intro a b p q h
    have := congrArg List.length h
    by_cases ht : temp = [] <;> simp [puncLoop, ht] at this
    omega
  | cons c cs ih =>
    intro a b p q h
    simp only [puncLoop] at h
    split at h
    · rename_i hc
      have hc' := (isPunct_iff u c).mp hc
      by_cases ht : temp = []
      · simp only [ht, if_true, List.nil_append] at h
        cases a with
        | nil => simp at h; exact Or.inl ⟨c, hc', h.1.symm⟩
        | cons a0 a => simp at h; exact ih [] a b p q h.2
      · simp only [ht, if_false, List.singleton_append] at h
        cases a with
        | nil => simp at h; exact Or.inr ⟨c, hc', h.2.1.symm⟩
        | cons a0 a =>
          cases a with
          | nil => simp at h; exact Or.inl ⟨c, hc', h.2.1.symm⟩
          | cons a1 a => simp at h; exact ih [] a b p q h.2.2
    · exact ih _ a b p q h

theorem readAll_ok (ps : List (List Nat)) (ws : List (List Nat))
    (h : readAll (ps.map UImpl.ofUtf32) = .ok ws) : ws = ps.map utf16Encode := by
  induction ps generalizing ws with
  | nil => simp [readAll] at h; simp [h]
  | cons p ps ih =>
    simp only [List.map_cons, readAll] at h
    have hp : ∀ c ∈ p, IsScalar c := by
      by_cases hall : p.all (fun c => decide (c < 0xd800) || (decide (0xe000 ≤ c) && decide (c ≤ 0x10ffff)))
      · intro c hc
        have := List.all_eq_true.mp hall c hc
        simpa [IsScalar] using this
      · have : UImpl.ofUtf32 p = { UImpl.default with e := .fail } := by
          unfold UImpl.ofUtf32; rw [if_neg hall]
        rw [this] at h
        exact absurd h (by simp [UImpl.readUnits, UImpl.default])
    rw [readUnits_rep (rep_ofUtf32 p hp), Res.bind_ok] at h
    cases hr : readAll (ps.map UImpl.ofUtf32) with
    | ok ls => rw [hr] at h; simp at h; rw [← h, ih ls hr]; rfl
    | ub => rw [hr] at h; cases h
    | abort => rw [hr] at h; cases h
    | hang => rw [hr] at h; cases h

theorem readAll_ofUtf32 (ps : List (List Nat)) (h : ∀ p ∈ ps, ∀ c ∈ p, IsScalar c) :
    readAll (ps.map UImpl.ofUtf32) = .ok (ps.map utf16Encode) := by
  induction ps with
  | nil => rfl
  | cons p ps ih =>
    simp only [List.map_cons, readAll]
    rw [readUnits_rep (rep_ofUtf32 p (h p (by simp))), Res.bind_ok,
      ih (fun q hq => h q (by simp [hq]))]
    rfl

theorem scalar_eachCp_skip (l : List Nat) (hl : ∀ x ∈ l, x < 0x10000) (skip : Bool) :
    ∀ c ∈ (eachCp skip l).map (·.c), IsScalar c := by
  have h := scalar_of_eachCp l hl
  unfold toCodePoints at h
  rw [eachCp_spec] at h ⊢
  intro c hc
  obtain ⟨o, ho, hco⟩ := List.mem_flatMap.mp hc
  refine h c (List.mem_flatMap.mpr ⟨o, ho, ?_⟩)
  cases o with
  | none => cases skip <;> simp_all
  | some x => simpa using hco

theorem toCodePoints_enc (cs : List Nat) (h : ∀ c ∈ cs, IsScalar c) :
    toCodePoints (utf16Encode cs) = cs := toCodePoints_encode cs h false

theorem utf16Of_lt (c : Nat) (h : IsScalar c) : ∀ x ∈ utf16Of c, x < 0x10000 := by
  unfold IsScalar at h
  unfold utf16Of
  split
  · simp; omega
  · simp; omega

theorem utf16Encode_lt (cs : List Nat) (h : ∀ c ∈ cs, IsScalar c) :
    ∀ x ∈ utf16Encode cs, x < 0x10000 := by
  intro x hx
  obtain ⟨c, hc, hx⟩ := List.mem_flatMap.mp hx
  exact utf16Of_lt c (h c hc) x hx

/-! ## Normalisation and the word loop -/

theorem safeNorm_rep (norm : List Nat → List Nat) {s : UImpl} {l : List Nat} (h : Rep s l) :
    ∃ r, safeNorm norm s = .ok r ∧ Rep r (norm l) := by
  refine ⟨UImpl.default.allocFill (norm l), ?_, rep_allocFill _ _⟩
  unfold safeNorm UImpl.normalize
  rw [readSize_rep h, readUnits_rep h]
  simp only [Res.bind_ok]
  rw [if_neg]
  · rfl
  · rw [h.2]
    by_cases hl : l = [] <;> simp [hl]

theorem rep_ofUnits (l : List Nat) : Rep (UImpl.ofUnits l) l := rep_allocFill _ _

theorem rep_ofUtf8 (cs : List Nat) (h : ∀ c ∈ cs, IsScalar c) :
    Rep (UImpl.ofUtf8 (utf8Encode cs)) (utf16Encode cs) := by
  unfold UImpl.ofUtf8
  rw [utf8Decode_encode cs h]
  exact rep_e _ (rep_allocFill _ _)

/-- What lower-casing a non-empty word leaves: the empty string. -/
theorem lowerWord_empty (u : Icu) (w : List Nat) (hl : u.lower w ≠ []) :
    ∃ r, lowerWord u (UImpl.ofUnits w) = .ok r ∧ Rep r [] := by
  have hr := rep_ofUnits w
  unfold lowerWord UImpl.moveFrom
  rw [readSize_rep hr]
  simp only [Res.bind_ok, Res.pure_eq]
  have hr' : Rep ⟨(UImpl.ofUnits w).str, some w.length, (UImpl.ofUnits w).e⟩ w := hr
  have he : (UImpl.ofUnits w).e = .zero := rfl
  unfold UImpl.caseMap
  simp only [he, UErr.success, Bool.not_true, Bool.false_eq_true, if_false]
  rw [he] at hr'
  rw [readUnits_rep hr', readSize_rep hr', Res.bind_ok]
  split
  · exact ⟨_, rfl, rfl, rfl⟩
  have : (u.lower w).length ≠ 0 := by simpa using hl
  simp only [Res.bind_ok, if_neg this, UErr.success, Bool.not_false, if_true]
  exact ⟨_, rfl, rfl, rfl⟩

theorem stripAccents_rep (u : Icu) {s : UImpl} {l : List Nat} (h : Rep s l)
    (hn : ∀ x ∈ u.nfd l, x < 0x10000) :
    ∃ r, stripAccents u s = .ok r ∧
      Rep r (u.nfc (utf16Encode (((eachCp true (u.nfd l)).map (·.c)).filter (fun c => !u.catMn c)))) := by
  obtain ⟨r1, h1, h1'⟩ := safeNorm_rep u.nfd h
  unfold stripAccents
  rw [h1, Res.bind_ok, readUnits_rep h1', Res.bind_ok]
  refine safeNorm_rep u.nfc (rep_ofUtf32 _ ?_)
  intro c hc
  exact scalar_eachCp_skip _ hn true c (List.mem_filter.mp hc).1

theorem basicWords_append (u : Icu) (cond : TokInfo) (keep : List (List Nat)) (a b : List (List Nat)) :
    basicWords u cond keep (a ++ b) = (do
      let x ← basicWords u cond keep a
      let y ← basicWords u cond keep b
      return x ++ y) := by
  induction a with
  | nil => simp [basicWords]; cases basicWords u cond keep b <;> rfl
  | cons w a ih =>
    simp only [List.cons_append, basicWords, ih]
    cases basicWord u cond keep w <;> simp
    cases basicWords u cond keep a <;> simp
    cases basicWords u cond keep b <;> simp

/-! ## WordPiece -/

theorem idAt_sub {t n : Node} {pfx : List Nat} (h : walk t pfx = some n) (q : List Nat) :
    idAt n q = idAt t (pfx ++ q) := by
  simp only [idAt, walk_append, h, Option.bind_some]

theorem hasPath_sub {t n : Node} {pfx : List Nat} (h : walk t pfx = some n) (q : List Nat) :
    HasPath n q ↔ HasPath t (pfx ++ q) := by
  simp only [HasPath, walk_append, h, Option.bind_some]

/-- One look-up in a vocabulary trie below `pfx`, when the longest match is not overshot. -/
theorem search_tight (V : List (List Nat)) (hV : V.length ≤ INVALID) (pfx p r : List Nat) (n : Node)
    (id : Nat) (hn : walk (buildFrom Node.new 0 V) pfx = some n) (hp : p ≠ [])
    (hid : IsLastIndex V (pfx ++ p) id)
    (htight : ∀ q, q <+: p ++ r → (∃ v ∈ V, pfx ++ q <+: v) → q.length ≤ p.length)
    (found rest : List Nat) :
    searchSubstr n (p ++ r) found rest = (id, p, r) ∧ id ≠ INVALID := by
  have hlt := isLastIndex_lt hid
  have hidp : idAt n p = id := by
    rw [idAt_sub hn]; exact (idAt_build V (pfx ++ p) hV (by simp [hp])).1 id hid
  have hne : id ≠ INVALID := by omega
  refine ⟨?_, hne⟩
  have hmem : pfx ++ p ∈ V := List.mem_of_getElem? hid.1
  rcases searchSubstr_spec n (p ++ r) found rest with ⟨h, _⟩ | ⟨p', f, r', h1, h2, h3, h4, h5, h6, h7, h8⟩
  · exact absurd (h p (List.prefix_append _ _) hp) (by rw [hidp]; exact hne)
  · have hfp : f <+: p ++ r := ⟨r', h1⟩
    have hf : f.length ≤ p.length := by
      apply htight f hfp
      by_cases hfe : f = []
      · subst hfe; exact ⟨_, hmem, by simp⟩
      · have := (hasPath_sub hn f).mp h6
        exact (hasPath_build V (pfx ++ f) (by simp [hfe])).mp this
    have hpl : p.length ≤ p'.length := h5 p (List.prefix_append _ _) hp (by rw [hidp]; exact hne)
    have hp'f := h2.length_le
    have hfe : f = p := by
      have : f <+: p := List.prefix_of_prefix_length_le hfp (List.prefix_append _ _) hf
      exact this.eq_of_length (by omega)
    have hpe : p' = p := by
      subst hfe; exact h2.eq_of_length (by omega)
    subst hfe
    rw [h8, hpe, hidp]
    have : r' = r := by simpa using h1
    rw [this]

theorem tightPieces_nil {V : List (List Nat)} {pfx ids : List Nat} (h : TightPieces V pfx [] ids) :
    ids = [] := by
  generalize hr : ([] : List Nat) = r at h
  cases h with
  | done => rfl
  | step _ p r' id ids hp => exact absurd (List.append_eq_nil_iff.mp hr.symm).1 hp

theorem wordLoop_tight (V : List (List Nat)) (hV : V.length ≤ INVALID) (cont : Node) (unk : Nat)
    (hc : walk (buildFrom Node.new 0 V) hashes = some cont)
    {pfx rest ids : List Nat} (h : TightPieces V pfx rest ids) (n : Node)
    (hn : walk (buildFrom Node.new 0 V) pfx = some n) (fuel : Nat) (hf : rest.length ≤ fuel) :
    wordLoop (buildFrom Node.new 0 V) cont unk fuel n rest =
      (ids, if rest = [] then n else buildFrom Node.new 0 V) := by
  induction h generalizing n fuel with
  | done pfx => cases fuel <;> simp [wordLoop]
  | step pfx p r id ids hp hid ht _ ih =>
    cases fuel with
    | zero => simp at hf; exact absurd hf.1 hp
    | succ fuel =>
      obtain ⟨hs, hne⟩ := search_tight V hV pfx p r n id hn hp hid ht [] (p ++ r)
      have hne' : p ++ r ≠ [] := by simp [hp]
      have hpl : 0 < p.length := List.length_pos_iff.mpr hp
      have hrf : r.length ≤ fuel := by simp at hf; omega
      rw [wordLoop, if_neg hne', hs]
      simp only [ne_eq, hne, not_false_iff, if_true]
      by_cases hr : r = []
      · subst hr
        rw [if_pos rfl]
        have : ids = [] := by rename_i hh; exact tightPieces_nil hh
        subst this
        cases fuel <;> simp [wordLoop, hp]
      · rw [if_neg hr, ih cont hc fuel hrf, if_neg hr, if_neg hne']

theorem wordLoop_stuck (V : List (List Nat)) (hV : V.length ≤ INVALID) (root cont n : Node)
    (unk : Nat) (pfx rest : List Nat) (hn : walk (buildFrom Node.new 0 V) pfx = some n)
    (hr : rest ≠ []) (hno : ∀ q, q <+: rest → q ≠ [] → pfx ++ q ∉ V) (fuel : Nat)
    (hf : rest.length ≤ fuel) : wordLoop root cont unk fuel n rest = ([unk], n) := by
  cases fuel with
  | zero => simp at hf; exact absurd hf hr
  | succ fuel =>
    rw [wordLoop, if_neg hr]
    rcases searchSubstr_spec n rest [] rest with ⟨_, h⟩ | ⟨p, f, r, h1, h2, h3, h4, _⟩
    · simp [h]
    · exfalso
      rw [idAt_sub hn] at h4
      exact hno p ((h2.trans ⟨r, h1⟩)) h3 ((idAt_build_iff V (pfx ++ p) hV (by simp [h3])).mp h4)

/-- The pointer `root` after a word, and where every id comes from. -/
theorem wordLoop_root (root cont : Node) (unk fuel : Nat) (n : Node) (rest : List Nat)
    (hf : rest.length ≤ fuel) (hr : rest ≠ []) :
    (wordLoop root cont unk fuel n rest).2 = root ∨
    ((wordLoop root cont unk fuel n rest).1.getLast? = some unk ∧
      ((wordLoop root cont unk fuel n rest).1.length ≤ 1 →
        (wordLoop root cont unk fuel n rest).2 = n)) := by
  induction fuel generalizing n rest with
  | zero => simp at hf; exact absurd hf hr
  | succ fuel ih =>
    rw [wordLoop, if_neg hr]
    rcases searchSubstr_spec n rest [] rest with ⟨_, h⟩ | ⟨p, f, r, h1, h2, h3, h4, _, _, _, h8⟩
    · simp [h]
    · rw [h8]
      simp only [ne_eq, h4, not_false_iff, if_true]
      by_cases hre : r = []
      · subst hre
        rw [if_pos rfl]
        left
        cases fuel <;> simp [wordLoop]
      · rw [if_neg hre]
        have hpl : 0 < p.length := List.length_pos_iff.mpr h3
        have hpf := h2.length_le
        have hrl : f.length + r.length = rest.length := by rw [← h1]; simp
        rcases ih cont r (by omega) hre with h | ⟨h, _⟩
        · exact Or.inl h
        · right
          have hne : (wordLoop root cont unk fuel cont r).1 ≠ [] := by
            intro h0; rw [h0] at h; simp at h
          have hlen := List.length_pos_iff.mpr hne
          refine ⟨?_, fun hl => ?_⟩
          · rw [List.getLast?_cons, h]; rfl
          · simp at hl; exact absurd hl hne

theorem wordLoop_ids (V : List (List Nat)) (hV : V.length ≤ INVALID) (cont : Node) (unk : Nat)
    (hc : walk (buildFrom Node.new 0 V) hashes = some cont) (fuel : Nat) (n : Node)
    (hn : n = buildFrom Node.new 0 V ∨ n = cont) (rest : List Nat) :
    (∀ i ∈ (wordLoop (buildFrom Node.new 0 V) cont unk fuel n rest).1, i < V.length ∨ i = unk) ∧
    ((wordLoop (buildFrom Node.new 0 V) cont unk fuel n rest).2 = buildFrom Node.new 0 V ∨
      (wordLoop (buildFrom Node.new 0 V) cont unk fuel n rest).2 = cont) := by
  induction fuel generalizing n rest with
  | zero => exact ⟨by simp [wordLoop], by simpa [wordLoop] using hn⟩
  | succ fuel ih =>
    rw [wordLoop]
    by_cases hr : rest = []
    · simp [hr, hn]
    · rw [if_neg hr]
      rcases searchSubstr_spec n rest [] rest with ⟨_, h⟩ | ⟨p, f, r, h1, h2, h3, h4, _, _, _, h8⟩
      · rw [h]; simp [hn]
      · rw [h8]
        simp only [ne_eq, h4, not_false_iff, if_true]
        obtain ⟨pfx, hpfx⟩ : ∃ pfx, walk (buildFrom Node.new 0 V) pfx = some n := by
          rcases hn with rfl | rfl
          · exact ⟨[], rfl⟩
          · exact ⟨hashes, hc⟩
        have hid : idAt n p < V.length := by
          rw [idAt_sub hpfx] at h4 ⊢
          have hm := (idAt_build_iff V (pfx ++ p) hV (by simp [h3])).mp h4
          obtain ⟨i, hi⟩ := last_index_exists V _ hm
          rw [(idAt_build V (pfx ++ p) hV (by simp [h3])).1 i hi]
          exact isLastIndex_lt hi
        have := ih (if r = [] then buildFrom Node.new 0 V else cont) (by split <;> simp) r
        refine ⟨fun i hi => ?_, this.2⟩
        rcases List.mem_cons.mp hi with rfl | hi
        · exact Or.inl hid
        · exact this.1 i hi

theorem wordsLoop_ids (V : List (List Nat)) (hV : V.length ≤ INVALID) (cont : Node) (unk : Nat)
    (hc : walk (buildFrom Node.new 0 V) hashes = some cont) (n : Node)
    (hn : n = buildFrom Node.new 0 V ∨ n = cont) (ws : List (List Nat)) :
    ∀ i ∈ wordsLoop (buildFrom Node.new 0 V) cont unk n ws, i < V.length ∨ i = unk := by
  induction ws generalizing n with
  | nil => simp [wordsLoop]
  | cons w ws ih =>
    obtain ⟨h1, h2⟩ := wordLoop_ids V hV cont unk hc w.length n hn w
    intro i hi
    rw [wordsLoop] at hi
    rcases List.mem_append.mp hi with hi | hi
    · exact h1 i hi
    · exact ih _ h2 i hi

theorem findNode_hashes (V : List (List Nat)) :
    findNode (buildFrom Node.new 0 V) hashes = walk (buildFrom Node.new 0 V) hashes := by
  simp [findNode, hashes]

theorem hashes_some (V : List (List Nat)) (h : ∃ v ∈ V, hashes <+: v) :
    ∃ cont, walk (buildFrom Node.new 0 V) hashes = some cont := by
  have := (hasPath_build V hashes (by simp [hashes])).mpr h
  exact Option.isSome_iff_exists.mp this

/-! ## The reference algorithm -/

theorem tight_pieces {V : List (List Nat)} {pfx w ids : List Nat} (h : TightPieces V pfx w ids) :
    Pieces V pfx w ids [] := by
  induction h with
  | done => exact Pieces.done _
  | step pfx p r id ids hp hid ht _ ih =>
    exact Pieces.step pfx p r id ids [] hp hid
      (fun q hq _ hm => ht q hq ⟨_, hm, List.prefix_refl _⟩) ih

theorem exists_longest (P : List Nat → Prop) (s : List Nat) :
    (∀ q, q <+: s → q ≠ [] → ¬ P q) ∨
    ∃ p r, p ≠ [] ∧ p ++ r = s ∧ P p ∧ ∀ q, q <+: s → q ≠ [] → P q → q.length ≤ p.length := by
  have : ∀ k, (∀ q, q <+: s → q ≠ [] → q.length ≤ k → ¬ P q) ∨
      ∃ p r, p ≠ [] ∧ p ++ r = s ∧ P p ∧ ∀ q, q <+: s → q ≠ [] → q.length ≤ k → P q →
        q.length ≤ p.length := by
    intro k
    induction k with
    | zero => left; intro q _ hne hl; exact absurd (List.length_eq_zero_iff.mp (by omega)) hne
    | succ k ih =>
      by_cases hk : s.take (k + 1) ≠ [] ∧ P (s.take (k + 1)) ∧ k + 1 ≤ s.length
      · right
        refine ⟨s.take (k + 1), s.drop (k + 1), hk.1, List.take_append_drop _ _, hk.2.1, ?_⟩
        intro q _ _ hl _
        rw [List.length_take]; omega
      · have same : ∀ q, q <+: s → q ≠ [] → q.length ≤ k + 1 → P q → q.length ≤ k := by
          intro q hq hne hl hP
          refine Nat.lt_succ_iff.mp (Nat.lt_of_le_of_ne hl (fun he => hk ?_))
          have hqe : q = s.take (k + 1) := by
            rw [show k + 1 = q.length from he.symm]; exact List.prefix_iff_eq_take.mp hq
          exact ⟨hqe ▸ hne, hqe ▸ hP, by have := hq.length_le; omega⟩
        rcases ih with h | ⟨p, r, h1, h2, h3, h4⟩
        · left
          intro q hq hne hl hP
          exact h q hq hne (same q hq hne hl hP) hP
        · right
          exact ⟨p, r, h1, h2, h3, fun q hq hne hl hP => h4 q hq hne (same q hq hne hl hP) hP⟩
  rcases this s.length with h | ⟨p, r, h1, h2, h3, h4⟩
  · exact Or.inl fun q hq hne => h q hq hne hq.length_le
  · exact Or.inr ⟨p, r, h1, h2, h3, fun q hq hne => h4 q hq hne hq.length_le⟩

/-- Checkable form of `Pieces.step`. -/
theorem pieces_step {V : List (List Nat)} (pfx p r : List Nat) (id : Nat) {ids left : List Nat}
    (h0 : p ≠ []) (h1 : V[id]? = some (pfx ++ p))
    (h2 : ∀ j < V.length, V[j]? = some (pfx ++ p) → j ≤ id)
    (h3 : ∀ k < (p ++ r).length + 1, (p ++ r).take k ≠ [] → pfx ++ (p ++ r).take k ∈ V → k ≤ p.length)
    (h4 : Pieces V marker r ids left) : Pieces V pfx (p ++ r) (id :: ids) left := by
  refine Pieces.step pfx p r id ids left h0 ⟨h1, ?_⟩ ?_ h4
  · intro j hj
    exact h2 j (List.getElem?_eq_some_iff.mp hj).1 hj
  · intro q hq hne hm
    have e := List.prefix_iff_eq_take.mp hq
    have := hq.length_le
    exact h3 q.length (by omega) (e ▸ hne) (e ▸ hm)

/-- Checkable form of `Pieces.stuck`. -/
theorem pieces_stuck {V : List (List Nat)} (pfx rest : List Nat) (h0 : rest ≠ [])
    (h1 : ∀ k < rest.length + 1, rest.take k ≠ [] → pfx ++ rest.take k ∉ V) :
    Pieces V pfx rest [] rest := by
  refine Pieces.stuck pfx rest h0 ?_
  intro q hq hne
  have e := List.prefix_iff_eq_take.mp hq
  have := hq.length_le
  exact e ▸ h1 q.length (by omega) (e ▸ hne)

/-- Checkable form of `TightPieces.step`. -/
theorem tight_step {V : List (List Nat)} (pfx p r : List Nat) (id : Nat) {ids : List Nat}
    (h0 : p ≠ []) (h1 : V[id]? = some (pfx ++ p))
    (h2 : ∀ j < V.length, V[j]? = some (pfx ++ p) → j ≤ id)
    (h3 : ∀ k < (p ++ r).length + 1, (∃ v ∈ V, (pfx ++ (p ++ r).take k).isPrefixOf v = true) → k ≤ p.length)
    (h4 : TightPieces V marker r ids) : TightPieces V pfx (p ++ r) (id :: ids) := by
  refine TightPieces.step pfx p r id ids h0 ⟨h1, ?_⟩ ?_ h4
  · intro j hj
    exact h2 j (List.getElem?_eq_some_iff.mp hj).1 hj
  · rintro q hq ⟨v, hv, hm⟩
    have e := List.prefix_iff_eq_take.mp hq
    have := hq.length_le
    exact h3 q.length (by omega) ⟨v, hv, by rw [← e]; exact List.isPrefixOf_iff_prefix.mpr hm⟩

theorem pieces_exists (V : List (List Nat)) (pfx w : List Nat) : ∃ ids left, Pieces V pfx w ids left := by
  generalize hk : w.length = k
  induction k using Nat.strongRecOn generalizing pfx w with
  | ind k ih =>
    by_cases hw : w = []
    · subst hw; exact ⟨[], [], Pieces.done _⟩
    · rcases exists_longest (fun q => pfx ++ q ∈ V) w with h | ⟨p, r, h1, h2, h3, h4⟩
      · exact ⟨[], w, Pieces.stuck pfx w hw h⟩
      · obtain ⟨id, hid⟩ := last_index_exists V _ h3
        have hp := List.length_pos_iff.mpr h1
        obtain ⟨ids, left, hrec⟩ := ih r.length (by rw [← hk, ← h2]; simp; omega) marker r rfl
        exact ⟨id :: ids, left, h2 ▸ Pieces.step pfx p r id ids left h1 hid (h2.symm ▸ h4) hrec⟩

theorem pieces_unique {V : List (List Nat)} {pfx w ids left : List Nat} (h : Pieces V pfx w ids left) :
    ∀ ids' left', Pieces V pfx w ids' left' → ids' = ids ∧ left' = left := by
  induction h with
  | done pfx =>
    intro ids' left' h
    generalize hw : ([] : List Nat) = w at h
    cases h with
    | done => exact ⟨rfl, rfl⟩
    | stuck _ _ hne => exact absurd hw.symm hne
    | step _ p r _ _ _ hp => exact absurd (List.append_eq_nil_iff.mp hw.symm).1 hp
  | stuck pfx rest hne hno =>
    intro ids' left' h
    generalize hw : rest = w at h
    cases h with
    | done => exact absurd hw hne
    | stuck => exact ⟨rfl, rfl⟩
    | step _ p r _ _ _ hp hid =>
      exact absurd (List.mem_of_getElem? hid.1) (hno p (hw ▸ List.prefix_append _ _) hp)
  | step pfx p r id ids left hp hid hmax _ ih =>
    intro ids' left' h
    generalize hw : p ++ r = w at h
    cases h with
    | done => exact absurd (List.append_eq_nil_iff.mp hw).1 hp
    | stuck _ _ _ hno =>
      exact absurd (List.mem_of_getElem? hid.1) (hno p (hw ▸ List.prefix_append _ _) hp)
    | step _ p' r' id' ids' _ hp' hid' hmax' hrec =>
      have h1 := hmax p' (hw ▸ List.prefix_append _ _) hp' (List.mem_of_getElem? hid'.1)
      have h2 := hmax' p (hw ▸ List.prefix_append _ _) hp (List.mem_of_getElem? hid.1)
      obtain ⟨rfl, rfl⟩ := List.append_inj hw (by omega)
      obtain ⟨e1, e2⟩ := ih _ _ hrec
      exact ⟨by rw [e1, isLastIndex_unique hid hid'], e2⟩

/-- For a prefix-closed vocabulary the code follows the reference algorithm piece by piece. -/
theorem wordLoop_closed (V : List (List Nat)) (hV : V.length ≤ INVALID) (hcl : PrefixClosed V)
    (cont : Node) (unk : Nat) (hc : walk (buildFrom Node.new 0 V) hashes = some cont)
    {pfx rest ids left : List Nat} (h : Pieces V pfx rest ids left) (hpfx : pfx = [] ∨ pfx = marker)
    (n : Node) (hn : walk (buildFrom Node.new 0 V) pfx = some n) (fuel : Nat)
    (hf : rest.length ≤ fuel) :
    (wordLoop (buildFrom Node.new 0 V) cont unk fuel n rest).1 =
      ids ++ (if left = [] then [] else [unk]) := by
  induction h generalizing n fuel with
  | done pfx => cases fuel <;> simp [wordLoop]
  | stuck pfx rest hne hno =>
    rw [wordLoop_stuck V hV _ cont n unk pfx rest hn hne hno fuel hf]; simp [hne]
  | step pfx p r id ids left hp hid hmax _ ih =>
    cases fuel with
    | zero => simp at hf; exact absurd hf.1 hp
    | succ fuel =>
      have ht : ∀ q, q <+: p ++ r → (∃ v ∈ V, pfx ++ q <+: v) → q.length ≤ p.length := by
        rintro q hq ⟨v, hv, hpre⟩
        by_cases hq0 : q = []
        · simp [hq0]
        · exact hmax q hq hq0 (hcl pfx hpfx q v hq0 hv hpre)
      obtain ⟨hs, hne⟩ := search_tight V hV pfx p r n id hn hp hid ht [] (p ++ r)
      have hne' : p ++ r ≠ [] := by simp [hp]
      have hpl : 0 < p.length := List.length_pos_iff.mpr hp
      have hrf : r.length ≤ fuel := by simp at hf; omega
      rw [wordLoop, if_neg hne', hs]
      simp only [ne_eq, hne, not_false_iff, if_true]
      by_cases hr : r = []
      · subst hr
        rename_i hrec
        have hu := pieces_unique hrec _ _ (Pieces.done marker)
        rw [← hu.1, ← hu.2]
        cases fuel <;> simp [wordLoop]
      · rw [if_neg hr, ih (Or.inr rfl) cont hc fuel hrf]
        simp

/-! ## The code, exactly -/

theorem wordLoop_scan (V : List (List Nat)) (hV : V.length ≤ INVALID) (cont : Node) (unk : Nat)
    (hc : walk (buildFrom Node.new 0 V) hashes = some cont) (fuel : Nat) (pfx rest : List Nat) (n : Node)
    (hn : walk (buildFrom Node.new 0 V) pfx = some n) (hf : rest.length ≤ fuel) :
    ∃ pfx', walk (buildFrom Node.new 0 V) pfx' =
        some (wordLoop (buildFrom Node.new 0 V) cont unk fuel n rest).2 ∧
      Scan V unk pfx rest (wordLoop (buildFrom Node.new 0 V) cont unk fuel n rest).1 pfx' := by
  induction fuel generalizing pfx rest n with
  | zero =>
    have : rest = [] := List.length_eq_zero_iff.mp (by omega)
    subst this
    exact ⟨pfx, hn, .empty pfx⟩
  | succ fuel ih =>
    rw [wordLoop]
    by_cases hr : rest = []
    · subst hr
      exact ⟨pfx, hn, .empty pfx⟩
    · rw [if_neg hr]
      rcases searchSubstr_spec n rest [] rest with ⟨h0, h⟩ | ⟨p, f, r, h1, h2, h3, h4, h5, h6, h7, h8⟩
      · rw [h]
        refine ⟨pfx, hn, .fail pfx rest hr ?_⟩
        intro p hp hne hm
        have := h0 p hp hne
        rw [idAt_sub hn] at this
        exact (idAt_build_iff V (pfx ++ p) hV (by simp [hne])).mpr hm this
      · rw [h8]
        simp only [ne_eq, h4, not_false_iff, if_true]
        have hf0 : f ≠ [] := by
          intro h; subst h; exact h3 (List.prefix_nil.mp h2)
        have hfl := List.length_pos_iff.mpr hf0
        have hlen : f.length + r.length = rest.length := by rw [← h1]; simp
        obtain ⟨pfx', g1, g2⟩ := ih (if r = [] then [] else marker) r
          (if r = [] then buildFrom Node.new 0 V else cont) (by split; rfl; exact hc) (by omega)
        refine ⟨pfx', g1, ?_⟩
        rw [idAt_sub hn] at h4 ⊢
        have hm := (idAt_build_iff V (pfx ++ p) hV (by simp [h3])).mp h4
        obtain ⟨i, hi⟩ := last_index_exists V _ hm
        rw [(idAt_build V (pfx ++ p) hV (by simp [h3])).1 i hi]
        rw [← h1]
        have hp0 : ∀ q, q ≠ [] → (HasPath n q ↔ ∃ v ∈ V, pfx ++ q <+: v) := fun q hq => by
          rw [hasPath_sub hn, hasPath_build V _ (by simp [hq])]
        refine Scan.step pfx p f r i _ pfx' h3 h2 hi ?_ ((hp0 f hf0).mp h6) ?_ g2
        · intro q hq hne hmem
          refine h5 q (h1 ▸ hq) hne ?_
          rw [idAt_sub hn]
          exact (idAt_build_iff V (pfx ++ q) hV (by simp [hne])).mpr hmem
        · intro q hq hv
          by_cases hq0 : q = []
          · subst hq0; simp
          · exact h7 q (h1 ▸ hq) ((hp0 q hq0).mpr hv)

theorem wordsLoop_scan (V : List (List Nat)) (hV : V.length ≤ INVALID) (cont : Node) (unk : Nat)
    (hc : walk (buildFrom Node.new 0 V) hashes = some cont) (ws : List (List Nat)) (pfx : List Nat) (n : Node)
    (hn : walk (buildFrom Node.new 0 V) pfx = some n) :
    ScanAll V unk pfx ws (wordsLoop (buildFrom Node.new 0 V) cont unk n ws) := by
  induction ws generalizing pfx n with
  | nil => exact .nil pfx
  | cons w ws ih =>
    obtain ⟨pfx', h1, h2⟩ := wordLoop_scan V hV cont unk hc w.length pfx w n hn (Nat.le_refl _)
    exact .cons pfx w ws _ pfx' _ h2 (ih pfx' _ h1)

theorem prefix_eq {a b l : List Nat} (ha : a <+: l) (hb : b <+: l) (h : a.length = b.length) : a = b :=
  (List.prefix_of_prefix_length_le ha hb (by omega)).eq_of_length h

theorem scan_unique {V : List (List Nat)} {unk : Nat} {pfx w ids pfx' : List Nat} (h : Scan V unk pfx w ids pfx') :
    ∀ ids₂ pfx₂, Scan V unk pfx w ids₂ pfx₂ → ids₂ = ids ∧ pfx₂ = pfx' := by
  induction h with
  | empty pfx =>
    intro ids₂ pfx₂ h
    generalize hw : ([] : List Nat) = w at h
    cases h with
    | empty => exact ⟨rfl, rfl⟩
    | fail _ _ hne => exact absurd hw.symm hne
    | step _ p q r _ _ _ hp hpq =>
      have := (List.append_eq_nil_iff.mp hw.symm).1
      subst this
      exact absurd (List.prefix_nil.mp hpq) hp
  | fail pfx rest hne hno =>
    intro ids₂ pfx₂ h
    generalize hw : rest = w at h
    cases h with
    | empty => exact absurd hw hne
    | fail => exact ⟨rfl, rfl⟩
    | step _ p q r _ _ _ hp hpq hid =>
      exact absurd (List.mem_of_getElem? hid.1) (hno p (hw ▸ hpq.trans (List.prefix_append _ _)) hp)
  | step pfx p q r id ids pfx' hp hpq hid hmax hv hqmax _ ih =>
    intro ids₂ pfx₂ h
    generalize hw : q ++ r = w at h
    cases h with
    | empty =>
      have := (List.append_eq_nil_iff.mp hw).1
      subst this
      exact absurd (List.prefix_nil.mp hpq) hp
    | fail _ _ _ hno =>
      exact absurd (List.mem_of_getElem? hid.1) (hno p (hw ▸ hpq.trans (List.prefix_append _ _)) hp)
    | step _ p₂ q₂ r₂ id₂ ids₂ _ hp₂ hpq₂ hid₂ hmax₂ hv₂ hqmax₂ hrec =>
      have k1 := hqmax q₂ (hw ▸ List.prefix_append _ _) hv₂
      have k2 := hqmax₂ q (hw ▸ List.prefix_append _ _) hv
      obtain ⟨rfl, rfl⟩ := List.append_inj hw (by omega)
      have m1 := hmax p₂ (hpq₂.trans (List.prefix_append _ _)) hp₂ (List.mem_of_getElem? hid₂.1)
      have m2 := hmax₂ p (hpq.trans (List.prefix_append _ _)) hp (List.mem_of_getElem? hid.1)
      have := prefix_eq hpq hpq₂ (by omega)
      subst this
      obtain ⟨e1, e2⟩ := ih _ _ hrec
      exact ⟨by rw [e1, isLastIndex_unique hid hid₂], e2⟩

theorem scanAll_unique {V : List (List Nat)} {unk : Nat} {pfx : List Nat} {ws : List (List Nat)} {out : List Nat}
    (h : ScanAll V unk pfx ws out) : ∀ out₂, ScanAll V unk pfx ws out₂ → out₂ = out := by
  induction h with
  | nil => intro out₂ h; cases h; rfl
  | cons pfx w ws ids pfx' out h1 _ ih =>
    intro out₂ h
    cases h with
    | cons _ _ _ ids₂ pfx₂ out₂ g1 g2 =>
      obtain ⟨rfl, rfl⟩ := scan_unique h1 _ _ g1
      rw [ih _ g2]

theorem wordsLoop_single (root cont : Node) (unk : Nat) (w : List Nat) :
    wordsLoop root cont unk root [w] = (wordLoop root cont unk w.length root w).1 := by
  simp [wordsLoop]

theorem cleaned_plain (u : Icu) (cond : TokInfo) (cs : List Nat)
    (hc : ∀ c ∈ cs, Solid u c ∧ (cond.addCjk = true → ¬ Ideograph c)) :
    cs.flatMap (fun c => cleanCp u cond (cpOf c)) = cs.map cpOf := by
  induction cs with
  | nil => rfl
  | cons c cs ih =>
    obtain ⟨h1, h2⟩ := hc c (by simp)
    rw [List.flatMap_cons, ih (fun x hx => hc x (by simp [hx])), cleanCp_solid u cond c h1,
      if_neg (fun h => h2 h.2 h.1)]
    rfl

theorem cleanAndSplit_plain (u : Icu) (cond : TokInfo) (cs : List Nat)
    (h : ∀ c ∈ cs, IsScalar c) (hne : cs ≠ [])
    (hs : ∀ c ∈ cs, Solid u c ∧ (cond.addCjk = true → ¬ Ideograph c)) :
    cleanAndSplit u cond (utf16Encode cs) = [utf16Encode cs] := by
  rw [cleanAndSplit_encode u cond cs h, cleaned_plain u cond cs hs,
    splitLoop_solid [] _ (by
      intro p hp
      obtain ⟨c, hc, rfl⟩ := List.mem_map.mp hp
      rw [cpOf_c]; exact solid_ne_space u c (hs c hc).1), flatMap_pushUnits cs h, List.nil_append,
    if_neg (by rw [utf16Encode_eq_nil]; exact hne)]

theorem basicTokenize_text (u : Icu) (cond : TokInfo) (keep : List (List Nat)) (cs : List Nat)
    (h : ∀ c ∈ cs, IsScalar c) :
    basicTokenize u cond keep (utf8Encode cs) =
      basicWords u cond keep (cleanAndSplit u cond (u.nfc (utf16Encode cs))) := by
  obtain ⟨r, h1, h2⟩ := safeNorm_rep u.nfc (rep_ofUtf8 cs h)
  unfold basicTokenize
  rw [h1, Res.bind_ok, readUnits_rep h2, Res.bind_ok]

/-- With lower-casing, an unprotected word contributes nothing (or an empty string). -/
theorem basicWord_lower (u : Icu) (cond : TokInfo) (hl : cond.lowerCase = true)
    (keep : List (List Nat)) (w : List Nat) (hk : w ∉ keep) (hlow : u.lower w ≠ [])
    (hc : u.nfc [] = []) (hd : u.nfd [] = []) :
    basicWord u cond keep w = .ok (if cond.splitPunc then [] else [[]]) := by
  unfold basicWord
  rw [if_neg hk]
  obtain ⟨r, h1, h2⟩ := lowerWord_empty u w hlow
  have hs : ∃ r', stripStep u cond r = .ok r' ∧ Rep r' [] := by
    unfold stripStep
    split
    · obtain ⟨r', h3, h4⟩ := stripAccents_rep u h2 (by rw [hd]; simp)
      refine ⟨r', h3, ?_⟩
      rw [hd] at h4
      have : u.nfc (utf16Encode (((eachCp true []).map (·.c)).filter (fun c => !u.catMn c))) = [] := hc
      rwa [this] at h4
    · exact ⟨r, rfl, h2⟩
  obtain ⟨r', h3, h4⟩ := hs
  simp only [lowerStep, hl, if_true, h1, Res.bind, h3, readUnits_rep h4]
  split <;> rfl

theorem wordsLoop_skip_empty (root cont : Node) (unk : Nat) (n : Node) (ws : List (List Nat)) :
    wordsLoop root cont unk n ws = wordsLoop root cont unk n (ws.filter (· ≠ [])) := by
  induction ws generalizing n with
  | nil => rfl
  | cons w ws ih =>
    by_cases hw : w = []
    · subst hw
      rw [List.filter_cons_of_neg (by simp)]
      simp only [wordsLoop, List.length_nil, wordLoop, List.nil_append]
      exact ih n
    · rw [List.filter_cons_of_pos (by simp [hw])]
      simp only [wordsLoop]
      rw [ih]

theorem wordpiece_skip_empty (t : Node) (unk : Nat) (ws : List (List Nat)) :
    wordpiece t unk ws = wordpiece t unk (ws.filter (· ≠ [])) := by
  unfold wordpiece
  cases findNode t hashes with
  | none => rfl
  | some c => simp only [wordsLoop_skip_empty t c unk t ws]

theorem basicWords_lower (u : Icu) (cond : TokInfo) (hl : cond.lowerCase = true)
    (keep : List (List Nat)) (ws : List (List Nat)) (hne : ∀ w ∈ ws, w ≠ [])
    (hlow : ∀ w, w ≠ [] → u.lower w ≠ []) (hc : u.nfc [] = []) (hd : u.nfd [] = []) :
    ∃ out, basicWords u cond keep ws = .ok out ∧
      out.filter (· ≠ []) = ws.filter (fun w => decide (w ∈ keep)) := by
  induction ws with
  | nil => exact ⟨[], rfl, rfl⟩
  | cons w ws ih =>
    obtain ⟨out, h1, h2⟩ := ih (fun x hx => hne x (by simp [hx]))
    have hw := hne w (by simp)
    by_cases hk : w ∈ keep
    · refine ⟨w :: out, ?_, ?_⟩
      · simp [basicWords, basicWord, hk, h1]
      · rw [List.filter_cons_of_pos (by simp [hw]), List.filter_cons_of_pos (by simp [hk]), h2]
    · refine ⟨(if cond.splitPunc then [] else [[]]) ++ out, ?_, ?_⟩
      · rw [basicWords, basicWord_lower u cond hl keep w hk (hlow w hw) hc hd, h1]; rfl
      · rw [List.filter_cons_of_neg (by simp [hk]), ← h2]
        split <;> simp

/-- Longest match of an entry against itself. -/
theorem wordpiece_entry (V : List (List Nat)) (hV : V.length ≤ INVALID) (cont : Node) (unk : Nat)
    (w : List Nat) (hw : w ≠ []) (id : Nat) (hid : IsLastIndex V w id) :
    wordLoop (buildFrom Node.new 0 V) cont unk w.length (buildFrom Node.new 0 V) w =
      ([id], buildFrom Node.new 0 V) := by
  obtain ⟨hs, hne⟩ := search_tight V hV [] w [] (buildFrom Node.new 0 V) id rfl hw (by simpa using hid)
    (fun q hq _ => by simpa using hq.length_le) [] w
  rw [List.append_nil] at hs
  cases hl : w.length with
  | zero => exact absurd (List.length_eq_zero_iff.mp hl) hw
  | succ k =>
    rw [wordLoop, if_neg hw, hs]
    simp only [ne_eq, hne, not_false_iff, if_true]
    cases k <;> simp [wordLoop]

theorem splitLoop_scalar (cur xs : List Nat) (hcur : ∀ c ∈ cur, IsScalar c)
    (hx : ∀ c ∈ xs, IsScalar c) : ∀ w ∈ Bert.splitLoop (utf16Encode cur) (xs.map cpOf),
      ∃ es, (∀ e ∈ es, IsScalar e) ∧ w = utf16Encode es := by
  induction xs generalizing cur with
  | nil =>
    intro w hw
    simp only [List.map_nil, Bert.splitLoop] at hw
    split at hw
    · cases hw
    · simp at hw; exact ⟨cur, hcur, hw⟩
  | cons x xs ih =>
    intro w hw
    have hx0 := hx x (by simp)
    have hx' : ∀ c ∈ xs, IsScalar c := fun c hc => hx c (by simp [hc])
    simp only [List.map_cons, Bert.splitLoop] at hw
    split at hw
    · split at hw
      · exact ih [] (by simp) hx' w hw
      · rcases List.mem_cons.mp hw with rfl | hw
        · exact ⟨cur, hcur, rfl⟩
        · exact ih [] (by simp) hx' w hw
    · rw [pushUnits_cpOf x hx0] at hw
      have e : utf16Encode cur ++ utf16Of x = utf16Encode (cur ++ [x]) := by simp [utf16Encode]
      rw [e] at hw
      refine ih (cur ++ [x]) ?_ hx' w hw
      intro c hc
      rcases List.mem_append.mp hc with h | h
      · exact hcur c h
      · simp at h; subst h; exact hx0

theorem cleaned_scalar (u : Icu) (cond : TokInfo) (hb : BasicMode cond) (cs : List Nat)
    (h : ∀ c ∈ cs, IsScalar c) : ∃ ds : List Nat, (∀ d ∈ ds, IsScalar d) ∧
      cs.flatMap (fun c => cleanCp u cond (cpOf c)) = ds.map cpOf := by
  have h32 : IsScalar 32 := by decide
  have e32 : Cp.ofUnit 32 = cpOf 32 := rfl
  induction cs with
  | nil => exact ⟨[], by simp, rfl⟩
  | cons c cs ih =>
    obtain ⟨ds, hd, he⟩ := ih (fun x hx => h x (by simp [hx]))
    have hc := h c (by simp)
    rw [List.flatMap_cons, he]
    by_cases hk : Kept u c
    · by_cases hw : Blank u c
      · rw [cleanCp_blank u cond hb.2.2.2 c hk hw, e32]
        exact ⟨32 :: ds, by simpa [h32] using hd, rfl⟩
      · rw [cleanCp_solid u cond c ⟨hk, hw⟩, e32]
        split
        · exact ⟨32 :: c :: 32 :: ds, by simpa [h32, hc] using hd, rfl⟩
        · exact ⟨c :: ds, by simpa [hc] using hd, rfl⟩
    · rw [cleanCp_removed u cond hb c hk]
      exact ⟨ds, hd, rfl⟩

theorem cleanAndSplit_scalar (u : Icu) (cond : TokInfo) (hb : BasicMode cond) (cs : List Nat)
    (h : ∀ c ∈ cs, IsScalar c) : ∀ w ∈ cleanAndSplit u cond (utf16Encode cs),
      ∃ es, (∀ e ∈ es, IsScalar e) ∧ w = utf16Encode es := by
  rw [cleanAndSplit_encode u cond cs h]
  obtain ⟨ds, hd, he⟩ := cleaned_scalar u cond hb cs h
  rw [he]
  exact splitLoop_scalar [] ds (by simp) hd

/-! ## The mode without basic tokenization -/

theorem cleanCp_raw (u : Icu) (c : Nat) (cond : TokInfo) (h1 : cond.removeNull = false)
    (h2 : cond.removeRepl = false) (h3 : cond.removeCtrl = false) (h4 : cond.normWs = true)
    (h5 : cond.addCjk = false) (hs : IsScalar c) (hc : Control u c → c ≤ 0xFFFF) :
    ∃ p : Cp, cleanCp u cond (cpOf c) = [p] ∧
      if Separator u c then p.c = 32 else p.c ≠ 32 ∧ pushUnits p = utf16Of c := by
  have h65 : c ≤ 0xFFFF → c % 65536 = c ∧ pushUnits (Cp.ofUnit (c % 65536)) = utf16Of c := by
    intro h
    have e : c % 65536 = c := Nat.mod_eq_of_lt (by omega)
    refine ⟨e, ?_⟩
    rw [e]
    simp only [pushUnits, Cp.ofUnit, utf16Of]
    rw [if_pos (by omega)]
    simp [e, Cp.isPair]
  unfold cleanCp
  simp only [cpOf_c, h1, h2, h3, h4, h5, Bool.and_false, Bool.false_eq_true, if_false, if_true]
  by_cases k1 : c = 0
  · subst k1
    refine ⟨_, by rw [if_pos rfl], ?_⟩
    rw [if_neg (fun h => h.2.1 rfl)]
    exact ⟨by simp [Cp.ofUnit], (h65 (by omega)).2⟩
  rw [if_neg k1]
  by_cases k2 : c = 0xfffd
  · subst k2
    refine ⟨_, by rw [if_pos rfl], ?_⟩
    rw [if_neg (fun h => h.2.2.1 rfl)]
    exact ⟨by simp [Cp.ofUnit], (h65 (by omega)).2⟩
  rw [if_neg k2]
  by_cases k3 : isCtrl u c = true
  · have hcc := (isCtrl_iff u c).mp k3
    refine ⟨_, by rw [if_pos k3], ?_⟩
    rw [if_neg (fun h => h.2.2.2 hcc)]
    have := h65 (hc hcc)
    refine ⟨?_, this.2⟩
    simp only [Cp.ofUnit, this.1]
    rintro rfl
    exact hcc.1 (by simp)
  rw [if_neg k3]
  have hkept : Kept u c := ⟨k1, k2, fun h => k3 ((isCtrl_iff u c).mpr h)⟩
  by_cases k4 : isWs u c = true
  · refine ⟨_, by rw [if_pos k4], ?_⟩
    rw [if_pos ⟨(isWs_iff u c).mp k4, hkept⟩]
    rfl
  · rw [if_neg k4]
    refine ⟨_, rfl, ?_⟩
    have hb : ¬ Blank u c := fun h => k4 ((isWs_iff u c).mpr h)
    rw [if_neg (fun h => hb h.1), cpOf_c]
    exact ⟨fun h => hb (Or.inl (by simp [h])), pushUnits_cpOf c hs⟩

theorem splitLoop_raw (u : Icu) (cond : TokInfo) (h1 : cond.removeNull = false)
    (h2 : cond.removeRepl = false) (h3 : cond.removeCtrl = false) (h4 : cond.normWs = true)
    (h5 : cond.addCjk = false) (cs : List Nat) (hs : ∀ c ∈ cs, IsScalar c)
    (hc : ∀ c ∈ cs, Control u c → c ≤ 0xFFFF) (cur : List Nat) :
    Bert.splitLoop (utf16Encode cur) (cs.flatMap (fun c => cleanCp u cond (cpOf c))) =
      (wordsFrom (fun c => decide (Separator u c)) cur cs).map utf16Encode := by
  induction cs generalizing cur with
  | nil =>
    simp only [List.flatMap_nil, Bert.splitLoop, wordsFrom, utf16Encode_eq_nil]
    by_cases h : cur = [] <;> simp [h]
  | cons c cs ih =>
    obtain ⟨p, hp, hq⟩ := cleanCp_raw u c cond h1 h2 h3 h4 h5 (hs c (by simp)) (hc c (by simp))
    have ih := ih (fun x hx => hs x (by simp [hx])) (fun x hx => hc x (by simp [hx]))
    rw [List.flatMap_cons, hp, List.singleton_append, Bert.splitLoop]
    simp only [wordsFrom]
    by_cases hsep : Separator u c
    · rw [if_pos hsep] at hq
      have hd : decide (Separator u c) = true := by simpa using hsep
      have := ih []
      rw [show utf16Encode [] = [] from rfl] at this
      rw [if_pos hq, if_pos hd, this]
      simp only [utf16Encode_eq_nil]
      by_cases h : cur = [] <;> simp [h]
    · rw [if_neg hsep] at hq
      rw [if_neg hq.1, if_neg (by simpa using hsep), hq.2]
      have e : utf16Encode cur ++ utf16Of c = utf16Encode (cur ++ [c]) := by simp [utf16Encode]
      rw [e, ih]

theorem basicWords_raw (u : Icu) (cond : TokInfo) (h1 : cond.lowerCase = false) (h2 : cond.stripAcc = false)
    (h3 : cond.splitPunc = false) (keep ws : List (List Nat)) : basicWords u cond keep ws = .ok ws := by
  induction ws with
  | nil => rfl
  | cons w ws ih =>
    have : basicWord u cond keep w = .ok [w] := by
      unfold basicWord
      split
      · rfl
      · simp [lowerStep, stripStep, h1, h2, h3, Res.bind, readUnits_rep (rep_ofUnits _)]
    rw [basicWords, this, ih]
    rfl

end Berts.Bert
