import Verif.Spec.Unicode

/-! # Helper lemmas about strings -/

namespace Berts.Unicode

open Berts.Spec

/-! ## Code point iteration -/

theorem eachCpFrom_high (skip : Bool) (h : Nat) (hh : IsHigh h) (us : List Nat) :
    eachCpFrom skip 0 (h :: us) = eachCpFrom skip h us := by
  unfold IsHigh at hh
  have h1 : ¬ (0xdc00 ≤ h ∧ h < 0xe000) := by omega
  have h2 : (0xd800 ≤ h ∧ h < 0xdc00) := hh
  simp [eachCpFrom, eachCpStep, h1, h2]

theorem eachCp_spec (skip : Bool) (us : List Nat) :
    (eachCp skip us).map (·.c) =
      (decodeUnits us).flatMap (fun o => match o with
        | some c => [c]
        | none => if skip then [] else [0xfffd]) := by
  unfold eachCp
  fun_induction decodeUnits us with
  | case1 => simp [eachCpFrom]
  | case2 u h =>
    rcases h with h | h
    · rw [eachCpFrom_high _ _ h]
      have : u ≠ 0 := by unfold IsHigh at h; omega
      cases skip <;> simp [eachCpFrom, this]
    · unfold IsLow at h
      cases skip <;> simp [eachCpFrom, eachCpStep, h]
  | case3 u h =>
    have h1 : ¬ (0xdc00 ≤ u ∧ u < 0xe000) := by unfold IsHigh IsLow at h; omega
    have h2 : ¬ (0xd800 ≤ u ∧ u < 0xdc00) := by unfold IsHigh IsLow at h; omega
    simp [eachCpFrom, eachCpStep, h1, h2, Cp.ofUnit]
  | case4 u v us h ih =>
    rw [eachCpFrom_high _ _ h.1]
    have h0 : u ≠ 0 := by have := h.1; unfold IsHigh at this; omega
    have hl : 0xdc00 ≤ v ∧ v < 0xe000 := h.2
    simp only [eachCpFrom, eachCpStep, hl, h0, and_self, if_true, if_false, List.map_append,
      List.map_cons, List.map_nil, List.flatMap_cons, ih]
    simp; omega
  | case5 u v us h h' ih =>
    rcases h' with h' | h'
    · rw [eachCpFrom_high _ _ h']
      have h0 : u ≠ 0 := by unfold IsHigh at h'; omega
      have hl : ¬ (0xdc00 ≤ v ∧ v < 0xe000) := fun hv => h ⟨h', hv⟩
      have key : eachCpFrom skip u (v :: us) =
          (if skip then [] else [⟨0xfffd, u, 0⟩]) ++ eachCpFrom skip 0 (v :: us) := by
        by_cases hv : 0xd800 ≤ v ∧ v < 0xdc00 <;>
          simp [eachCpFrom, eachCpStep, hl, h0, hv]
      rw [key]
      cases skip <;> simp [ih]
    · have hl : 0xdc00 ≤ u ∧ u < 0xe000 := h'
      rw [eachCpFrom]
      cases skip <;> simp [eachCpStep, hl, ih]
  | case6 u v us h h' ih =>
    have h1 : ¬ (0xdc00 ≤ u ∧ u < 0xe000) := by unfold IsHigh IsLow at h'; omega
    have h2 : ¬ (0xd800 ≤ u ∧ u < 0xdc00) := by unfold IsHigh IsLow at h'; omega
    rw [eachCpFrom]
    simp [eachCpStep, h1, h2, Cp.ofUnit, ih]

theorem decodeUnits_plain (u : Nat) (us : List Nat) (h : ¬ (IsHigh u ∨ IsLow u)) :
    decodeUnits (u :: us) = some u :: decodeUnits us := by
  cases us with
  | nil => simp [decodeUnits, h]
  | cons v us =>
    have h' : ¬ (IsHigh u ∧ IsLow v) := fun x => h (Or.inl x.1)
    simp [decodeUnits, h', h]

theorem decodeUnits_encode (cs : List Nat) (h : ∀ c ∈ cs, IsScalar c) :
    decodeUnits (utf16Encode cs) = cs.map some := by
  induction cs with
  | nil => rfl
  | cons c cs ih =>
    have ih := ih (fun x hx => h x (List.mem_cons_of_mem _ hx))
    have hc : IsScalar c := h c (List.mem_cons_self)
    have e : utf16Encode (c :: cs) = utf16Of c ++ utf16Encode cs := by simp [utf16Encode]
    rw [e]
    unfold utf16Of
    split
    · rw [List.singleton_append, decodeUnits_plain, ih]
      · simp
      · unfold IsScalar at hc; unfold IsHigh IsLow; omega
    · have hh : IsHigh (0xd800 + (c - 0x10000) / 0x400) ∧ IsLow (0xdc00 + (c - 0x10000) % 0x400) := by
        unfold IsScalar at hc; unfold IsHigh IsLow; omega
      simp only [List.cons_append, List.nil_append]
      rw [decodeUnits, if_pos hh, ih]
      simp; omega

theorem eachCpFrom_units (sur : Nat) (us : List Nat) :
    (eachCpFrom false sur us).flatMap cpUnits = (if sur ≠ 0 then [sur] else []) ++ us := by
  induction us generalizing sur with
  | nil =>
    by_cases h : sur = 0 <;> simp [eachCpFrom, h, cpUnits]
  | cons c us ih =>
    rw [eachCpFrom, List.flatMap_append, ih]
    unfold eachCpStep
    by_cases h1 : 0xdc00 ≤ c ∧ c < 0xe000
    · have hc : c ≠ 0 := by omega
      by_cases h : sur = 0 <;> simp [h1, h, hc, cpUnits]
    · by_cases h2 : 0xd800 ≤ c ∧ c < 0xdc00
      · have hc : c ≠ 0 := by omega
        by_cases h : sur = 0 <;> simp [h1, h2, h, hc, cpUnits]
      · by_cases h : sur = 0 <;> simp [h1, h2, h, cpUnits, Cp.ofUnit]

/-! ## Objects -/

theorem rep_allocFill (u : UImpl) (l : List Nat) : Rep (u.allocFill l) l := by
  constructor
  · rfl
  · by_cases h : l = [] <;> simp [UImpl.allocFill, h]

theorem readUnits_rep {u : UImpl} {l : List Nat} (h : Rep u l) : u.readUnits = .ok l := by
  obtain ⟨h1, h2⟩ := h
  unfold UImpl.readUnits
  by_cases hl : l = []
  · subst hl; simp [h1, h2]
  · simp [h1, h2, hl]

theorem readSize_rep {u : UImpl} {l : List Nat} (h : Rep u l) : u.readSize = .ok l.length := by
  simp [UImpl.readSize, h.1]

theorem rep_e {u : UImpl} {l : List Nat} (e : UErr) (h : Rep u l) : Rep { u with e := e } l := h

theorem bytesOf_length (l : List Nat) : (UImpl.bytesOf l).length = 2 * l.length := by
  induction l with
  | nil => rfl
  | cons a l ih => simp [UImpl.bytesOf] at *; omega

theorem bytesOf_inj (l m : List Nat) (h : UImpl.bytesOf l = UImpl.bytesOf m) : l = m := by
  induction l generalizing m with
  | nil =>
    cases m with
    | nil => rfl
    | cons b m => simp [UImpl.bytesOf] at h
  | cons a l ih =>
    cases m with
    | nil => simp [UImpl.bytesOf] at h
    | cons b m =>
      have h' : a % 256 = b % 256 ∧ a / 256 = b / 256 ∧ UImpl.bytesOf l = UImpl.bytesOf m := by
        simpa [UImpl.bytesOf] using h
      rw [ih m h'.2.2]
      have : a = b := by omega
      rw [this]

theorem eq_rep {a b : UImpl} {l m : List Nat} (ha : Rep a l) (hb : Rep b m) :
    a.eq b = .ok (decide (l = m)) := by
  unfold UImpl.eq
  rw [readSize_rep ha, readSize_rep hb]
  simp only [Res.bind_ok]
  by_cases hlen : l.length = m.length
  · by_cases h0 : l.length = 0
    · have : l = [] := List.length_eq_zero_iff.mp h0
      have : m = [] := List.length_eq_zero_iff.mp (hlen ▸ h0)
      simp_all
    · have hl : l ≠ [] := by intro h; simp [h] at h0
      have hm : m ≠ [] := by intro h; simp [h] at hlen; exact hl hlen
      simp only [hlen, ne_eq, not_true, if_false]
      rw [if_neg (by omega), ha.2, hb.2, if_neg hl, if_neg hm]
      unfold UImpl.memcmpEq
      rw [if_neg (by omega)]
      simp only [Option.map_some]
      rw [if_pos (by simp [bytesOf_length]; omega)]
      congr 1
      rw [List.take_of_length_le (by rw [bytesOf_length]; omega),
        List.take_of_length_le (by rw [bytesOf_length]; omega)]
      by_cases e : l = m
      · simp [e]
      · simp only [e, decide_false, beq_eq_false_iff_ne, ne_eq]
        exact fun x => e (bytesOf_inj _ _ x)
  · have : l ≠ m := fun h => hlen (by rw [h])
    simp [hlen, this]

/-- Structural version of the comparison. -/
def lexCmp : List Nat → List Nat → Ordering
  | [], [] => .eq
  | [], _ :: _ => .lt
  | _ :: _, [] => .gt
  | a :: l, b :: m => if a ≠ b then compare a b else lexCmp l m

theorem cmpLoop_spec (l m : List Nat) (i : Nat) (hi : i ≤ l.length) (him : i ≤ m.length) :
    UImpl.cmpLoop l m l.length m.length i = .ok (lexCmp (l.drop i) (m.drop i)) := by
  generalize hk : l.length - i = k
  induction k generalizing i with
  | zero =>
    have : i = l.length := by omega
    subst this
    unfold UImpl.cmpLoop
    simp only [Nat.lt_irrefl, if_false, List.drop_length]
    rcases h : m.drop l.length with _ | ⟨x, t⟩
    · have : m.length ≤ l.length := by simpa using h
      have : l.length = m.length := by omega
      simp [lexCmp, this]
    · have : l.length < m.length := by
        rcases Nat.lt_or_ge l.length m.length with h' | h'
        · exact h'
        · rw [List.drop_eq_nil_of_le h'] at h; cases h
      have : l.length ≠ m.length := by omega
      simp [lexCmp, this]
  | succ k ih =>
    have hlt : i < l.length := by omega
    unfold UImpl.cmpLoop
    rw [if_pos hlt]
    rw [List.drop_eq_getElem_cons hlt]
    by_cases hm : m.length ≤ i
    · rw [if_pos hm, List.drop_eq_nil_of_le hm]; rfl
    · rw [if_neg hm]
      have hm' : i < m.length := by omega
      rw [List.drop_eq_getElem_cons hm', List.getElem?_eq_getElem hlt, List.getElem?_eq_getElem hm']
      simp only [lexCmp]
      split
      · rfl
      · exact ih (i + 1) (by omega) (by omega) (by omega)

theorem cmp_rep {a b : UImpl} {l m : List Nat} (ha : Rep a l) (hb : Rep b m) :
    a.cmp b = .ok (lexCmp l m) := by
  unfold UImpl.cmp
  rw [readSize_rep ha, readSize_rep hb]
  simp only [Res.bind_ok]
  rcases l with _ | ⟨x, l⟩
  · rcases m with _ | ⟨y, m⟩ <;> simp [lexCmp]
  · rcases m with _ | ⟨y, m⟩
    · simp [lexCmp]
    · rw [if_neg (by simp), if_neg (by simp), ha.2, hb.2, if_neg (by simp), if_neg (by simp)]
      simpa using cmpLoop_spec (x :: l) (y :: m) 0 (by simp) (by simp)

theorem lexCmp_lt (l m : List Nat) : lexCmp l m = .lt ↔ LexLt l m := by
  induction l generalizing m with
  | nil =>
    cases m with
    | nil =>
      simp [lexCmp, LexLt]
    | cons y m =>
      simp only [lexCmp, true_iff]
      exact Or.inl ⟨y :: m, by simp, rfl⟩
  | cons x l ih =>
    cases m with
    | nil =>
      simp [lexCmp, LexLt]
    | cons y m =>
      simp only [lexCmp]
      by_cases h : x = y
      · subst h
        simp only [ne_eq, not_true, if_false, ih]
        constructor
        · rintro (⟨t, ht, e⟩ | ⟨p, u, v, s, t, e1, e2, hlt⟩)
          · exact Or.inl ⟨t, ht, by simp [e]⟩
          · exact Or.inr ⟨x :: p, u, v, s, t, by simp [e1], by simp [e2], hlt⟩
        · rintro (⟨t, ht, e⟩ | ⟨p, u, v, s, t, e1, e2, hlt⟩)
          · exact Or.inl ⟨t, ht, by simpa using e⟩
          · cases p with
            | nil => simp at e1 e2; omega
            | cons z p =>
              simp at e1 e2
              exact Or.inr ⟨p, u, v, s, t, e1.2, e2.2, hlt⟩
      · simp only [ne_eq, h, not_false_eq_true, if_true]
        rw [Nat.compare_eq_lt]
        constructor
        · intro hlt
          exact Or.inr ⟨[], x, y, l, m, rfl, rfl, hlt⟩
        · rintro (⟨t, ht, e⟩ | ⟨p, u, v, s, t, e1, e2, hlt⟩)
          · simp at e; omega
          · cases p with
            | nil => simp at e1 e2; omega
            | cons z p => simp at e1 e2; omega

theorem lexCmp_swap (l m : List Nat) : lexCmp m l = (lexCmp l m).swap := by
  induction l generalizing m with
  | nil => cases m <;> rfl
  | cons x l ih =>
    cases m with
    | nil => rfl
    | cons y m =>
      simp only [lexCmp]
      by_cases h : x = y
      · subst h; simp [ih]
      · have h' : ¬ y = x := fun e => h e.symm
        simp only [ne_eq, h, h', not_false_eq_true, if_true]
        exact (Nat.compare_swap x y).symm

theorem lexCmp_eq (l m : List Nat) : lexCmp l m = .eq ↔ l = m := by
  induction l generalizing m with
  | nil => cases m <;> simp [lexCmp]
  | cons x l ih =>
    cases m with
    | nil => simp [lexCmp]
    | cons y m =>
      simp only [lexCmp]
      by_cases h : x = y
      · subst h; simp [ih]
      · simp [h]

theorem lexCmp_gt (l m : List Nat) : lexCmp l m = .gt ↔ LexLt m l := by
  rw [← lexCmp_lt, lexCmp_swap l m]
  cases lexCmp l m <;> simp [Ordering.swap]

theorem lexCmp_trans (a b c : List Nat) (h1 : lexCmp a b = .lt) (h2 : lexCmp b c = .lt) :
    lexCmp a c = .lt := by
  induction a generalizing b c with
  | nil =>
    cases c with
    | nil => cases b <;> simp [lexCmp] at h2
    | cons => rfl
  | cons x a ih =>
    cases b with
    | nil => simp [lexCmp] at h1
    | cons y b =>
      cases c with
      | nil => simp [lexCmp] at h2
      | cons z c =>
        simp only [lexCmp] at *
        by_cases hxy : x = y
        · subst hxy
          by_cases hyz : x = z
          · subst hyz; simp at *; exact ih b c h1 h2
          · simpa [hyz] using h2
        · simp only [ne_eq, hxy, not_false_eq_true, if_true, Nat.compare_eq_lt] at h1
          by_cases hyz : y = z
          · subst hyz; simpa [hxy, Nat.compare_eq_lt] using h1
          · simp only [ne_eq, hyz, not_false_eq_true, if_true, Nat.compare_eq_lt] at h2
            have : x ≠ z := by omega
            simp only [ne_eq, this, not_false_eq_true, if_true, Nat.compare_eq_lt]
            omega

theorem copyFrom_rep (u : UImpl) {v : UImpl} {l : List Nat} (h : Rep v l) :
    ∃ w, u.copyFrom v = .ok w ∧ Rep w l ∧ w.e = v.e := by
  unfold UImpl.copyFrom
  rw [h.2]
  by_cases hl : l = []
  · subst hl
    exact ⟨{ u.free with e := v.e }, by simp, ⟨rfl, rfl⟩, rfl⟩
  · rw [if_neg hl]
    refine ⟨{ u.allocFill l with e := v.e }, ?_, rep_e _ (rep_allocFill u l), rfl⟩
    simp only [readUnits_rep h]; rfl

theorem plus_rep {a b : UImpl} {l m : List Nat} (ha : Rep a l) (hb : Rep b m) :
    ∃ s, a.plus b = .ok s ∧ Rep s (l ++ m) := by
  refine ⟨UImpl.default.allocFill (l ++ m), ?_, rep_allocFill _ _⟩
  unfold UImpl.plus
  rw [readUnits_rep ha, readUnits_rep hb]; rfl

/-! ## Byte comparison of prefixes -/

theorem bytesOf_take (l : List Nat) (k : Nat) :
    (UImpl.bytesOf l).take (2 * k) = UImpl.bytesOf (l.take k) := by
  induction l generalizing k with
  | nil => simp [UImpl.bytesOf]
  | cons a l ih =>
    cases k with
    | zero => simp [UImpl.bytesOf]
    | succ k =>
      have := ih k
      have e : 2 * (k + 1) = (2 * k) + 1 + 1 := by omega
      rw [e]
      simpa [UImpl.bytesOf] using this

theorem bytesOf_take_odd (l : List Nat) (k : Nat) :
    (UImpl.bytesOf l).take (2 * k + 1) =
      UImpl.bytesOf (l.take k) ++ (l[k]?.map (· % 256)).toList := by
  induction l generalizing k with
  | nil => simp [UImpl.bytesOf]
  | cons a l ih =>
    cases k with
    | zero => simp [UImpl.bytesOf]
    | succ k =>
      have := ih k
      have e : 2 * (k + 1) + 1 = (2 * k + 1) + 1 + 1 := by omega
      rw [e]
      simpa [UImpl.bytesOf] using this

theorem take_bytes_eq_iff (x y : List Nat) (m : Nat) (hx : m ≤ x.length) (hy : m ≤ y.length) :
    (UImpl.bytesOf x).take m = (UImpl.bytesOf y).take m ↔
      x.take (m / 2) = y.take (m / 2) ∧
      (m % 2 = 1 → x[m / 2]?.map (· % 256) = y[m / 2]?.map (· % 256)) := by
  rcases Nat.mod_two_eq_zero_or_one m with h | h
  · have e : m = 2 * (m / 2) := by omega
    rw [e, bytesOf_take, bytesOf_take]
    have e2 : 2 * (m / 2) / 2 = m / 2 := by omega
    rw [e2]
    constructor
    · intro hh; exact ⟨bytesOf_inj _ _ hh, by omega⟩
    · rintro ⟨hh, _⟩; rw [hh]
  · have e : m = 2 * (m / 2) + 1 := by omega
    have e2 : (2 * (m / 2) + 1) / 2 = m / 2 := by omega
    have e3 : (2 * (m / 2) + 1) % 2 = 1 := by omega
    rw [e, bytesOf_take_odd, bytesOf_take_odd, e2, e3]
    simp only [forall_const]
    constructor
    · intro hh
      have hlen : (UImpl.bytesOf (x.take (m / 2))).length = (UImpl.bytesOf (y.take (m / 2))).length := by
        rw [bytesOf_length, bytesOf_length]; simp; omega
      have := List.append_inj hh hlen
      refine ⟨bytesOf_inj _ _ this.1, ?_⟩
      have h2 := this.2
      revert h2
      cases x[m / 2]?.map (· % 256) <;> cases y[m / 2]?.map (· % 256) <;> simp
    · rintro ⟨h1, h2⟩; rw [h1, h2]

/-! ## UTF-8 -/

theorem utf8Decode_encode (cs : List Nat) (h : ∀ c ∈ cs, IsScalar c) :
    utf8Decode (utf8Encode cs) = some cs := by
  induction cs with
  | nil => rfl
  | cons c cs ih =>
    have ih := ih (fun x hx => h x (List.mem_cons_of_mem _ hx))
    have hc : IsScalar c := h c (List.mem_cons_self)
    unfold IsScalar at hc
    have e : utf8Encode (c :: cs) = utf8Of c ++ utf8Encode cs := by simp [utf8Encode]
    rw [e]
    unfold utf8Of
    split
    · rename_i hlt
      rw [List.singleton_append, utf8Decode.eq_def]
      simp [hlt, ih]
    · split
      · simp only [List.cons_append, List.nil_append]
        rw [utf8Decode]
        rw [if_neg (by omega), if_neg (by omega), if_pos (by omega)]
        rw [if_pos (by simp [isCont]; omega), ih]
        simp; omega
      · split
        · simp only [List.cons_append, List.nil_append]
          rw [utf8Decode]
          rw [if_neg (by omega), if_neg (by omega), if_neg (by omega), if_pos (by omega)]
          simp only []
          rw [if_pos (by simp [isCont]; omega), ih]
          simp; omega
        · simp only [List.cons_append, List.nil_append]
          rw [utf8Decode]
          rw [if_neg (by omega), if_neg (by omega), if_neg (by omega), if_neg (by omega),
            if_pos (by omega)]
          simp only []
          rw [if_pos (by simp [isCont]; omega), ih]
          simp; omega

theorem utf8Encode_cons (c : Nat) (cs : List Nat) :
    utf8Encode (c :: cs) = utf8Of c ++ utf8Encode cs := by simp [utf8Encode]

theorem utf8Encode_decode (bs cs : List Nat) (h : utf8Decode bs = some cs) :
    utf8Encode cs = bs ∧ ∀ c ∈ cs, IsScalar c := by
  fun_induction utf8Decode bs generalizing cs with
  | case1 => simp at h; subst h; simp [utf8Encode]
  | case2 b0 bs hb ih =>
    simp only [Option.map_eq_some_iff] at h
    obtain ⟨ds, hd, rfl⟩ := h
    obtain ⟨i1, i2⟩ := ih _ hd
    rw [utf8Encode_cons, i1]
    refine ⟨by simp [utf8Of, hb], ?_⟩
    intro c hc
    rw [List.mem_cons] at hc
    rcases hc with hc | hc
    · rw [hc]; unfold IsScalar; omega
    · exact i2 c hc
  | case4 b0 h1 h2 h3 b1 bs hb ih =>
    simp only [Option.map_eq_some_iff] at h
    obtain ⟨ds, hd, rfl⟩ := h
    obtain ⟨i1, i2⟩ := ih _ hd
    simp only [isCont, Bool.and_eq_true, decide_eq_true_eq] at hb
    rw [utf8Encode_cons, i1]
    refine ⟨?_, ?_⟩
    · unfold utf8Of
      rw [if_neg (by omega), if_pos (by omega)]
      simp; omega
    · intro c hc
      rw [List.mem_cons] at hc
      rcases hc with hc | hc
      · rw [hc]; unfold IsScalar; omega
      · exact i2 c hc
  | case7 b0 h1 h2 h3 h4 b1 b2 bs hb ih =>
    simp only [Option.map_eq_some_iff] at h
    obtain ⟨ds, hd, rfl⟩ := h
    obtain ⟨i1, i2⟩ := ih _ hd
    simp [isCont] at hb
    rw [utf8Encode_cons, i1]
    refine ⟨?_, ?_⟩
    · unfold utf8Of
      rw [if_neg (by omega), if_neg (by omega), if_pos (by omega)]
      simp; omega
    · intro c hc
      rw [List.mem_cons] at hc
      rcases hc with hc | hc
      · rw [hc]; unfold IsScalar; omega
      · exact i2 c hc
  | case10 b0 h1 h2 h3 h4 h5 b1 b2 b3 bs hb ih =>
    simp only [Option.map_eq_some_iff] at h
    obtain ⟨ds, hd, rfl⟩ := h
    obtain ⟨i1, i2⟩ := ih _ hd
    simp [isCont] at hb
    rw [utf8Encode_cons, i1]
    refine ⟨?_, ?_⟩
    · unfold utf8Of
      rw [if_neg (by omega), if_neg (by omega), if_neg (by omega)]
      simp; omega
    · intro c hc
      rw [List.mem_cons] at hc
      rcases hc with hc | hc
      · rw [hc]; unfold IsScalar; omega
      · exact i2 c hc
  | _ => simp at h

theorem toCodePoints_encode (cs : List Nat) (h : ∀ c ∈ cs, IsScalar c) (skip : Bool) :
    (eachCp skip (utf16Encode cs)).map (·.c) = cs := by
  rw [eachCp_spec, decodeUnits_encode cs h, List.flatMap_map]
  simp

theorem scalar_of_eachCp (l : List Nat) (hl : ∀ u ∈ l, u < 0x10000) :
    ∀ c ∈ toCodePoints l, IsScalar c := by
  unfold toCodePoints
  rw [eachCp_spec]
  fun_induction decodeUnits l with
  | case1 => simp
  | case2 u h => simp [IsScalar]
  | case3 u h =>
    have := hl u (by simp)
    simp only [List.flatMap_cons, List.flatMap_nil, List.append_nil, List.mem_singleton, forall_eq]
    unfold IsHigh IsLow at h; unfold IsScalar; omega
  | case4 u v us h ih =>
    intro c hc
    simp only [List.flatMap_cons, List.singleton_append, List.mem_cons] at hc
    rcases hc with hc | hc
    · rw [hc]; unfold IsHigh IsLow at h; unfold IsScalar; omega
    · exact ih (fun x hx => hl x (by simp [hx])) c (by simpa using hc)
  | case5 u v us h h' ih =>
    intro c hc
    simp only [List.flatMap_cons, Bool.false_eq_true, if_false, List.singleton_append,
      List.mem_cons] at hc
    rcases hc with rfl | hc
    · unfold IsScalar; omega
    · exact ih (fun x hx => hl x (List.mem_cons_of_mem _ hx)) c (by simpa using hc)
  | case6 u v us h h' ih =>
    intro c hc
    simp only [List.flatMap_cons, List.singleton_append, List.mem_cons] at hc
    rcases hc with rfl | hc
    · have := hl c (by simp)
      unfold IsHigh IsLow at h'; unfold IsScalar; omega
    · exact ih (fun x hx => hl x (List.mem_cons_of_mem _ hx)) c (by simpa using hc)

/-! ## Stripping -/

theorem lstripLoop_false (ws : Nat → Bool) (cs : List Nat) : UImpl.lstripLoop ws false cs = cs := by
  induction cs with
  | nil => rfl
  | cons c cs ih => simp [UImpl.lstripLoop, ih]

theorem lstripLoop_true (ws : Nat → Bool) (cs : List Nat) :
    UImpl.lstripLoop ws true cs = cs.dropWhile ws := by
  induction cs with
  | nil => rfl
  | cons c cs ih =>
    by_cases h : ws c <;> simp [UImpl.lstripLoop, h, ih, lstripLoop_false]

theorem rstripLoop_eq (ws : Nat → Bool) (cs : List Nat) :
    UImpl.rstripLoop ws cs = (cs.dropWhile ws).length := by
  induction cs with
  | nil => rfl
  | cons c cs ih => by_cases h : ws c <;> simp [UImpl.rstripLoop, h, ih]

theorem take_rstrip (ws : Nat → Bool) (cs : List Nat) :
    cs.take (UImpl.rstripLoop ws cs.reverse) = (cs.reverse.dropWhile ws).reverse := by
  rw [rstripLoop_eq]
  have h := List.takeWhile_append_dropWhile (p := ws) (l := cs.reverse)
  generalize cs.reverse.takeWhile ws = a at h
  generalize hb : cs.reverse.dropWhile ws = b at h ⊢
  have h2 : cs = b.reverse ++ a.reverse := by
    rw [← List.reverse_append, h, List.reverse_reverse]
  rw [h2, List.take_left' (by simp)]

theorem rep_ofUtf32 (cs : List Nat) (h : ∀ c ∈ cs, IsScalar c) :
    Rep (UImpl.ofUtf32 cs) (utf16Encode cs) := by
  unfold UImpl.ofUtf32
  rw [if_pos]
  · exact rep_e _ (rep_allocFill _ _)
  · simp only [List.all_eq_true, Bool.or_eq_true, decide_eq_true_eq, Bool.and_eq_true]
    exact h

/-! ## Regex splitting -/

theorem splitLoop_acc (text : List Nat) (cur added : Nat) (out : List (List Nat))
    (ms : List (Nat × Nat)) :
    splitLoop text cur added out ms =
      (out ++ (splitLoop text cur 0 [] ms).1, added + (splitLoop text cur 0 [] ms).2) := by
  induction ms generalizing cur added out with
  | nil =>
    unfold splitLoop
    split <;> simp
  | cons m ms ih =>
    obtain ⟨s, e⟩ := m
    simp only [splitLoop]
    split
    · rw [ih, ih e (0 + 1 + 1)]
      simp only [List.append_assoc, List.nil_append, Prod.mk.injEq]
      exact ⟨trivial, by omega⟩
    · rw [ih, ih e (0 + 1)]
      simp only [List.append_assoc, List.nil_append, Prod.mk.injEq]
      exact ⟨trivial, by omega⟩

theorem drop_take_join (text : List Nat) (a b c : Nat) (h1 : a ≤ b) (h2 : b ≤ c) :
    (text.drop a).take (b - a) ++ (text.drop b).take (c - b) = (text.drop a).take (c - a) := by
  have e : text.drop b = (text.drop a).drop (b - a) := by
    rw [List.drop_drop]; congr 1; omega
  have e2 : c - a = (b - a) + (c - b) := by omega
  rw [e, e2, List.take_add]

theorem splitLoop_flatten (text : List Nat) (cur : Nat) (ms : List (Nat × Nat))
    (h : Matches text.length cur ms) :
    (splitLoop text cur 0 [] ms).1.flatten = text.drop cur ∧
    (splitLoop text cur 0 [] ms).2 = (splitLoop text cur 0 [] ms).1.length := by
  induction ms generalizing cur with
  | nil =>
    unfold splitLoop
    split
    · simp [List.take_of_length_le]
    · simp only [List.flatten_nil, List.length_nil, and_true]
      exact (List.drop_eq_nil_of_le (by omega)).symm
  | cons m ms ih =>
    obtain ⟨s, e⟩ := m
    obtain ⟨h1, h2, h3⟩ := h
    obtain ⟨i1, i2⟩ := ih e h3
    have hx : ∀ n, n ≤ text.length → Matches text.length n [] := fun n h => h
    have key : (text.drop s).take (e - s) ++ text.drop e = text.drop s := by
      have : text.drop e = (text.drop s).drop (e - s) := by
        rw [List.drop_drop]; congr 1; omega
      rw [this, List.take_append_drop]
    have key2 : (text.drop cur).take (s - cur) ++ text.drop s = text.drop cur := by
      have : text.drop s = (text.drop cur).drop (s - cur) := by
        rw [List.drop_drop]; congr 1; omega
      rw [this, List.take_append_drop]
    simp only [splitLoop]
    split
    · rw [splitLoop_acc]
      simp only [List.flatten_append, i1]
      constructor
      · simp [key, key2]
      · simp [i2]; omega
    · have : cur = s := by omega
      subst this
      rw [splitLoop_acc]
      simp only [List.flatten_append, i1]
      constructor
      · simp [key]
      · simp [i2]; omega

theorem splitLoop_sublist (text : List Nat) (cur : Nat) (ms : List (Nat × Nat)) :
    List.Sublist (ms.map (fun m => (text.drop m.1).take (m.2 - m.1)))
      (splitLoop text cur 0 [] ms).1 := by
  induction ms generalizing cur with
  | nil => simp
  | cons m ms ih =>
    obtain ⟨s, e⟩ := m
    simp only [splitLoop, List.map_cons]
    split
    · rw [splitLoop_acc]
      rw [← List.singleton_append]
      exact List.Sublist.append (List.sublist_append_right _ _) (ih e)
    · rw [splitLoop_acc]
      rw [← List.singleton_append]
      exact List.Sublist.append (List.sublist_append_right _ _) (ih e)

theorem splitLoop_nonempty (text : List Nat) (cur : Nat) (ms : List (Nat × Nat))
    (h : Matches text.length cur ms) (hne : ∀ m ∈ ms, m.1 < m.2) :
    ∀ p ∈ (splitLoop text cur 0 [] ms).1, p ≠ [] := by
  have hbound : ∀ (cur : Nat) (ms : List (Nat × Nat)), Matches text.length cur ms → cur ≤ text.length := by
    intro cur ms
    induction ms generalizing cur with
    | nil => exact id
    | cons m ms ih =>
      obtain ⟨s, e⟩ := m
      rintro ⟨h1, h2, h3⟩
      have := ih e h3
      omega
  induction ms generalizing cur with
  | nil =>
    intro p hp
    unfold splitLoop at hp
    split at hp
    · simp at hp; subst hp
      intro h0
      have := congrArg List.length h0
      simp at this; omega
    · simp at hp
  | cons m ms ih =>
    obtain ⟨s, e⟩ := m
    obtain ⟨h1, h2, h3⟩ := h
    have he := hbound e ms h3
    have hse := hne (s, e) (by simp)
    have ih := ih e h3 (fun m hm => hne m (by simp [hm]))
    have key : (text.drop s).take (e - s) ≠ [] := by
      intro h0
      have := congrArg List.length h0
      simp at this hse; omega
    intro p hp
    simp only [splitLoop] at hp
    split at hp
    · rw [splitLoop_acc] at hp
      simp only [List.append_assoc, List.nil_append, List.mem_append, List.mem_singleton] at hp
      rcases hp with hp | hp | hp
      · rw [hp]
        intro h0
        have := congrArg List.length h0
        simp at this; omega
      · rw [hp]; exact key
      · exact ih p hp
    · rw [splitLoop_acc] at hp
      simp only [List.nil_append, List.mem_append, List.mem_singleton] at hp
      rcases hp with hp | hp
      · rw [hp]; exact key
      · exact ih p hp

end Berts.Unicode
