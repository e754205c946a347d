import Verif.Spec.Examples

/-! # Proofs about the example programs -/

namespace Berts.Examples

open Berts.Vocab (ascii)
open Spec

/-! ## Numbers -/

theorem digits_isDigit {ds : List Nat} {v : Nat} (h : Digits ds v) : ds ≠ [] ∧ ∀ d ∈ ds, isDigit d = true := by
  induction h with
  | one d hd =>
    refine ⟨by simp, ?_⟩
    simp [isDigit]; omega
  | snoc ds v d _ hd ih =>
    refine ⟨by simp, ?_⟩
    intro x hx
    rcases List.mem_append.1 hx with hx | hx
    · exact ih.2 x hx
    · simp only [List.mem_singleton] at hx
      subst hx
      simp [isDigit]; omega

theorem digits_val {ds : List Nat} {v : Nat} (h : Digits ds v) : digitsVal ds = v := by
  induction h with
  | one d hd => simp [digitsVal]
  | snoc ds v d _ hd ih =>
    unfold digitsVal at *
    rw [List.foldl_append, ih]
    simp only [List.foldl_cons, List.foldl_nil]
    omega

theorem digits_of (n : Nat) (ds : List Nat) (hn : ds.length = n) (h0 : ds ≠ []) (h : ∀ d ∈ ds, isDigit d = true) :
    Digits ds (digitsVal ds) := by
  induction n generalizing ds with
  | zero => exact absurd (List.length_eq_zero_iff.1 hn) h0
  | succ n ih =>
    rcases List.eq_nil_or_concat ds with rfl | ⟨l, c, e⟩
    · exact absurd rfl h0
    · rw [List.concat_eq_append] at e
      subst e
      have hc : isDigit c = true := h c (by simp)
      have hc' : 48 ≤ c ∧ c ≤ 57 := by simpa [isDigit] using hc
      have ec : c = 48 + (c - 48) := by omega
      by_cases hl : l = []
      · subst hl
        have : digitsVal ([] ++ [c]) = c - 48 := by simp [digitsVal]
        rw [this, List.nil_append]
        have := Digits.one (c - 48) (by omega)
        rwa [← ec] at this
      · have h1 := ih l (by simpa using hn) hl (fun d hd => h d (by simp [hd]))
        have h2 := Digits.snoc l _ (c - 48) h1 (by omega)
        rw [← ec] at h2
        have : digitsVal (l ++ [c]) = 10 * digitsVal l + (c - 48) := by
          unfold digitsVal
          rw [List.foldl_append]
          simp only [List.foldl_cons, List.foldl_nil]
          omega
        rw [this]
        exact h2

theorem takeWhile_all {p : Nat → Bool} {l : List Nat} (h : ∀ d ∈ l, p d = true) :
    l.takeWhile p = l ∧ l.dropWhile p = [] := by
  induction l with
  | nil => exact ⟨rfl, rfl⟩
  | cons a t ih =>
    have := ih (fun d hd => h d (by simp [hd]))
    simp [h a (by simp), this.1, this.2]

theorem dropWhile_nil {p : Nat → Bool} {l : List Nat} (h : l.dropWhile p = []) : ∀ d ∈ l, p d = true := by
  induction l with
  | nil => simp
  | cons a t ih =>
    by_cases ha : p a = true
    · simp only [List.dropWhile_cons, ha, if_true] at h
      intro d hd
      rcases List.mem_cons.1 hd with rfl | hd
      · exact ha
      · exact ih h d hd
    · simp [ha] at h

/-- `from_chars` consumes everything exactly for numbers and the empty string. -/
theorem fromChars_nil {s : List Nat} (h : (fromChars s).1 = []) (h0 : s ≠ []) :
    ∃ v, Number s v ∧ (fromChars s).2 = if -2 ^ 31 ≤ v ∧ v < 2 ^ 31 then some v else none := by
  unfold fromChars at h ⊢
  split at h
  · rename_i t
    by_cases he : (t.takeWhile isDigit).isEmpty = true
    · simp [he] at h
    · simp only [he] at h ⊢
      have hd : t.dropWhile isDigit = [] := by
        revert h; simp only [Bool.false_eq_true, if_false]; split <;> exact id
      have hall := dropWhile_nil hd
      have ht := (takeWhile_all hall).1
      rw [ht] at he ⊢
      have hne : t ≠ [] := by rintro rfl; simp at he
      refine ⟨_, .neg t _ (digits_of _ t rfl hne hall), ?_⟩
      simp only [Bool.false_eq_true, if_false]
      by_cases hv : digitsVal t ≤ 2 ^ 31
      · rw [if_pos hv, if_pos (by omega)]
      · rw [if_neg hv, if_neg (by omega)]
  · rename_i hn
    by_cases he : (s.takeWhile isDigit).isEmpty = true
    · simp [he] at h; exact absurd h h0
    · simp only [he] at h ⊢
      have hd : s.dropWhile isDigit = [] := by
        revert h; simp only [Bool.false_eq_true, if_false]; split <;> exact id
      have hall := dropWhile_nil hd
      have ht := (takeWhile_all hall).1
      rw [ht]
      refine ⟨_, .nonneg s _ (digits_of _ s rfl h0 hall), ?_⟩
      simp only [Bool.false_eq_true, if_false]
      by_cases hv : digitsVal s < 2 ^ 31
      · rw [if_pos hv, if_pos (by omega)]
      · rw [if_neg hv, if_neg (by omega)]

theorem fromChars_number {s : List Nat} {v : Int} (h : Number s v) : (fromChars s).1 = [] ∧ s ≠ [] ∧
    (fromChars s).2 = if -2 ^ 31 ≤ v ∧ v < 2 ^ 31 then some v else none := by
  cases h with
  | nonneg ds v hd =>
    obtain ⟨hne, hall⟩ := digits_isDigit hd
    obtain ⟨h1, h2⟩ := takeWhile_all hall
    have hv := digits_val hd
    unfold fromChars
    split
    · rename_i t
      have := hall 45 (by simp)
      simp [isDigit] at this
    · rw [h1, h2, hv]
      have he : s.isEmpty = false := by cases s <;> simp_all
      simp only [he, Bool.false_eq_true, if_false]
      refine ⟨by split <;> rfl, hne, ?_⟩
      by_cases hv : v < 2 ^ 31
      · rw [if_pos hv, if_pos (by omega)]
      · rw [if_neg hv, if_neg (by omega)]
  | neg ds v hd =>
    obtain ⟨hne, hall⟩ := digits_isDigit hd
    obtain ⟨h1, h2⟩ := takeWhile_all hall
    have hv := digits_val hd
    unfold fromChars
    simp only [h1, h2, hv]
    have he : ds.isEmpty = false := by cases ds <;> simp_all
    simp only [he, Bool.false_eq_true, if_false]
    refine ⟨by split <;> rfl, by simp, ?_⟩
    by_cases hv : v ≤ 2 ^ 31
    · rw [if_pos hv, if_pos (by omega)]
    · rw [if_neg hv, if_neg (by omega)]

theorem number_unique {s : List Nat} {v w : Int} (h : Number s v) (h' : Number s w) : v = w := by
  cases h with
  | nonneg _ v hd =>
    cases h' with
    | nonneg _ w hd' => rw [← digits_val hd, ← digits_val hd']
    | neg ds w hd' =>
      have := (digits_isDigit hd).2 45 (by simp)
      simp [isDigit] at this
  | neg ds v hd =>
    cases h' with
    | nonneg _ w hd' =>
      have := (digits_isDigit hd').2 45 (by simp)
      simp [isDigit] at this
    | neg _ w hd' => rw [← digits_val hd, ← digits_val hd']

/-! ## Upper case -/

theorem toupperAll_ok {s r : List Nat} (h : toupperAll s = .ok r) :
    (∀ c ∈ s, ¬ (128 ≤ c ∧ c < 255)) ∧ CaseVariant s r := by
  induction s generalizing r with
  | nil => cases h; exact ⟨by simp, .nil⟩
  | cons c t ih =>
    unfold toupperAll toupperC at h
    split at h
    · cases h
    · rename_i hc
      split at h
      · rename_i hl
        cases ht : toupperAll t with
        | ok r' =>
          rw [ht] at h
          cases h
          obtain ⟨h1, h2⟩ := ih ht
          refine ⟨?_, .cons ?_ h2⟩
          · intro x hx
            rcases List.mem_cons.1 hx with rfl | hx
            · exact hc
            · exact h1 x hx
          · have := CharVariant.lower (c - 97) (by omega)
            rwa [show 97 + (c - 97) = c by omega, show 65 + (c - 97) = c - 32 by omega] at this
        | ub => rw [ht] at h; cases h
        | abort => rw [ht] at h; cases h
        | hang => rw [ht] at h; cases h
      · cases ht : toupperAll t with
        | ok r' =>
          rw [ht] at h
          cases h
          obtain ⟨h1, h2⟩ := ih ht
          refine ⟨?_, .cons (.same _) h2⟩
          intro x hx
          rcases List.mem_cons.1 hx with rfl | hx
          · exact hc
          · exact h1 x hx
        | ub => rw [ht] at h; cases h
        | abort => rw [ht] at h; cases h
        | hang => rw [ht] at h; cases h

theorem toupperAll_total (s : List Nat) :
    (∃ r, toupperAll s = .ok r) ∨ (toupperAll s = .ub ∧ ∃ c ∈ s, 128 ≤ c ∧ c < 255) := by
  induction s with
  | nil => exact .inl ⟨[], rfl⟩
  | cons c t ih =>
    unfold toupperAll toupperC
    split
    · rename_i hc
      exact .inr ⟨rfl, c, by simp, hc⟩
    · rcases ih with ⟨r, hr⟩ | ⟨hu, x, hx, hb⟩
      · split
        · exact .inl ⟨(c - 32) :: r, by rw [hr]; rfl⟩
        · exact .inl ⟨c :: r, by rw [hr]; rfl⟩
      · refine .inr ⟨?_, x, by simp [hx], hb⟩
        split <;> (rw [hu]; rfl)

/-- Upper case characters only. -/
def NoLower (l : List Nat) : Prop := ∀ c ∈ l, ¬ (97 ≤ c ∧ c ≤ 122) ∧ c < 128

theorem toupperAll_variant {s r : List Nat} (h : CaseVariant s r) (hr : NoLower r) : toupperAll s = .ok r := by
  induction h with
  | nil => rfl
  | cons hc _ ih =>
    rename_i a b l1 l2 _
    unfold toupperAll
    rw [ih (fun c hc => hr c (by simp [hc]))]
    have hb := hr b (by simp)
    have : toupperC a = .ok b := by
      unfold toupperC
      cases hc with
      | same =>
        rw [if_neg (by omega), if_neg (by omega)]
      | lower i hi =>
        rw [if_neg (by omega), if_pos (by omega)]
        congr 1
        omega
    rw [this]
    rfl

/-- Numbers have no letters. -/
theorem variant_number {s r : List Nat} (h : CaseVariant s r) {v : Int} (hn : Number r v ∨ Number s v) : s = r := by
  have key : ∀ (a b : List Nat), CaseVariant a b →
      ((∀ c ∈ b, c < 58) ∨ ∀ c ∈ a, c < 58) → a = b := by
    intro a b hab
    induction hab with
    | nil => intro _; rfl
    | cons hc _ ih =>
      intro hx
      have := ih (by rcases hx with h | h
                     · exact .inl fun c hc => h c (by simp [hc])
                     · exact .inr fun c hc => h c (by simp [hc]))
      rw [this]
      cases hc with
      | same => rfl
      | lower i hi =>
        rcases hx with h | h
        · have := h (65 + i) (by simp); omega
        · have := h (97 + i) (by simp); omega
  have num : ∀ {l : List Nat}, Number l v → ∀ c ∈ l, c < 58 := by
    intro l h c hc
    have dig : ∀ {ds : List Nat} {w : Nat}, Digits ds w → c ∈ ds → c < 58 := by
      intro ds w hd hcd
      have := (digits_isDigit hd).2 c hcd
      simp [isDigit] at this
      omega
    cases h with
    | nonneg _ w hd => exact dig hd hc
    | neg ds w hd =>
      rcases List.mem_cons.1 hc with rfl | hc
      · omega
      · exact dig hd hc
  apply key s r h
  rcases hn with h | h
  · exact .inl (num h)
  · exact .inr (num h)

/-! ## The table -/

theorem typeName_iff (t : Nat) (name : List Nat) : TypeName t name ↔ (t, name) ∈ quantTypes := by
  constructor
  · intro h; cases h <;> simp [quantTypes]
  · intro h
    simp only [quantTypes, List.mem_cons, Prod.mk.injEq, List.not_mem_nil, or_false] at h
    rcases h with h | h | h | h | h | h | h | h | h | h | h | h | h <;>
      (obtain ⟨rfl, rfl⟩ := h; constructor)

theorem typeName_upper {t : Nat} {name : List Nat} (h : TypeName t name) : NoLower name := by
  unfold NoLower
  cases h <;> decide

theorem typeName_fun {t u : Nat} {name : List Nat} (h : TypeName t name) (h' : TypeName u name) : t = u := by
  have key : ∀ p ∈ quantTypes, ∀ q ∈ quantTypes, p.2 = q.2 → p.1 = q.1 := by decide +kernel
  exact key _ ((typeName_iff _ _).1 h) _ ((typeName_iff _ _).1 h') rfl

theorem typeName_inj {t : Nat} {a b : List Nat} (h : TypeName t a) (h' : TypeName t b) : a = b := by
  have key : ∀ p ∈ quantTypes, ∀ q ∈ quantTypes, p.1 = q.1 → p.2 = q.2 := by decide +kernel
  exact key _ ((typeName_iff _ _).1 h) _ ((typeName_iff _ _).1 h') rfl

theorem typeName_notNumber {t : Nat} {name : List Nat} (h : TypeName t name) (v : Int) : ¬ Number name v := by
  intro hn
  have h1 := (fromChars_number hn).1
  revert h1
  cases h <;> decide

/-- The loop with an initialised number. -/
theorem parseLoop_some (str : List Nat) (f : Int) (tab : List (Nat × List Nat)) :
    parseLoop str (some f) tab =
      .ok ((tab.find? fun p => decide (str = p.2 ∨ f = (p.1 : Int))).map (·.1)) := by
  induction tab with
  | nil => rfl
  | cons p rest ih =>
    obtain ⟨t, name⟩ := p
    unfold parseLoop
    by_cases h1 : str = name
    · simp [h1]
    · rw [if_neg h1]
      by_cases h2 : f = (t : Int)
      · simp [h2]
      · simp only [h2, if_false, ih]
        simp [h1, h2]

theorem find_table {p : Nat × List Nat → Bool} {t : Nat} (hu : ∀ a ∈ quantTypes, p a = true → a.1 = t)
    (he : ∃ a ∈ quantTypes, p a = true) : (quantTypes.find? p).map (·.1) = some t := by
  cases h : quantTypes.find? p with
  | none =>
    obtain ⟨a, ha, hp⟩ := he
    exact absurd hp (by simpa using List.find?_eq_none.1 h a ha)
  | some a =>
    have := hu a (List.mem_of_find?_eq_some h) (List.find?_some h)
    simp [this]

/-- The complete behaviour of `parse_ftype` after conversion to upper case. -/
theorem parse_upper (str : List Nat) :
    parseLoop str (if (fromChars str).1 ≠ [] then some (-1) else (fromChars str).2) quantTypes =
      (if (fromChars str).1 = [] ∧ (fromChars str).2 = none ∧ str ≠ ascii "F32" then .ub
       else .ok ((quantTypes.find? fun p => decide (str = p.2 ∨
          ((fromChars str).1 = [] ∧ (fromChars str).2 = some (p.1 : Int)))).map (·.1))) := by
  by_cases h1 : (fromChars str).1 = []
  · rw [if_neg (by simp [h1])]
    cases h2 : (fromChars str).2 with
    | none =>
      by_cases h3 : str = ascii "F32"
      · subst h3; revert h2; decide
      · rw [if_pos ⟨h1, rfl, h3⟩]
        unfold quantTypes parseLoop
        rw [if_neg h3]
    | some v =>
      rw [if_neg (by simp), parseLoop_some]
      simp [h1]
  · rw [if_pos h1, if_neg (by simp [h1]), parseLoop_some]
    have : ∀ n : Nat, ¬ (-1 : Int) = n := by omega
    simp [h1, this]

end Berts.Examples
