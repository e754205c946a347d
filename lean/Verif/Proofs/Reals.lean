import Mathlib.Algebra.BigOperators.Field
import Verif.Spec.Reals

/-! # Softmax and normalisation over the real numbers -/

namespace Berts.Spec

open Finset

theorem map_range_sum (f : Nat → ℝ) (n : Nat) : ((List.range n).map f).sum = ∑ i ∈ range n, f i := by
  induction n with
  | zero => simp
  | succ n ih => rw [List.range_succ, List.map_append, List.sum_append, ih, Finset.sum_range_succ]; simp

/-- A row as a function. -/
theorem map_getD (l : List ℝ) : l = (List.range l.length).map (l.getD · 0) := by
  apply List.ext_getElem?
  intro i
  rw [List.getElem?_map]
  by_cases h : i < l.length
  · rw [List.getElem?_range h, Option.map_some, List.getD_eq_getElem?_getD, List.getElem?_eq_getElem h, Option.getD_some]
  · rw [List.getElem?_eq_none (by omega), List.getElem?_eq_none (by simpa using h)]
    rfl

theorem sum_eq (l : List ℝ) (f : ℝ → ℝ) : (l.map f).sum = ∑ i ∈ range l.length, f (l.getD i 0) := by
  conv => lhs; rw [map_getD l]
  rw [List.map_map, map_range_sum]
  rfl

theorem getD_some {l : List ℝ} {i : Nat} (h : i < l.length) : l[i]? = some (l.getD i 0) := by
  rw [List.getD_eq_getElem?_getD, List.getElem?_eq_getElem h, Option.getD_some]

variable {A : Arith ℝ} {eps : Nat → ℝ}

theorem softmax_pos (h : Exact A eps) (s : ℝ) (l : List ℝ) (i : Nat) (hi : i < l.length) : 0 < A.softmax s l i := by
  obtain ⟨c, hc⟩ := h.softmax s l
  rw [hc i _ (getD_some hi), sum_eq]
  exact div_pos (Real.exp_pos _) (sum_pos (fun _ _ => Real.exp_pos _) ⟨i, by simpa using hi⟩)

theorem softmax_sum (h : Exact A eps) (s : ℝ) (l : List ℝ) (hl : 0 < l.length) :
    ∑ i ∈ range l.length, A.softmax s l i = 1 := by
  obtain ⟨c, hc⟩ := h.softmax s l
  rw [sum_congr rfl fun i hi => hc i _ (getD_some (by simpa using hi)), ← sum_div, sum_eq]
  exact div_self (ne_of_gt (sum_pos (fun _ _ => Real.exp_pos _) ⟨0, by simpa using hl⟩))

/-- The textbook formula. -/
theorem softmax_eq (h : Exact A eps) (s : ℝ) (l : List ℝ) (i : Nat) (hi : i < l.length) :
    A.softmax s l i = Real.exp (s * l.getD i 0) / ∑ j ∈ range l.length, Real.exp (s * l.getD j 0) := by
  obtain ⟨c, hc⟩ := h.softmax s l
  rw [hc i _ (getD_some hi), sum_eq]
  simp only [Real.exp_sub]
  rw [← sum_div]
  have : Real.exp c ≠ 0 := (Real.exp_pos c).ne'
  field_simp

theorem mean_eq (l : List ℝ) : mean l = (∑ i ∈ range l.length, l.getD i 0) / l.length := by
  have := sum_eq l id
  rw [List.map_id] at this
  rw [mean, this]
  rfl

theorem dev_sum (l : List ℝ) : ∑ i ∈ range l.length, (l.getD i 0 - mean l) = 0 := by
  rw [sum_sub_distrib, mean_eq]
  rcases Nat.eq_zero_or_pos l.length with h | h
  · simp [h]
  · have : (l.length : ℝ) ≠ 0 := by positivity
    simp only [sum_const, card_range, nsmul_eq_mul]
    field_simp
    simp

theorem variance_eq (l : List ℝ) : variance l * l.length = ∑ i ∈ range l.length, (l.getD i 0 - mean l) ^ 2 := by
  unfold variance
  rw [mean, sum_eq, List.length_map]
  rcases Nat.eq_zero_or_pos l.length with h | h
  · simp [h]
  · have : (l.length : ℝ) ≠ 0 := by positivity
    field_simp

theorem variance_nonneg (l : List ℝ) : 0 ≤ variance l := by
  unfold variance mean
  rw [sum_eq]
  exact div_nonneg (sum_nonneg fun _ _ => sq_nonneg _) (Nat.cast_nonneg _)

theorem norm_sum (h : Exact A eps) (e : Nat) (l : List ℝ) : ∑ i ∈ range l.length, A.norm e l i = 0 := by
  rw [sum_congr rfl fun i hi => h.norm e l i _ (getD_some (by simpa using hi)), ← sum_div, dev_sum, zero_div]

theorem norm_sq_sum (h : Exact A eps) (e : Nat) (he : 0 < eps e) (l : List ℝ) :
    ∑ i ∈ range l.length, A.norm e l i ^ 2 = l.length * (variance l / (variance l + eps e)) := by
  rw [sum_congr rfl fun i hi => by rw [h.norm e l i _ (getD_some (by simpa using hi)), div_pow,
    Real.sq_sqrt (by have := variance_nonneg l; linarith)], ← sum_div, ← variance_eq]
  ring

theorem norm_sq_lt (h : Exact A eps) (e : Nat) (he : 0 < eps e) (l : List ℝ) (i : Nat) (hi : i < l.length) :
    A.norm e l i ^ 2 < l.length := by
  have h1 : A.norm e l i ^ 2 ≤ ∑ i ∈ range l.length, A.norm e l i ^ 2 :=
    single_le_sum (f := fun i => A.norm e l i ^ 2) (fun _ _ => sq_nonneg _) (by simpa using hi)
  rw [norm_sq_sum h e he] at h1
  have h2 := variance_nonneg l
  have h3 : variance l / (variance l + eps e) < 1 := by rw [div_lt_one (by linarith)]; linarith
  have h4 : (0 : ℝ) < l.length := by have : 0 < l.length := by omega
                                     exact_mod_cast this
  nlinarith

theorem norm_abs_lt (h : Exact A eps) (e : Nat) (he : 0 < eps e) (l : List ℝ) (i : Nat) (hi : i < l.length) :
    |A.norm e l i| < √l.length := by
  rw [← Real.sqrt_sq_eq_abs]
  exact Real.sqrt_lt_sqrt (sq_nonneg _) (norm_sq_lt h e he l i hi)

end Berts.Spec
