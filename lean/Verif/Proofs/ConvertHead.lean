import Verif.Proofs.ConvertFile

/-! # Helper lemmas: the language-model head of a converted model -/

namespace Berts.Convert

open Berts.Vocab (ascii decimal)
open Berts.Graph (T LmWeights IsW IsVec LmOK)
open Berts.Load (LmNamed)

variable {α : Type}

theorem head_name_inj : ∀ cls ∈ [Cls.bert, .roberta, .other], ∀ k ∈ headNames cls, ∀ k' ∈ headNames cls,
    ascii ("berts.bert.predictions." ++ k.2) = ascii ("berts.bert.predictions." ++ k'.2) → k = k' := by
  decide +kernel

theorem head_name_place : ∀ cls ∈ [Cls.bert, .roberta, .other], ∀ k ∈ headNames cls,
    ascii ("berts.bert.predictions." ++ k.2) = ascii "berts.bert." ++ (ascii "pre" ++ ascii ("dictions." ++ k.2)) := by
  decide +kernel

theorem cls_mem (cls : Cls) : cls ∈ [Cls.bert, .roberta, .other] := by cases cls <;> decide

/-- Which parameter of the head is found by the name of a tensor. -/
theorem head_found {s : Source α} (hst : StateOk s.config s.state) (hlm : HeadOk s.cls s.lm)
    {k : String × String} (hk : k ∈ headNames s.cls) {shape : List Nat} (hp : HasParam s.lm (ascii k.1) shape) :
    ∃ p, p.shape = shape ∧
      ((s.state.find? fun p => ascii "berts.bert." ++ p.key == ascii ("berts.bert.predictions." ++ k.2)).or
        (s.lm.find? fun p => (headNames s.cls).any fun x =>
          p.key == ascii x.1 && ascii ("berts.bert.predictions." ++ k.2) == ascii ("berts.bert.predictions." ++ x.2))) =
        some p := by
  obtain ⟨p, p1, p2, p3⟩ := hp
  have h1 : (s.state.find? fun p => ascii "berts.bert." ++ p.key == ascii ("berts.bert.predictions." ++ k.2)) = none := by
    rw [List.find?_eq_none]
    intro q hq
    rw [head_name_place _ (cls_mem _) k hk]
    intro h
    have h := List.append_cancel_left (eq_of_beq h)
    obtain ⟨r, r1, t, r2⟩ := hst.place q hq
    rw [← r2] at h
    have h := congrArg (List.take 3) h
    simp only [List.mem_cons, List.not_mem_nil, or_false] at r1
    rcases r1 with rfl | rfl | rfl
    all_goals
      rw [List.take_append_of_le_length (by decide), List.take_append_of_le_length (by decide)] at h
      exact absurd h (by decide)
  have h2 : ∃ q, (s.lm.find? fun p => (headNames s.cls).any fun x =>
      p.key == ascii x.1 && ascii ("berts.bert.predictions." ++ k.2) == ascii ("berts.bert.predictions." ++ x.2)) = some q ∧
      q.key = ascii k.1 ∧ q ∈ s.lm := by
    cases hf : s.lm.find? fun p => (headNames s.cls).any fun x =>
      p.key == ascii x.1 && ascii ("berts.bert.predictions." ++ k.2) == ascii ("berts.bert.predictions." ++ x.2) with
    | none =>
      rw [List.find?_eq_none] at hf
      refine absurd ?_ (hf p p1)
      rw [List.any_eq_true]
      exact ⟨k, hk, by simp [p2]⟩
    | some q =>
      refine ⟨q, rfl, ?_, List.mem_of_find?_eq_some hf⟩
      have := List.find?_some hf
      rw [List.any_eq_true] at this
      obtain ⟨x, x1, x2⟩ := this
      rw [Bool.and_eq_true, beq_iff_eq, beq_iff_eq] at x2
      rw [head_name_inj _ (cls_mem _) k hk x x1 x2.2]
      exact x2.1
  obtain ⟨q, q1, q2, q3⟩ := h2
  have : q = p := map_nodup_inj hlm.distinct q3 p1 (q2.trans p2.symm)
  subst this
  exact ⟨q, p3, by rw [h1, q1]; rfl⟩

/-- Which tensor a parameter of the head becomes. -/
theorem head_at {s : Source α} (hst : StateOk s.config s.state) (hlm : HeadOk s.cls s.lm) (rnd : Bool → α → α) (dflt : α)
    (f16 : Bool) {k : String × String} (hk : k ∈ headNames s.cls) {shape : List Nat}
    (hp : HasParam s.lm (ascii k.1) shape) :
    ∃ p, p.shape = shape ∧ sourceAt rnd dflt f16 s (ascii ("berts.bert.predictions." ++ k.2)) =
      some (tensorFor rnd dflt f16 p) := by
  obtain ⟨p, h1, h2⟩ := head_found hst hlm hk hp
  exact ⟨p, h1, by unfold sourceAt; rw [h2]; rfl⟩

theorem tensorFor_isW (rnd : Bool → α → α) (dflt : α) (f16 : Bool) {p : Param α} {a b : Nat} (h : p.shape = [a, b]) :
    IsW (tensorFor rnd dflt f16 p) b a := by
  unfold tensorFor
  rw [h]
  exact ⟨rfl, rfl, rfl, rfl, rfl⟩

theorem tensorFor_isVec (rnd : Bool → α → α) (dflt : α) (f16 : Bool) {p : Param α} {a : Nat} (h : p.shape = [a]) :
    IsVec (tensorFor rnd dflt f16 p) a := by
  have : Half f16 p = false := by simp [Half, h, wide]
  unfold tensorFor
  rw [this, h]
  exact ⟨rfl, rfl, rfl, rfl, rfl⟩

/-- A complete head gives weights of the right shapes. -/
theorem head_ok {s : Source α} (hcls : s.cls ≠ .other) (hst : StateOk s.config s.state) (hlm : HeadOk s.cls s.lm)
    (hh : HasHead s.cls s.config s.lm) (rnd : Bool → α → α) (dflt : α) (f16 : Bool) :
    ∃ lm, LmNamed (sourceAt rnd dflt f16 s) lm ∧ LmOK lm s.config.hidden s.config.vocabSize := by
  have key : ∀ x ∈ headShapes s.config, ∃ p, p.shape = x.2 ∧
      sourceAt rnd dflt f16 s (ascii ("berts.bert.predictions." ++ x.1)) = some (tensorFor rnd dflt f16 p) := by
    intro x hx
    have : ∃ k ∈ headNames s.cls, k.2 = x.1 := by
      simp only [headShapes, List.mem_cons, List.not_mem_nil, or_false] at hx
      cases hc : s.cls with
      | other => exact absurd hc hcls
      | bert => rcases hx with rfl | rfl | rfl | rfl | rfl | rfl <;> simp [headNames]
      | roberta => rcases hx with rfl | rfl | rfl | rfl | rfl | rfl <;> simp [headNames]
    obtain ⟨k, k1, k2⟩ := this
    rw [← k2]
    exact head_at hst hlm rnd dflt f16 k1 (hh k k1 x.2 (by rw [k2]; exact hx))
  obtain ⟨p1, a1, b1⟩ := key ("transform.dense.weight", [s.config.hidden, s.config.hidden]) (by simp [headShapes])
  obtain ⟨p2, a2, b2⟩ := key ("transform.dense.bias", [s.config.hidden]) (by simp [headShapes])
  obtain ⟨p3, a3, b3⟩ := key ("transform.LayerNorm.weight", [s.config.hidden]) (by simp [headShapes])
  obtain ⟨p4, a4, b4⟩ := key ("transform.LayerNorm.bias", [s.config.hidden]) (by simp [headShapes])
  obtain ⟨p5, a5, b5⟩ := key ("decoder.weight", [s.config.vocabSize, s.config.hidden]) (by simp [headShapes])
  obtain ⟨p6, a6, b6⟩ := key ("decoder.bias", [s.config.vocabSize]) (by simp [headShapes])
  exact ⟨⟨_, _, _, _, _, _⟩, ⟨b1, b2, b3, b4, b5, b6⟩, tensorFor_isW _ _ _ a1, tensorFor_isVec _ _ _ a2,
    tensorFor_isVec _ _ _ a3, tensorFor_isVec _ _ _ a4, tensorFor_isW _ _ _ a5, tensorFor_isVec _ _ _ a6⟩

end Berts.Convert
