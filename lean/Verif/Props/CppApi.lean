import Verif.Model.CppApi
import Verif.Props.Eval

/-!
# C85: default settings and the C++ interface
-/

namespace Berts.Props

open Berts.Spec (Arith Mat col)
open Berts.Graph
open Berts.Eval

variable {α : Type}

/-- C85: the C++ calls do what the C call does with the same arguments (a C caller has to give as many segments as
tokens). -/
theorem C85_same (A : Arith α) (g : Gg) (ctx : Option (ECtx α)) (tokens : List Nat) (cond : Int × Nat)
    (out : Option (List α)) (c : Nat) :
    bertsEval A g ctx tokens none (some cond) out (some c) =
      (cppEval A g ctx tokens cond out c).bind (fun o => .ok (o.ret, o.buf, some o.count)) ∧
    ∀ segs : List Nat, segs.length = tokens.length →
      bertsEval A g ctx tokens (some segs) (some cond) out (some c) =
        (cppEvalSegs A g ctx tokens segs cond out c).bind fun o => .ok (o.ret, o.buf, some o.count) := by
  obtain ⟨L, p⟩ := cond
  unfold bertsEval cppEval cppEvalSegs
  cases ctx.bind (·.model) with
  | none => exact ⟨rfl, fun _ _ => rfl⟩
  | some m => exact ⟨rfl, fun _ _ => rfl⟩

/-- C85: without segments all tokens are in segment 0. -/
theorem C85_no_segments (A : Arith α) (g : Gg) (ctx : Option (ECtx α)) (tokens segs : List Nat) (cond : Int × Nat)
    (out : Option (List α)) (c : Nat) (hl : segs.length = tokens.length) (h0 : ∀ s ∈ segs, s = 0) :
    cppEval A g ctx tokens cond out c = cppEvalSegs A g ctx tokens segs cond out c := by
  have : segs = List.replicate tokens.length 0 := by
    rw [List.eq_replicate_iff]
    exact ⟨hl, h0⟩
  subst this
  rfl

/-- C85: with a different number of segments than tokens, or without model, the call fails and nothing is written. -/
theorem C85_reject (A : Arith α) (g : Gg) (ctx : Option (ECtx α)) (tokens segs : List Nat) (cond : Int × Nat)
    (out : Option (List α)) (c : Nat) (h : segs.length ≠ tokens.length ∨ ctx.bind (·.model) = none) :
    cppEvalSegs A g ctx tokens segs cond out c = .ok ⟨false, out, c⟩ := by
  unfold cppEvalSegs
  rcases h with h | h
  · cases ctx.bind (·.model) with
    | none => rfl
    | some m =>
      simp only
      unfold eval
      split
      · rfl
      · rw [if_pos (by omega)]
  · rw [h]

/-- C85: with the default settings an evaluation gives the pooled vector of the first token after the last layer, one
number per hidden dimension. -/
theorem C85_default (A : Arith α) (g : Gg) (m : EModel α) (V P S : Nat) (tokens segs : List Nat)
    (hf : Fits m V P S tokens) (ha : Accepted m tokens segs 1) (hn : 0 < tokens.length) (hr : RowsExist m V P tokens)
    (hl : 1 ≤ m.hp.nLayers) (cond : Int × Nat) (buf : List α) (hbuf : buf.length = m.hp.hidden) :
    bertsEval A g (some ⟨some m⟩) tokens (some segs) (initEvalInfo (some cond)) none (some 0) =
      .ok (true, none, some m.hp.hidden) ∧
    bertsEval A g (some ⟨some m⟩) tokens (some segs) (initEvalInfo (some cond)) (some buf) (some buf.length) =
      .ok (true, some (expected A m m.hp.nLayers 1 tokens segs), some m.hp.hidden) := by
  have h1 := C40_dry A g m tokens segs (-1) 1 0 ha
  have h2 := C41_from_back A g m V P S tokens segs 1 hf.toShaped ha hn hr 1 (by omega) hl (by have := hf.depth; omega) buf (by simp [outRows, hbuf])
  have h3 := (C40_api A g m tokens (some segs) none).1 (-1) 1 0 _ h1
  have h4 := (C40_api A g m tokens (some segs) (some buf)).1 (-1) 1 buf.length _ h2
  refine ⟨?_, ?_⟩
  · simpa [initEvalInfo, outRows] using h3
  · rw [hbuf] at h4
    simpa [initEvalInfo, outRows, hbuf] using h4

/-- C85: the default settings of the head ask for the whole vocabulary. -/
theorem C85_default_lm (A : Arith α) (g : Gg) (m : EModel α) (hh : 0 < m.hp.hidden) (hidden : List α) (dflt : α) (n : Nat)
    (hlen : hidden.length = m.hp.hidden * n) (cond : Int) :
    bertsEvalLm A g (some ⟨some m⟩) hidden dflt (initEvalLmInfo (some cond)) none none (some 0) =
      .ok (true, none, none, some (m.vocabCount * n)) := by
  have h := C43_dry A g m hh hidden dflt n hlen 0 0
  rw [if_pos (by omega)] at h
  exact (C43_api A g m hidden dflt none none).1 0 0 _ h

/-- C85: null pointers are left alone. -/
theorem C85_null : initEvalInfo none = none ∧ initEvalLmInfo none = none := ⟨rfl, rfl⟩

/-- The hypotheses of `C85_default` can be met. -/
example : bertsEval tinyA tinyG (some ⟨some (tiny true 4)⟩) [1, 2] (some [0, 1]) (initEvalInfo (some (5, 9)))
    (some [0, 0]) (some 2) = .ok (true, some (expected tinyA (tiny true 4) 1 1 [1, 2] [0, 1]), some 2) :=
  (C85_default tinyA tinyG (tiny true 4) 3 4 2 [1, 2] [0, 1] (tiny_fits _ _ _ (by decide) (by decide))
    ⟨by decide, rfl, by decide, by decide⟩ (by decide) (by
      refine ⟨by decide, ?_⟩
      intro t ht
      match t, ht with
      | 0, _ => decide
      | 1, _ => decide) (by decide) (5, 9) [0, 0] rfl).2

example : cppEvalSegs tinyA tinyG (some ⟨some (tiny true 4)⟩) [1, 2] [0] (-1, 1) none 7 = .ok ⟨false, none, 7⟩ :=
  C85_reject tinyA tinyG _ _ _ _ _ _ (.inl (by decide))

example : cppEval tinyA tinyG (some ⟨some (tiny true 4)⟩) [1, 2] (-1, 1) none 7 =
    cppEvalSegs tinyA tinyG (some ⟨some (tiny true 4)⟩) [1, 2] [0, 0] (-1, 1) none 7 :=
  C85_no_segments tinyA tinyG _ _ _ _ _ _ rfl (by decide)

end Berts.Props
