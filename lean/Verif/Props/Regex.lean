import Verif.Spec.Regex
import Verif.Props.Unicode

/-! # Regular expressions: C90 -/

namespace Berts.Props

open Berts.Unicode Berts.Spec

/-- Without a failure `splitRun` is the splitting of C08. -/
theorem splitRun_regexSplit (text : List Nat) (ms : List (Nat × Nat)) (out : List (List Nat)) :
    splitRun true text ⟨ms, false⟩ out = regexSplit text ms out := by
  unfold splitRun regexSplit
  simp only [Bool.not_true, Bool.false_eq_true, if_false]
  split
  · rfl
  · suffices H : ∀ cur added out, splitRunLoop text false cur added out ms = splitLoop text cur added out ms from H 0 0 out
    induction ms with
    | nil => intro cur added out; simp [splitRunLoop, splitLoop]
    | cons m ms ih =>
      intro cur added out
      obtain ⟨s, e⟩ := m
      unfold splitRunLoop splitLoop
      simp only [ih]

/-- C90, `test`, if the text is not empty and the engine does not give up: it tells whether the expression
matches somewhere.  (Missing: the empty text, see the counterexample; a failure counts as "no match".) -/
theorem C90_test_partial (R : List Nat → Nat → Nat → Prop) (text : List Nat) (r : Run) (h : EngineOk R text r)
    (ht : text ≠ []) (hf : r.failed = false) :
    regexTest true text r = true ↔ ∃ s e, s ≤ e ∧ e ≤ text.length ∧ R text s e := by
  have h0 : text.length ≠ 0 := by simpa using ht
  unfold regexTest
  simp only [Bool.not_true, Bool.false_eq_true, if_false, h0]
  cases hr : r.found with
  | nil =>
    simp only [Bool.false_eq_true, false_iff]
    rintro ⟨s, e, h1, h2, h3⟩
    exact h.complete hr hf s e h1 h2 h3
  | cons m ms =>
    simp only [true_iff]
    have ho := h.ordered
    rw [hr] at ho
    have hle : ∀ (l : List (Nat × Nat)) c, Matches text.length c l → c ≤ text.length := by
      intro l
      induction l with
      | nil => intro c h; simpa [Matches] using h
      | cons a l ih =>
        intro c h
        obtain ⟨s, e⟩ := a
        unfold Matches at h
        have := ih e h.2.2
        omega
    obtain ⟨s, e⟩ := m
    unfold Matches at ho
    exact ⟨s, e, ho.2.1, hle _ _ ho.2.2, h.sound (s, e) (by simp [hr])⟩

example : EngineOk (fun text s e => (text.drop s).take (e - s) = [97]) [98, 97] ⟨[(1, 2)], false⟩ where
  ordered := by decide
  sound := by intro m hm; simp at hm; subst hm; decide
  complete := by intro h; simp at h

/-- C90 refuted for the empty text: no expression is found in it, not even one that matches it. -/
theorem C90_test_counterexample :
    (∀ r, regexTest true [] r = false) ∧
    ∃ (R : List Nat → Nat → Nat → Prop) (r : Run), EngineOk R [] r ∧ r.failed = false ∧ R [] 0 0 ∧
      regexTest true [] r = false := by
  refine ⟨fun _ => rfl, fun _ s e => s = e, ⟨[(0, 0)], false⟩, ⟨by decide, ?_, ?_⟩, rfl, rfl, rfl⟩
  · intro m hm; simp at hm; subst hm; rfl
  · intro h; simp at h

/-- C90, `split`, if the engine does not give up: the number returned is the number of pieces appended, which
join up to the text; it is 0 exactly for the empty text. -/
theorem C90_split_partial (text : List Nat) (r : Run) (out : List (List Nat)) (h : Matches text.length 0 r.found)
    (hf : r.failed = false) :
    ∃ pieces, splitRun true text r out = (out ++ pieces, pieces.length) ∧ pieces.flatten = text ∧
      (pieces = [] ↔ text = []) := by
  obtain ⟨ms, f⟩ := r
  simp only at hf h
  subst hf
  rw [splitRun_regexSplit]
  obtain ⟨pieces, h1, h2, h3⟩ := C08_split_partition text ms out h
  refine ⟨pieces, Prod.ext h1 h3, h2, ?_⟩
  constructor
  · rintro rfl; simpa using h2.symm
  · rintro rfl
    have : (regexSplit [] ms out).1 = out := rfl
    rw [this] at h1
    simpa using h1.symm

example : Matches [10, 11, 12].length 0 (Run.found ⟨[(1, 2)], false⟩) := by decide

/-- C90 refuted: if the engine gives up, 0 is returned as for an empty text, but the pieces up to the end of
the last match have been appended; the rest of the text is lost (roberta.cpp:329 does not look at the
number). -/
theorem C90_split_counterexample (text : List Nat) (r : Run) (out : List (List Nat))
    (h : Matches text.length 0 r.found) (hf : r.failed = true) (ht : text ≠ []) :
    ∃ pieces, splitRun true text r out = (out ++ pieces, 0) ∧
      pieces.flatten = text.take (lastEnd r.found 0) := by
  have h0 : text.length ≠ 0 := by simpa using ht
  obtain ⟨ms, f⟩ := r
  simp only at hf h
  subst hf
  unfold splitRun
  simp only [Bool.not_true, Bool.false_eq_true, if_false, h0]
  suffices H : ∀ cur added out, Matches text.length cur ms → ∃ pieces,
      splitRunLoop text true cur added out ms = (out ++ pieces, 0) ∧
      text.take cur ++ pieces.flatten = text.take (lastEnd ms cur) by
    obtain ⟨p, h1, h2⟩ := H 0 0 out h
    exact ⟨p, h1, by simpa using h2⟩
  clear h
  induction ms with
  | nil => intro cur added out _; exact ⟨[], by simp [splitRunLoop], by simp [lastEnd]⟩
  | cons m ms ih =>
    intro cur added out hm
    obtain ⟨s, e⟩ := m
    unfold Matches at hm
    obtain ⟨h1, h2, h3⟩ := hm
    unfold splitRunLoop
    have cut : ∀ a b, a ≤ b → text.take a ++ (text.drop a).take (b - a) = text.take b := by
      intro a b hab
      have := List.take_add (l := text) (i := a) (j := b - a)
      rw [show a + (b - a) = b by omega] at this
      exact this.symm
    by_cases hc : cur < s
    · simp only [hc, if_true]
      obtain ⟨p, e1, e2⟩ := ih e (added + 1 + 1) (out ++ [(text.drop cur).take (s - cur)] ++ [(text.drop s).take (e - s)]) h3
      refine ⟨[(text.drop cur).take (s - cur), (text.drop s).take (e - s)] ++ p, ?_, ?_⟩
      · rw [e1]; simp
      · simp only [lastEnd, ← e2, List.flatten_append, List.flatten_cons, List.flatten_nil, List.append_nil]
        rw [← cut s e h2, ← cut cur s h1]
        simp only [List.append_assoc]
    · simp only [hc, if_false]
      have hs : s = cur := by omega
      subst hs
      obtain ⟨p, e1, e2⟩ := ih e (added + 1) (out ++ [(text.drop s).take (e - s)]) h3
      refine ⟨[(text.drop s).take (e - s)] ++ p, ?_, ?_⟩
      · rw [e1]; simp
      · simp only [lastEnd, ← e2, List.flatten_append, List.flatten_cons, List.flatten_nil, List.append_nil]
        rw [← cut s e h2]
        simp only [List.append_assoc]

example : splitRun true [10, 11, 12, 13] ⟨[(1, 2)], true⟩ [] = ([[10], [11]], 0) := by decide

/-- C90: an expression that could not be compiled finds nothing and appends nothing. -/
theorem C90_not_open (text : List Nat) (r : Run) (out : List (List Nat)) :
    regexTest false text r = false ∧ splitRun false text r out = (out, 0) := ⟨rfl, rfl⟩

end Berts.Props
