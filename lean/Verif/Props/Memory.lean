import Verif.Proofs.Memory

/-!
# Properties of the memory of strings
-/

namespace Berts.Props

open Berts.Memory

/-- No strings. -/
abbrev noStrings : Strings := fun _ => none

/-- C87: in every history that runs, the memory of each variable holds exactly the units that its value has;
in particular a string does not change when another one is assigned, moved, extended or destroyed. -/
theorem C87_values (ops : List Op) (s : St) (h : run St.init ops = .ok s) (o : Nat) :
    (∀ l, noStrings.after ops o = some l → s.units o = .ok l) ∧
    (noStrings.after ops o = none → s.obj o = none) := by
  by_cases hl : noStrings.Legal ops
  · rcases run_rel ops (s := St.init) Rel.empty Vars.init hl with ⟨e, _⟩ | ⟨s', v', e1, e2, e3, _⟩
    · rw [h] at e; cases e
    · rw [h] at e1
      cases e1
      exact ⟨fun l hl => units_rel e2 e3 hl, fun hn => e3.free hn⟩
  · rw [run_bad ops (s := St.init) Rel.empty Vars.init hl] at h
    cases h

/-- C87: a program that uses only strings that are alive, and none that was made without a size, has no
undefined behaviour: nothing is released twice, nothing is read that was released or not stored. -/
theorem C87_defined (ops : List Op) (hl : noStrings.Legal ops) (hs : ∀ op ∈ ops, Sized op) :
    ∃ s, run St.init ops = .ok s := by
  rcases run_rel ops (s := St.init) Rel.empty Vars.init hl with ⟨_, e⟩ | ⟨s, _, e, _⟩
  · exact absurd ⟨(fun _ _ _ h => nomatch h), hs⟩ e
  · exact ⟨s, e⟩

/-- C87: using a string that is not alive, or creating one in the place of another, is undefined behaviour
(the model notices it). -/
theorem C87_illegal (ops : List Op) (hl : ¬ noStrings.Legal ops) : run St.init ops = .ub :=
  run_bad ops (s := St.init) Rel.empty Vars.init hl

/-- C87: at any time every buffer belongs to exactly one variable that is alive. -/
theorem C87_buffers (ops : List Op) (s : St) (h : run St.init ops = .ok s) (b : Nat) (l : List (Option Nat))
    (hb : s.heap.bufs b = some l) :
    ∃ o, (∃ p i, s.obj o = some p ∧ s.heap.impls p = some i ∧ i.str = some b) ∧
      ∀ o' p' i', s.obj o' = some p' → s.heap.impls p' = some i' → i'.str = some b → o' = o := by
  by_cases hl : noStrings.Legal ops
  · rcases run_rel ops (s := St.init) Rel.empty Vars.init hl with ⟨e, _⟩ | ⟨s', v', e1, e2, e3, _⟩
    · rw [h] at e; cases e
    · rw [h] at e1
      cases e1
      obtain ⟨p, i, h1, h2⟩ := e2.owned b l hb
      obtain ⟨u, h3, h4⟩ := e2.live p i h1
      have : ∃ o, s.obj o = some p := by
        refine Classical.byContradiction fun hn => ?_
        have hu := e3.left p u h3 fun o ho => hn ⟨o, ho⟩
        rcases h4.str with ⟨h5, _⟩ | ⟨b', l', _, h5, _⟩
        · rw [h2] at h5; cases h5
        · rw [hu] at h5; cases h5
      obtain ⟨o, ho⟩ := this
      refine ⟨o, ⟨p, i, ho, h1, h2⟩, fun o' p' i' a1 a2 a3 => ?_⟩
      have := e2.uniq p' p i' i b a2 h1 a3 h2
      subst this
      exact e3.inj o' o p' a1 ho
  · rw [C87_illegal ops hl] at h; cases h

/-- C87, the part that holds: once every string has been destroyed, no buffer is left.  (Missing: the
`ustr_impl` objects, see `C87_leak`.) -/
theorem C87_partial (ops : List Op) (s : St) (h : run St.init ops = .ok s)
    (hend : ∀ o, noStrings.after ops o = none) (b : Nat) : s.heap.bufs b = none := by
  cases hb : s.heap.bufs b with
  | none => rfl
  | some l =>
    obtain ⟨o, ⟨p, i, ho, _⟩, _⟩ := C87_buffers ops s h b l hb
    rw [(C87_values ops s h o).2 (hend o)] at ho
    cases ho

/-- C87: of the `ustr_impl` objects, none is ever released: after any history there are as many as strings
were constructed, whatever was destroyed. -/
theorem C87_leak (ops : List Op) (s : St) (h : run St.init ops = .ok s) (p : Nat) :
    s.heap.impls p ≠ none ↔ p < noStrings.madeBy ops := by
  by_cases hl : noStrings.Legal ops
  · rcases run_rel ops (s := St.init) Rel.empty Vars.init hl with ⟨e, _⟩ | ⟨s', v', e1, e2, e3, e4⟩
    · rw [h] at e; cases e
    · rw [h] at e1
      cases e1
      rw [e2.freshImpl p, e4]
      show p < 0 + _ ↔ _
      rw [Nat.zero_add]
  · rw [C87_illegal ops hl] at h; cases h

/-- C87 fails: a string that is made and destroyed leaves memory behind; so the memory of a process grows with
every string. -/
theorem C87_counterexample :
    ¬ ∀ (ops : List Op) (s : St), noStrings.Legal ops → run St.init ops = .ok s →
      (∀ o, noStrings.after ops o = none) → s.heap.Clean := by
  intro hc
  have hl : noStrings.Legal [.units 0 [97], .destroy 0] := by
    refine ⟨rfl, ?_, trivial⟩
    simp [Strings.Allows, Strings.apply, upd]
  obtain ⟨s, hs⟩ := C87_defined _ hl (by simp [Sized])
  have h := hc _ s hl hs (by intro o; simp only [Strings.after, List.foldl, Strings.apply, upd]; split <;> rfl)
  have h1 := (C87_leak _ s hs 0).2 (by decide)
  exact h1 (h.1 0)

/-- C87 fails also for strings made without a size: moving a default-constructed string reads a number that
was never stored. -/
theorem C87_unsized_counterexample :
    noStrings.Legal [.default 0, .move 1 0] ∧ run St.init [.default 0, .move 1 0] = .ub := by
  refine ⟨⟨rfl, ⟨?_, ?_⟩, trivial⟩, ?_⟩
  · simp [Strings.apply, upd]
  · simp [Strings.apply, upd]
  · rfl

-- A history with every operation: it is legal, every string has a size, and all strings are destroyed.
def everyOp : List Op :=
  [.units 0 [97, 98], .utf8 1 [99], .utf32 2 [0x1f600], .copy 3 0, .add 3 1, .add 3 3, .sum 4 3 2, .assign 1 4,
    .moveAssign 0 4, .move 5 0, .dispose 3, .destroy 0, .destroy 1, .destroy 2, .destroy 3, .destroy 4, .destroy 5]

example : noStrings.Legal everyOp := by
  simp [everyOp, Strings.Legal, Strings.Allows, Strings.apply, upd]

example : ∀ op ∈ everyOp, Sized op := by
  have : Berts.Unicode.utf8Decode [99] = some [99] := by decide
  simp [everyOp, Sized, this]

example : noStrings.after (everyOp.take 10) 5 = some [97, 98, 99, 97, 98, 99, 0xd83d, 0xde00] := by
  decide

example : ∀ o, noStrings.after everyOp o = none := by
  intro o
  simp only [everyOp, Strings.after, List.foldl, Strings.apply, upd]
  grind

-- the strings constructed: six variables and two temporaries
example : noStrings.madeBy everyOp = 8 := by decide

end Berts.Props
