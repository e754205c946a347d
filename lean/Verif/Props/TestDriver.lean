import Verif.Spec.TestDriver

/-! # The driver of the test programs: C89 -/

namespace Berts.Props

open Berts.Vocab Berts.TestDriver Berts.Spec

/-! ## Registration -/

theorem firsts_append (l : List Nat) (t : Nat) :
    firsts (l ++ [t]) = if t ∈ l then firsts l else firsts l ++ [t] := by
  induction l with
  | nil => rfl
  | cons x l ih =>
    simp only [List.cons_append, firsts, ih, List.mem_cons]
    by_cases hx : t = x
    · subst hx
      simp only [true_or, if_true]
      split
      · rfl
      · simp
    · by_cases hl : t ∈ l <;> simp [hx, hl]

theorem register_spec (regs : List (Nat × Case)) :
    (register regs).names = firsts (regs.map (·.1)) ∧
    ∀ t, (register regs).cases t = if t ∈ regs.map (·.1) then some (casesOf regs t) else none := by
  unfold register
  suffices h : ∀ (rs done : List (Nat × Case)) (d : Driver), d.names = firsts (done.map (·.1)) →
      (∀ t, d.cases t = if t ∈ done.map (·.1) then some (casesOf done t) else none) →
      (rs.foldl (fun d r => d.add r.1 r.2) d).names = firsts ((done ++ rs).map (·.1)) ∧
      ∀ t, (rs.foldl (fun d r => d.add r.1 r.2) d).cases t =
        if t ∈ (done ++ rs).map (·.1) then some (casesOf (done ++ rs) t) else none by
    have := h regs [] Driver.init rfl (by intro t; simp [Driver.init])
    simpa using this
  intro rs
  induction rs with
  | nil => intro done d h1 h2; rw [List.append_nil]; exact ⟨h1, h2⟩
  | cons r rs ih =>
    intro done d h1 h2
    obtain ⟨t, c⟩ := r
    have := ih (done ++ [(t, c)]) (d.add t c) ?_ ?_
    · have e : done ++ [(t, c)] ++ rs = done ++ (t, c) :: rs := by simp
      rw [e] at this
      exact this
    · unfold Driver.add
      rw [h2 t]
      by_cases ht : t ∈ done.map (·.1)
      · rw [if_pos ht]
        simp only [List.map_append, List.map_cons, List.map_nil, firsts_append, if_pos ht, h1]
      · rw [if_neg ht]
        simp only [List.map_append, List.map_cons, List.map_nil, firsts_append, if_neg ht, h1]
    · intro x
      have hcs : casesOf (done ++ [(t, c)]) x = if x = t then casesOf done x ++ [c] else casesOf done x := by
        unfold casesOf
        by_cases hx : x = t
        · subst hx; simp
        · have : ¬ t = x := fun h => hx h.symm
          simp [hx, this]
      have hno : x ∉ done.map (·.1) → casesOf done x = [] := by
        intro h
        unfold casesOf
        simp only [List.map_eq_nil_iff, List.filter_eq_nil_iff]
        intro r hr hrx
        simp at hrx
        exact h (hrx ▸ List.mem_map_of_mem hr)
      unfold Driver.add
      rw [h2 t, hcs]
      by_cases ht : t ∈ done.map (·.1)
      · rw [if_pos ht]
        simp only [List.map_append, List.map_cons, List.map_nil, List.mem_append, List.mem_singleton]
        by_cases hx : x = t
        · subst hx; simp [ht]
        · simp only [hx, if_false, or_false]; exact h2 x
      · rw [if_neg ht]
        simp only [List.map_append, List.map_cons, List.map_nil, List.mem_append, List.mem_singleton]
        by_cases hx : x = t
        · subst hx; simp [hno ht]
        · simp only [hx, if_false, or_false]; exact h2 x

/-! ## Running -/

/-- What the cases add to the state. -/
theorem runCases_ok (cs : List Case) (s : St) (h : ∀ c ∈ cs, Finished c) :
    ∃ s', runCases s cs = .ok s' ∧ s'.ss = s.ss ++ cs.flatMap caseLine ∧
      s'.errors.flatMap (· ++ ascii "\n") = s.errors.flatMap (· ++ ascii "\n") ++ cs.flatMap complaint ∧
      s'.ok = s.ok + cs.countP (fun c => Passed c) ∧ s'.ng = s.ng + cs.countP (fun c => ¬ Passed c) := by
  induction cs generalizing s with
  | nil => exact ⟨s, rfl, by simp, by simp, by simp, by simp⟩
  | cons c cs ih =>
    have ih := fun s => ih s (fun x hx => h x (by simp [hx]))
    unfold runCases
    rcases h c (by simp) with hc | ⟨w, hc⟩
    · rw [hc]
      obtain ⟨s', e1, e2, e3, e4, e5⟩ := ih { s with
        ss := s.ss ++ ascii "\x1b[1m\x1b[32mOK\x1b[0m" ++ ascii " " ++ c.name ++ ascii "\n"
        ok := s.ok + 1 }
      refine ⟨s', e1, ?_, ?_, ?_, ?_⟩
      · rw [e2]
        have : ascii "\x1b[1m\x1b[32mOK\x1b[0m " = ascii "\x1b[1m\x1b[32mOK\x1b[0m" ++ ascii " " := by decide
        simp [caseLine, Passed, hc, this]
      · rw [e3]; simp [complaint, hc]
      · rw [e4]; simp [Passed, hc]; omega
      · rw [e5]; simp [Passed, hc]
    · rw [hc]
      obtain ⟨s', e1, e2, e3, e4, e5⟩ := ih { s with
        ss := s.ss ++ ascii "\x1b[1m\x1b[31mNG\x1b[0m" ++ ascii " " ++ c.name ++ ascii "\n"
        errors := s.errors ++ [w]
        ng := s.ng + 1 }
      refine ⟨s', e1, ?_, ?_, ?_, ?_⟩
      · rw [e2]
        have : ascii "\x1b[1m\x1b[31mNG\x1b[0m " = ascii "\x1b[1m\x1b[31mNG\x1b[0m" ++ ascii " " := by decide
        simp [caseLine, Passed, hc, this]
      · rw [e3]; simp [complaint, hc]
      · rw [e4]; simp [Passed, hc]
      · rw [e5]; simp [Passed, hc]; omega

theorem runCases_ub (cs : List Case) (s : St) (h : ∃ c ∈ cs, ¬ Finished c) : runCases s cs = .ub := by
  induction cs generalizing s with
  | nil => simp at h
  | cons c cs ih =>
    unfold runCases
    cases hc : c.run with
    | throws w => rfl
    | unknown => rfl
    | pass =>
      apply ih
      obtain ⟨x, hx, hn⟩ := h
      rcases List.mem_cons.mp hx with rfl | hx
      · exact absurd (Or.inl hc) hn
      · exact ⟨x, hx, hn⟩
    | fail w =>
      apply ih
      obtain ⟨x, hx, hn⟩ := h
      rcases List.mem_cons.mp hx with rfl | hx
      · exact absurd (Or.inr ⟨w, hc⟩) hn
      · exact ⟨x, hx, hn⟩

theorem runTests_ok (name : Nat → List Nat) (d : Driver) (regs : List (Nat × Case)) (ts : List Nat) (s : St)
    (hd : ∀ t ∈ ts, d.cases t = some (casesOf regs t)) (h : ∀ r ∈ regs, Finished r.2) :
    ∃ s', runTests name d s ts = .ok s' ∧ s'.ss = s.ss ++ ts.flatMap (paragraph name regs) ∧
      s'.ok = s.ok + (ts.map fun t => (casesOf regs t).countP (fun c => Passed c)).sum ∧
      s'.ng = s.ng + (ts.map fun t => (casesOf regs t).countP (fun c => ¬ Passed c)).sum := by
  induction ts generalizing s with
  | nil => exact ⟨s, rfl, by simp, by simp, by simp⟩
  | cons t ts ih =>
    unfold runTests
    rw [hd t (by simp)]
    obtain ⟨s1, e1, e2, e3, e4, e5⟩ := runCases_ok (casesOf regs t)
      { s with ss := s.ss ++ ascii "\x1b[33m[" ++ name t ++ ascii "]\x1b[0m\n", errors := [] } (by
        intro c hc
        unfold casesOf at hc
        obtain ⟨r, hr, rfl⟩ := List.mem_map.mp hc
        exact h r (List.mem_filter.mp hr).1)
    simp only [Option.getD_some]
    rw [e1]
    simp only [Res.bind]
    obtain ⟨s2, f1, f2, f3, f4⟩ := ih
      { s1 with ss := s1.ss ++ s1.errors.flatMap (· ++ ascii "\n") ++ ascii "\n" }
      (fun x hx => hd x (by simp [hx]))
    refine ⟨s2, f1, ?_, ?_, ?_⟩
    · rw [f2]
      simp only [e2, e3, List.flatMap_cons, paragraph, List.flatMap_nil, List.nil_append,
        List.append_assoc]
    · rw [f3]; simp only [e4, List.map_cons, List.sum_cons]; omega
    · rw [f4]; simp only [e5, List.map_cons, List.sum_cons]; omega

theorem runTests_ub (name : Nat → List Nat) (d : Driver) (ts : List Nat) (s : St)
    (h : ∃ t ∈ ts, ∃ c ∈ (d.cases t).getD [], ¬ Finished c) : runTests name d s ts = .ub := by
  induction ts generalizing s with
  | nil => simp at h
  | cons t ts ih =>
    unfold runTests
    by_cases hc : ∃ c ∈ (d.cases t).getD [], ¬ Finished c
    · rw [runCases_ub _ _ hc]; rfl
    · have hf : ∀ c ∈ (d.cases t).getD [], Finished c := fun c hx =>
        Classical.byContradiction fun hn => hc ⟨c, hx, hn⟩
      obtain ⟨s1, e1, -⟩ := runCases_ok _
        { s with ss := s.ss ++ ascii "\x1b[33m[" ++ name t ++ ascii "]\x1b[0m\n", errors := [] } hf
      rw [e1]
      simp only [Res.bind]
      apply ih
      obtain ⟨x, hx, hn⟩ := h
      rcases List.mem_cons.mp hx with rfl | hx
      · exact absurd hn hc
      · exact ⟨x, hx, hn⟩

/-! ## Counting by test -/

theorem firsts_mem (l : List Nat) (x : Nat) : x ∈ firsts l ↔ x ∈ l := by
  induction l with
  | nil => simp [firsts]
  | cons y l ih =>
    simp only [firsts, List.mem_cons, List.mem_filter, ih]
    by_cases h : x = y <;> simp [h]

theorem firsts_nodup (l : List Nat) : (firsts l).Nodup := by
  induction l with
  | nil => simp [firsts]
  | cons y l ih =>
    simp only [firsts, List.nodup_cons]
    exact ⟨by simp, ih.filter _⟩

theorem sum_single (ts : List Nat) (hn : ts.Nodup) (t k : Nat) (ht : t ∈ ts) :
    (ts.map fun x => if x = t then k else 0).sum = k := by
  induction ts with
  | nil => simp at ht
  | cons y ts ih =>
    rw [List.nodup_cons] at hn
    simp only [List.map_cons, List.sum_cons]
    by_cases hy : y = t
    · subst hy
      have : (ts.map fun x => if x = y then k else 0).sum = 0 := by
        have hz : ∀ us : List Nat, y ∉ us → (us.map fun x => if x = y then k else 0).sum = 0 := by
          intro us
          induction us with
          | nil => simp
          | cons z us ih =>
            intro h
            simp only [List.mem_cons, not_or] at h
            simp only [List.map_cons, List.sum_cons, ih h.2]
            simp [Ne.symm h.1]
        exact hz ts hn.1
      simp [this]
    · have ht' : t ∈ ts := by
        rcases List.mem_cons.mp ht with h | h
        · exact absurd h.symm hy
        · exact h
      simp [hy, ih hn.2 ht']

theorem sum_add (ts : List Nat) (f g : Nat → Nat) :
    (ts.map fun x => f x + g x).sum = (ts.map f).sum + (ts.map g).sum := by
  induction ts with
  | nil => rfl
  | cons y ts ih => simp only [List.map_cons, List.sum_cons, ih]; omega

theorem count_by_test (p : Case → Bool) (regs : List (Nat × Case)) (ts : List Nat) (hn : ts.Nodup)
    (ht : ∀ r ∈ regs, r.1 ∈ ts) :
    (ts.map fun t => (casesOf regs t).countP p).sum = regs.countP (fun r => p r.2) := by
  induction regs with
  | nil =>
    have : (ts.map fun _ => 0).sum = 0 := by
      clear hn ht
      induction ts with
      | nil => rfl
      | cons y ts ih => simpa using ih
    simpa [casesOf] using this
  | cons r regs ih =>
    have ih := ih (fun x hx => ht x (by simp [hx]))
    have e : ∀ t, (casesOf (r :: regs) t).countP p =
        (if t = r.1 then (if p r.2 then 1 else 0) else 0) + (casesOf regs t).countP p := by
      intro t
      unfold casesOf
      by_cases h : r.1 = t
      · subst h
        simp only [List.filter_cons, decide_true, if_true, List.map_cons, List.countP_cons]
        omega
      · have : ¬ t = r.1 := fun e => h e.symm
        simp [List.filter_cons, h, this]
    simp only [e, sum_add, ih, sum_single ts hn r.1 _ (ht r (by simp)), List.countP_cons]
    omega

theorem count_total (regs : List (Nat × Case)) :
    regs.countP (fun r => Passed r.2) + regs.countP (fun r => ¬ Passed r.2) = regs.length := by
  induction regs with
  | nil => rfl
  | cons r regs ih =>
    by_cases h : Passed r.2
    · simp [h] at ih ⊢; omega
    · simp [h] at ih ⊢; omega

/-! ## C89 -/

/-- C89, the report: if every case returns or fails by an assertion, the program prints for each test, in
the order of the first registration, its cases in order, OK for those that pass and NG for those that
fail, with the complaints; the numbers below are those of all registered cases.  (Missing: the exit
status does not tell the result, see the counterexample.) -/
theorem C89_report_partial (name : Nat → List Nat) (regs : List (Nat × Case)) (h : ∀ r ∈ regs, Finished r.2) :
    ∃ status, program name regs = .ok (status, report name regs) := by
  obtain ⟨h1, h2⟩ := register_spec regs
  unfold program
  obtain ⟨s, e1, e2, e3, e4⟩ := runTests_ok name (register regs) regs (register regs).names ⟨[], [], 0, 0⟩
    (by
      intro t ht
      rw [h1, firsts_mem] at ht
      rw [h2 t, if_pos ht]) h
  rw [e1]
  refine ⟨0, ?_⟩
  simp only [Res.bind, Res.ok.injEq, Prod.mk.injEq, true_and]
  have hmem : ∀ r ∈ regs, r.1 ∈ (register regs).names := by
    intro r hr
    rw [h1, firsts_mem]
    exact List.mem_map_of_mem hr
  have hnd : (register regs).names.Nodup := by rw [h1]; exact firsts_nodup _
  rw [count_by_test _ regs _ hnd hmem] at e3 e4
  have hok : s.ok = regs.countP (fun r => Passed r.2) := by rw [e3]; simp
  have hng : s.ng = regs.countP (fun r => ¬ Passed r.2) := by rw [e4]; simp
  have hsum := count_total regs
  unfold banner report
  rw [hok, hng, hsum, e2, h1]
  simp only [List.nil_append]

/-- tests_example.cpp:5-27. -/
def exampleTests : List (Nat × Case) :=
  [(0, ⟨ascii "a1", .pass⟩),
   (0, ⟨ascii "a2", runBody (ascii "aaa") (ascii "a2") (ascii "tests_example.cpp") [⟨false, ascii "false", 13⟩]⟩),
   (1, ⟨ascii "a1", runBody (ascii "bbb") (ascii "a1") (ascii "tests_example.cpp") [⟨false, ascii "false", 20⟩]⟩),
   (1, ⟨ascii "a2", .pass⟩)]

example : ∀ r ∈ exampleTests, Finished r.2 := by
  intro r hr
  simp only [exampleTests, List.mem_cons, List.not_mem_nil, or_false] at hr
  rcases hr with rfl | rfl | rfl | rfl
  · exact Or.inl rfl
  · exact Or.inr ⟨_, rfl⟩
  · exact Or.inr ⟨_, rfl⟩
  · exact Or.inl rfl

/-- C89 refuted: the exit status is 0 whether or not tests fail, for every test program. -/
theorem C89_status_counterexample :
    (∀ (name : Nat → List Nat) (regs : List (Nat × Case)) (r : Nat × List Nat), program name regs = .ok r → r.1 = 0) ∧
    ∃ r : Nat × Case, ¬ Passed r.2 ∧ ∀ name : Nat → List Nat, ∃ text, program name [r] = .ok (0, text) := by
  constructor
  · intro name regs r h
    unfold program at h
    cases hx : runTests name (register regs) ⟨[], [], 0, 0⟩ (register regs).names with
    | ok s => rw [hx] at h; simp only [Res.bind, Res.ok.injEq] at h; rw [← h]
    | ub => rw [hx] at h; cases h
    | abort => rw [hx] at h; cases h
    | hang => rw [hx] at h; cases h
  · exact ⟨(0, ⟨ascii "a", .fail []⟩), by decide, fun name => ⟨_, rfl⟩⟩

/-- C89 refuted: if the body of a case ends with another exception, the program calls `std::exit` while
it is already exiting, which is undefined; nothing is reported, neither about this case nor about the
others. -/
theorem C89_exception_counterexample (name : Nat → List Nat) (regs : List (Nat × Case))
    (h : ∃ r ∈ regs, ¬ Finished r.2) : program name regs = .ub := by
  obtain ⟨h1, h2⟩ := register_spec regs
  obtain ⟨r, hr, hn⟩ := h
  unfold program
  rw [runTests_ub name _ _ _ ⟨r.1, ?_, r.2, ?_, hn⟩]
  · rfl
  · rw [h1, firsts_mem]; exact List.mem_map_of_mem hr
  · rw [h2, if_pos (List.mem_map_of_mem hr)]
    simp only [Option.getD_some, casesOf]
    exact List.mem_map_of_mem (List.mem_filter.mpr ⟨hr, by simp⟩)

example : ¬ Finished ⟨ascii "a", .throws (ascii "bad_alloc")⟩ := by
  rintro (h | ⟨w, h⟩) <;> cases h

/-- C89, assertions: a body of assertions passes exactly if all of them hold; otherwise it fails with the
text and the line of the first one that does not. -/
theorem C89_assertions (test case file : List Nat) (as : List Assertion) :
    (runBody test case file as = .pass ↔ ∀ a ∈ as, a.value = true) ∧
    ∀ pre a post, as = pre ++ a :: post → (∀ x ∈ pre, x.value = true) → a.value = false →
      runBody test case file as = .fail (test ++ ascii ":" ++ case ++ ascii " [" ++ file ++ ascii ":" ++
        decimal a.line ++ ascii "] assertion failed: " ++ a.expr) := by
  have two : ∀ pre a post, as = pre ++ a :: post → (∀ x ∈ pre, x.value = true) → a.value = false →
      runBody test case file as = .fail (test ++ ascii ":" ++ case ++ ascii " [" ++ file ++ ascii ":" ++
        decimal a.line ++ ascii "] assertion failed: " ++ a.expr) := by
    intro pre a post e hp ha
    subst e
    induction pre with
    | nil =>
      have : ascii "] assertion failed: " = ascii "] " ++ ascii "assertion failed: " := by decide
      simp [runBody, ha, failText, this]
    | cons x pre ih =>
      have hx := hp x (by simp)
      simp only [List.cons_append, runBody, hx]
      exact ih (fun y hy => hp y (by simp [hy]))
  refine ⟨⟨?_, ?_⟩, two⟩
  · intro h
    clear two
    induction as with
    | nil => simp
    | cons a as ih =>
      unfold runBody at h
      cases ha : a.value with
      | false => rw [ha] at h; simp at h
      | true =>
        rw [ha] at h
        simp only [Bool.not_true, Bool.false_eq_true, if_false] at h
        simpa [ha] using ih h
  · intro h
    clear two
    induction as with
    | nil => rfl
    | cons a as ih =>
      unfold runBody
      rw [h a (by simp)]
      simpa using ih (fun x hx => h x (by simp [hx]))

example : runBody (ascii "t") (ascii "c") (ascii "f.cpp") [⟨true, ascii "x", 3⟩, ⟨false, ascii "y", 4⟩] =
    .fail (ascii "t:c [f.cpp:4] assertion failed: y") := by decide +kernel

end Berts.Props
