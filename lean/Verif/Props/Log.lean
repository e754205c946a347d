import Verif.Model.Log

/-!
# Properties of the log functions

`Ideal` is what the property asks for: the text and a newline are appended to the log file iff the level
is at most the severity and a file is set; nothing else changes.
-/

namespace Berts.Props

open Berts.Log

/-- The numbers of the severities, from the documentation of the public header. -/
def sevNum : Sev → Int
  | .debug => 0
  | .info => 1
  | .warn => 2
  | .error => 3

/-- `s'` is `s` after an ideal logger handled message `msg` of severity `v`. -/
structure Ideal (s : St) (v : Sev) (msg : List Nat) (s' : St) : Prop where
  level : s'.level = s.level
  file : s'.file = s.file
  written : ∀ f, s.level ≤ sevNum v → s.file = some f → s'.out f = s.out f ++ msg ++ [10]
  others : ∀ g, (s.level ≤ sevNum v → s.file ≠ some g) → s'.out g = s.out g

/-- Messages that `fprintf` prints unchanged. -/
def Tame (msg : List Nat) : Prop := 37 ∉ msg ∧ 0 ∉ msg

theorem printfText_tame (msg : List Nat) (h : Tame msg) : printfText msg = .ok msg := by
  induction msg with
  | nil => rfl
  | cons c rest ih =>
    obtain ⟨h1, h2⟩ := h
    simp only [List.mem_cons, not_or] at h1 h2
    unfold printfText
    rw [if_neg (Ne.symm h2.1), if_neg (Ne.symm h1.1), ih ⟨h1.2, h2.2⟩]
    rfl

theorem writeIf_ideal (s : St) (v : Sev) (msg : List Nat) (h : Tame msg) :
    ∃ s', writeIf (sevNum v) s msg = .ok s' ∧ Ideal s v msg s' := by
  unfold writeIf write
  split
  · rename_i hl
    split
    · rename_i hf
      exact ⟨s, rfl, rfl, rfl, fun f _ e => by simp [hf] at e, fun _ _ => rfl⟩
    · rename_i f hf
      rw [printfText_tame msg h]
      refine ⟨_, rfl, rfl, rfl, ?_, ?_⟩
      · intro f' _ e
        rw [hf] at e
        cases e
        simp [append]
      · intro g hg
        have : g ≠ f := by rintro rfl; exact hg hl hf
        simp [append, this]
  · rename_i hl
    exact ⟨s, rfl, rfl, rfl, fun f h' => absurd h' hl, fun _ _ => rfl⟩

/-- C53, plain overloads: every message without `%` and NUL is written iff the level is at most the
severity and a log file is set.  Missing: messages with `%` (see `C53_percent_counterexample`) or NUL. -/
theorem C53_plain_partial (s : St) (v : Sev) (msg : List Nat) (h : Tame msg) :
    ∃ s', plain s v msg = .ok s' ∧ Ideal s v msg s' := by
  cases v
  · exact writeIf_ideal s .debug msg h
  · exact writeIf_ideal s .info msg h
  · exact writeIf_ideal s .warn msg h
  · exact writeIf_ideal s .error msg h

/-- C53, formatted overloads: the same, except for errors at levels 2 (the default) and 3. -/
theorem C53_formatted_partial (s : St) (v : Sev) (msg : List Nat) (h : Tame msg)
    (hv : v = .error → ¬ (1 < s.level ∧ s.level ≤ 3)) :
    ∃ s', formatted s v (.ok msg) = .ok s' ∧ Ideal s v msg s' := by
  have hi : ∀ n, isLogging s n = true ↔ s.level ≤ n := fun n => by simp [isLogging]
  have hskip : ∀ w : Sev, ¬ s.level ≤ sevNum w → Ideal s w msg s := fun w hw =>
    ⟨rfl, rfl, fun f h' => absurd h' hw, fun _ _ => rfl⟩
  cases v with
  | debug =>
    unfold formatted
    simp only [hi]
    split
    · exact C53_plain_partial s .debug msg h
    · rename_i hl; exact ⟨s, rfl, hskip .debug hl⟩
  | info =>
    unfold formatted
    simp only [hi]
    split
    · exact C53_plain_partial s .info msg h
    · rename_i hl; exact ⟨s, rfl, hskip .info hl⟩
  | warn =>
    unfold formatted
    simp only [hi]
    split
    · exact C53_plain_partial s .warn msg h
    · rename_i hl; exact ⟨s, rfl, hskip .warn hl⟩
  | error =>
    unfold formatted
    simp only [hi]
    split
    · exact C53_plain_partial s .error msg h
    · rename_i hl
      refine ⟨s, rfl, hskip .error ?_⟩
      have := hv rfl
      simp only [sevNum]
      omega

/-- C53, exactly when the formatted `error` differs from the ideal: at levels 2 and 3 with a file set it
writes nothing at all, whatever the message. -/
theorem C53_formatted_error (s : St) (msg : Res (List Nat)) (h : 1 < s.level) :
    formatted s .error msg = .ok s := by
  have : ¬ s.level ≤ 1 := by omega
  simp [formatted, isLogging, this]

/-- C53 fails: with the settings a program starts with, a formatted error is not written. -/
theorem C53_error_counterexample (msg : List Nat) :
    formatted St.init .error (.ok msg) = .ok St.init ∧ ¬ Ideal St.init .error msg St.init := by
  refine ⟨C53_formatted_error _ _ (by decide), ?_⟩
  intro h
  have := h.written 0 (by decide) rfl
  simp [St.init] at this

/-- C53, what is written for arbitrary messages: what `fprintf` prints for the message as a format. -/
theorem C53_exact (s : St) (v : Sev) (msg : List Nat) :
    plain s v msg =
      match s.file with
      | none => .ok s
      | some f =>
        if s.level ≤ sevNum v then
          (printfText msg).bind fun t => .ok (append (append s f t) f [10])
        else .ok s := by
  cases v <;> simp only [plain, writeIf, write, sevNum] <;> cases s.file <;>
    first | rfl | simp

/-- C53 fails: a message with a single `%` that is to be written is undefined behaviour. -/
theorem C53_percent_counterexample (s : St) (v : Sev) (f : Nat) (hf : s.file = some f)
    (hl : s.level ≤ sevNum v) (pre post : List Nat) (hp : Tame pre) (hpost : post.head? ≠ some 37) :
    plain s v (pre ++ 37 :: post) = .ub := by
  rw [C53_exact, hf]
  simp only [if_pos hl]
  have : printfText (pre ++ 37 :: post) = .ub := by
    induction pre with
    | nil =>
      rw [List.nil_append]
      unfold printfText
      cases post with
      | nil => simp
      | cons d rest =>
        have : d ≠ 37 := by simpa using hpost
        simp [this]
    | cons c rest ih =>
      obtain ⟨h1, h2⟩ := hp
      simp only [List.mem_cons, not_or] at h1 h2
      rw [List.cons_append]
      unfold printfText
      rw [if_neg (Ne.symm h2.1), if_neg (Ne.symm h1.1), ih ⟨h1.2, h2.2⟩]
      rfl
  rw [this]
  rfl

/-- C53: a disabled message is never looked at, and a formatted one not even formatted. -/
theorem C53_disabled (s : St) (v : Sev) (msg : List Nat) (r : Res (List Nat)) (h : sevNum v < s.level) :
    plain s v msg = .ok s ∧ formatted s v r = .ok s := by
  refine ⟨?_, ?_⟩
  · rw [C53_exact]
    split
    · rfl
    · rw [if_neg (by omega)]
  · cases v <;> simp only [sevNum] at h <;> simp [formatted, isLogging] <;> intro <;> omega

/-- C53, lazy messages: the callback runs iff the level is at most the severity, and the result says so. -/
theorem C53_when (s : St) (v : Sev) (fn : St → Res St) :
    when s (sevNum v) fn =
      if s.level ≤ sevNum v then (fn s).bind fun t => .ok (true, t) else .ok (false, s) := by
  simp [when, isLogging]

/-- C53: at `BERTS_LOG_QUIET` nothing is written; `BERTS_LOG_ALL` lets everything through. -/
theorem C53_levels (s : St) (v : Sev) (msg : List Nat) :
    plain (setLevel s 10) v msg = .ok (setLevel s 10) ∧
    (∀ f, Tame msg → ∃ s', plain (setFile (setLevel s 0) (some f)) v msg = .ok s' ∧
      s'.out f = s.out f ++ msg ++ [10]) := by
  refine ⟨?_, ?_⟩
  · exact (C53_disabled (setLevel s 10) v msg (.ok []) (by cases v <;> simp [setLevel, sevNum])).1
  · intro f h
    obtain ⟨s', h1, h2⟩ := C53_plain_partial (setFile (setLevel s 0) (some f)) v msg h
    exact ⟨s', h1, h2.written f (by cases v <;> simp [setFile, setLevel, sevNum]) rfl⟩

/-- What a C library prints for a format without further arguments: `Prints fmt t`.  The text ends at a NUL,
`%%` is a percent sign; there is no clause for another use of `%`. -/
inductive Prints : List Nat → List Nat → Prop where
  | done : Prints [] []
  | nul (rest) : Prints (0 :: rest) []
  | percent {rest t} : Prints rest t → Prints (37 :: 37 :: rest) (37 :: t)
  | char {c rest t} : c ≠ 0 → c ≠ 37 → Prints rest t → Prints (c :: rest) (c :: t)

theorem prints_of : ∀ msg t, printfText msg = .ok t → Prints msg t
  | [], t, h => by
    unfold printfText at h
    cases h
    exact .done
  | c :: rest, t, h => by
    unfold printfText at h
    by_cases h0 : c = 0
    · rw [if_pos h0] at h
      cases h
      subst h0
      exact .nul _
    · rw [if_neg h0] at h
      by_cases h1 : c = 37
      · rw [if_pos h1] at h
        subst h1
        match rest, h with
        | d :: rest, h =>
          simp only at h
          by_cases hd : d = 37
          · rw [if_pos hd] at h
            subst hd
            cases hp : printfText rest with
            | ok u =>
              rw [hp] at h
              cases h
              exact .percent (prints_of _ _ hp)
            | ub => rw [hp] at h; cases h
            | abort => rw [hp] at h; cases h
            | hang => rw [hp] at h; cases h
          · rw [if_neg hd] at h
            cases h
      · rw [if_neg h1] at h
        cases hp : printfText rest with
        | ok u =>
          rw [hp] at h
          cases h
          exact .char h0 h1 (prints_of _ _ hp)
        | ub => rw [hp] at h; cases h
        | abort => rw [hp] at h; cases h
        | hang => rw [hp] at h; cases h

theorem of_prints {msg t : List Nat} (h : Prints msg t) : printfText msg = .ok t := by
  induction h with
  | done => rfl
  | nul rest =>
    unfold printfText
    rw [if_pos rfl]
  | percent _ ih =>
    unfold printfText
    simp [ih, Res.bind]
  | char h0 h1 _ ih =>
    unfold printfText
    rw [if_neg h0, if_neg h1, ih]
    rfl

theorem printfText_ub : ∀ msg, (∀ t, ¬ Prints msg t) → printfText msg = .ub
  | [], h => absurd .done (h [])
  | c :: rest, h => by
    unfold printfText
    by_cases h0 : c = 0
    · subst h0
      exact absurd (.nul rest) (h [])
    · rw [if_neg h0]
      by_cases h1 : c = 37
      · rw [if_pos h1]
        subst h1
        match rest, h with
        | [], _ => rfl
        | d :: rest, h =>
          simp only
          by_cases hd : d = 37
          · rw [if_pos hd]
            subst hd
            rw [printfText_ub rest fun t ht => h _ (.percent ht)]
            rfl
          · rw [if_neg hd]
      · rw [if_neg h1, printfText_ub rest fun t ht => h _ (.char h0 h1 ht)]
        rfl

/-- C53, what is written for arbitrary messages: what `fprintf` prints for the message as a format, and a
newline; undefined behaviour iff it prints nothing defined. -/
theorem C53_format (s : St) (v : Sev) (msg : List Nat) (f : Nat) (hf : s.file = some f) (hl : s.level ≤ sevNum v) :
    (∀ t, Prints msg t → ∃ s', plain s v msg = .ok s' ∧ Ideal s v t s') ∧
    ((∀ t, ¬ Prints msg t) → plain s v msg = .ub) := by
  refine ⟨fun t ht => ?_, fun h => ?_⟩
  · rw [C53_exact, hf]
    simp only [if_pos hl, of_prints ht]
    refine ⟨_, rfl, rfl, hf.symm ▸ hf, ?_, ?_⟩
    · intro g _ e
      rw [hf] at e
      cases e
      simp [append]
    · intro g hg
      have : g ≠ f := by rintro rfl; exact hg hl hf
      simp [append, this]
  · rw [C53_exact, hf]
    simp only [if_pos hl, printfText_ub msg h]
    rfl

/-- `100%%` is printed as `100%`, and `%s` is undefined. -/
example : Prints [49, 48, 48, 37, 37] [49, 48, 48, 37] ∧ ∀ t, ¬ Prints [37, 115] t := by
  refine ⟨prints_of _ _ (by decide), fun t h => ?_⟩
  have := of_prints h
  simp [printfText] at this

/-- What a program does with the logger. -/
inductive LogOp where
  | level (l : Int)
  | file (f : Option Nat)
  | plain (v : Sev) (msg : List Nat)
  | formatted (v : Sev) (msg : List Nat)

/-- A sequence of calls. -/
def runLog : St → List LogOp → Res St
  | s, [] => .ok s
  | s, .level l :: ops => runLog (setLevel s l) ops
  | s, .file f :: ops => runLog (setFile s f) ops
  | s, .plain v msg :: ops => (plain s v msg).bind fun s => runLog s ops
  | s, .formatted v msg :: ops => (formatted s v (.ok msg)).bind fun s => runLog s ops

/-- The level in force after `ops`: the last one set, at first 2 (warnings). -/
def levelAfter (ops : List LogOp) : Int :=
  (ops.filterMap fun | .level l => some l | _ => none).getLast?.getD 2

/-- The file in force after `ops`: the last one set, at first `stderr`. -/
def fileAfter (ops : List LogOp) : Option Nat :=
  (ops.filterMap fun | .file f => some f | _ => none).getLast?.getD (some 0)

/-- What call `op`, made after `before`, should add to file `f`. -/
def added (before : List LogOp) (f : Nat) : LogOp → List Nat
  | .plain v msg | .formatted v msg =>
    if levelAfter before ≤ sevNum v ∧ fileAfter before = some f then msg ++ [10] else []
  | _ => []

/-- The calls that work. -/
def LogOp.Good (before : List LogOp) : LogOp → Prop
  | .plain _ msg => Tame msg
  | .formatted v msg => Tame msg ∧ (v = .error → ¬ (1 < levelAfter before ∧ levelAfter before ≤ 3))
  | _ => True

theorem levelAfter_append (a : List LogOp) (op : LogOp) :
    levelAfter (a ++ [op]) = match op with | .level l => l | _ => levelAfter a := by
  unfold levelAfter
  cases op <;> simp

theorem fileAfter_append (a : List LogOp) (op : LogOp) :
    fileAfter (a ++ [op]) = match op with | .file f => f | _ => fileAfter a := by
  unfold fileAfter
  cases op <;> simp

theorem ideal_added {s s' : St} {v : Sev} {msg : List Nat} (h : Ideal s v msg s') (g : Nat) :
    s'.out g = s.out g ++ if s.level ≤ sevNum v ∧ s.file = some g then msg ++ [10] else [] := by
  split
  · rename_i hc
    rw [h.written g hc.1 hc.2, List.append_assoc]
  · rename_i hc
    rw [h.others g fun hl hf => hc ⟨hl, hf⟩, List.append_nil]

theorem runLog_from (before ops : List LogOp) (s : St) (hl : s.level = levelAfter before) (hf : s.file = fileAfter before)
    (h : ∀ (i : Nat) (op : LogOp), ops[i]? = some op → op.Good (before ++ ops.take i)) :
    ∃ s', runLog s ops = .ok s' ∧ s'.level = levelAfter (before ++ ops) ∧ s'.file = fileAfter (before ++ ops) ∧
      ∀ g, s'.out g = s.out g ++ (ops.zipIdx.flatMap fun x => added (before ++ ops.take x.2) g x.1) := by
  induction ops generalizing before s with
  | nil => exact ⟨s, rfl, by simpa using hl, by simpa using hf, fun g => by simp⟩
  | cons op ops ih =>
    have h0 := h 0 op rfl
    rw [List.take_zero, List.append_nil] at h0
    have hrest : ∀ (i : Nat) (o : LogOp), ops[i]? = some o → o.Good ((before ++ [op]) ++ ops.take i) := by
      intro i o ho
      have := h (i + 1) o (by simpa using ho)
      simpa using this
    have hz : ∀ g, ((op :: ops).zipIdx.flatMap fun x => added (before ++ (op :: ops).take x.2) g x.1) =
        added before g op ++ (ops.zipIdx.flatMap fun x => added ((before ++ [op]) ++ ops.take x.2) g x.1) := by
      intro g
      rw [List.zipIdx_cons, List.flatMap_cons]
      congr 1
      · simp
      · rw [Nat.zero_add, List.zipIdx_succ, List.flatMap_map]
        apply congrArg (fun f => List.flatMap f ops.zipIdx)
        funext x
        simp
    have hgo : ∀ s1 : St, s1.level = levelAfter (before ++ [op]) → s1.file = fileAfter (before ++ [op]) →
        (∀ g, s1.out g = s.out g ++ added before g op) →
        ∃ s', runLog s1 ops = .ok s' ∧ s'.level = levelAfter (before ++ op :: ops) ∧
          s'.file = fileAfter (before ++ op :: ops) ∧
          ∀ g, s'.out g = s.out g ++ ((op :: ops).zipIdx.flatMap fun x => added (before ++ (op :: ops).take x.2) g x.1) := by
      intro s1 e1 e2 e3
      obtain ⟨s', r1, r2, r3, r4⟩ := ih (before ++ [op]) s1 e1 e2 hrest
      refine ⟨s', r1, by simpa using r2, by simpa using r3, fun g => ?_⟩
      rw [r4, e3, hz, List.append_assoc]
    cases op with
    | level l =>
      refine hgo (setLevel s l) ?_ ?_ ?_
      · rw [levelAfter_append]; rfl
      · rw [fileAfter_append]; exact hf
      · intro g; simp [setLevel, added]
    | file f =>
      refine hgo (setFile s f) ?_ ?_ ?_
      · rw [levelAfter_append]; exact hl
      · rw [fileAfter_append]; rfl
      · intro g; simp [setFile, added]
    | plain v msg =>
      obtain ⟨s1, e1, e2⟩ := C53_plain_partial s v msg h0
      unfold runLog
      rw [e1]
      refine hgo s1 ?_ ?_ ?_
      · rw [levelAfter_append, e2.level]; exact hl
      · rw [fileAfter_append, e2.file]; exact hf
      · intro g
        rw [ideal_added e2 g, hl, hf]
        rfl
    | formatted v msg =>
      obtain ⟨s1, e1, e2⟩ := C53_formatted_partial s v msg h0.1 (by rw [hl]; exact h0.2)
      unfold runLog
      rw [e1]
      refine hgo s1 ?_ ?_ ?_
      · rw [levelAfter_append, e2.level]; exact hl
      · rw [fileAfter_append, e2.file]; exact hf
      · intro g
        rw [ideal_added e2 g, hl, hf]
        rfl

/-- C53 over whole histories (partial: `Good` leaves out formatted errors at levels 2 and 3, and messages with `%`
or NUL): every file contains exactly the messages that were logged while it was set and that the level
then let through, in order, each with a newline. -/
theorem C53_history_partial (ops : List LogOp) (h : ∀ (i : Nat) (op : LogOp), ops[i]? = some op → op.Good (ops.take i)) :
    ∃ s', runLog St.init ops = .ok s' ∧ s'.level = levelAfter ops ∧ s'.file = fileAfter ops ∧
      ∀ g, s'.out g = ops.zipIdx.flatMap fun x => added (ops.take x.2) g x.1 := by
  obtain ⟨s', h1, h2, h3, h4⟩ := runLog_from [] ops St.init rfl rfl (by simpa using h)
  refine ⟨s', h1, by simpa using h2, by simpa using h3, fun g => ?_⟩
  rw [h4]
  simp [St.init]

/-- A history: a warning to `stderr`, the log switched off and on again, an information that is not let through. -/
def exOps : List LogOp :=
  [.plain .warn [97], .file none, .plain .error [98], .file (some 1), .plain .info [99], .level 0, .formatted .info [100]]

example : (∀ (i : Nat) (op : LogOp), exOps[i]? = some op → op.Good (exOps.take i)) ∧
    (exOps.zipIdx.flatMap fun x => added (exOps.take x.2) 0 x.1) = [97, 10] ∧
    (exOps.zipIdx.flatMap fun x => added (exOps.take x.2) 1 x.1) = [100, 10] := by
  refine ⟨?_, by decide, by decide⟩
  intro i op h
  have hb := (List.getElem?_eq_some_iff.1 h).1
  have : i = 0 ∨ i = 1 ∨ i = 2 ∨ i = 3 ∨ i = 4 ∨ i = 5 ∨ i = 6 := by
    simp only [exOps, List.length_cons, List.length_nil] at hb
    omega
  rcases this with rfl | rfl | rfl | rfl | rfl | rfl | rfl <;> cases h <;>
    first | trivial | (unfold LogOp.Good Tame; decide) | exact ⟨by unfold Tame; decide, by decide⟩

/-- The hypotheses of the theorems above are met. -/
example : Tame [104, 105] ∧ (St.init.level ≤ sevNum .warn ∧ St.init.file = some 0) ∧
    ∃ s', plain St.init .warn [104, 105] = .ok s' ∧ s'.out 0 = [104, 105, 10] := by
  refine ⟨by unfold Tame; decide, by decide, ?_⟩
  exact ⟨_, rfl, by simp [append, St.init]⟩

/-- `path%d` as an error message. -/
example : plain St.init .error [112, 37, 100] = .ub :=
  C53_percent_counterexample St.init .error 0 rfl (by decide) [112] [100] (by unfold Tame; decide) (by decide)

end Berts.Props
