import Verif.Proofs.EvalLog
import Verif.Props.Api
import Verif.Props.Eval
import Verif.Props.RobertaLog

/-! # Properties C103, C104 and C105: messages of evaluation -/

namespace Berts.Props

open Berts.Spec Berts.Graph Berts.Eval Berts.Vocab Berts.Log Berts.Format
open Berts.Load (LogM Says)
open Berts.Bert (runLines ok_bind')
open Berts.Unicode (utf8Encode)
open Berts.Trie (unitsOfUtf8)

variable {α : Type}

/-! ## C103 -/

/-- `s'` is `s` after the lines have been written: nothing but the end of the file changed, to which each line that
the level lets through was appended as it is. -/
structure Appended (s : St) (lines : List (Int × List Nat)) (s' : St) : Prop where
  level : s'.level = s.level
  file : s'.file = s.file
  written : ∀ f, s.file = some f → s'.out f = s.out f ++ (heard s.level lines).flatMap (· ++ [10])
  others : ∀ g, s.file ≠ some g → s'.out g = s.out g

theorem appended_of {lines : List (Int × List Nat)} (h : ∀ l ∈ lines, Tame l.2) (s : St) :
    ∃ s', runLines s lines = .ok s' ∧ Appended s lines s' := by
  have ht : ∀ m ∈ heard s.level lines, Tame m := by
    intro m hm
    obtain ⟨l, hl, rfl⟩ := List.mem_map.mp hm
    exact h l (List.mem_filter.mp hl).1
  obtain ⟨s', h1, h2⟩ := (linesWritten_outcome lines s).1 (Or.inr fun m hm => prints_no_percent _ (ht m hm).1)
  refine ⟨s', h1, h2.level, h2.file, ?_, h2.others⟩
  intro f hf
  obtain ⟨ts, h3, h4⟩ := h2.written f hf
  rw [h4, printsAll_tame h3 ht]

/-- With messages `f`, without `r`: a result is the same, and `P` tells how it comes with the lines written; anything
else that can happen is the same too. -/
structure Undisturbed {β : Type} (f : LogM β) (r : Res β) (P : β → List (Int × List Nat) → Prop) : Prop where
  ok : ∀ (s : St) (a : β), r = .ok a → ∃ ls s', P a ls ∧ f s = .ok (a, s') ∧ Appended s ls s'
  ub : ∀ s : St, r = .ub → f s = .ub
  abort : ∀ s : St, r = .abort → f s = .abort
  hang : ∀ s : St, r = .hang → f s = .hang

theorem undisturbed_of {β : Type} {f : LogM β} {r : Res β} {P : β → List (Int × List Nat) → Prop}
    (h : Tell f r P) : Undisturbed f r P := by
  obtain ⟨ls, h1, h2, h3⟩ := h
  have hw := appended_of h3
  constructor
  · intro s a ha
    obtain ⟨s', h4, h5⟩ := hw s
    exact ⟨ls, s', h2 a ha, by rw [h1 s, h4, ok_bind', ha, ok_bind'], h5⟩
  all_goals
    intro s hr
    obtain ⟨s', h4, _⟩ := hw s
    rw [h1 s, h4, ok_bind', hr]
    rfl

/-- C103: whatever the state of the log, evaluating with messages is evaluating without, undefined behaviour and
assertion failures included.  If it returns, the log has grown by the lines for the way it ended. -/
theorem C103_eval (adr : Fin (2 ^ 63)) (A : Arith α) (g : Gg) (m : EModel α) (tokens segs : List Nat) (L : Int) (poolType : Nat)
    (threads : Int) (out : Option (List α)) (outCount : Nat) :
    Undisturbed (evalL adr A g m tokens segs L poolType threads out outCount) (eval A g m tokens segs L poolType out outCount)
      (fun o ls => ∃ e, (evalCall adr g m tokens segs L poolType threads outCount).Ends out.isSome e ∧ o.ret = e.ret ∧
        ls = (evalCall adr g m tokens segs L poolType threads outCount).lines e) :=
  undisturbed_of (evalL_tell adr A g m tokens segs L poolType threads out outCount)

/-- C103 for the language model head. -/
theorem C103_lm (adr : Fin (2 ^ 63)) (A : Arith α) (g : Gg) (m : EModel α) (hidden : List α) (dflt : α) (topK : Int)
    (ids : Option (List Nat)) (probs : Option (List α)) (outCount : Nat) :
    Undisturbed (evalLmL adr A g m hidden dflt topK ids probs outCount) (evalLm A g m hidden dflt topK ids probs outCount)
      (fun o ls => ∃ e, (lmCall adr g m hidden).Ends ids.isSome probs.isSome m.w.lm.isSome e ∧ o.ret = e.ret ∧
        ls = (lmCall adr g m hidden).lines e) :=
  undisturbed_of (evalLmL_tell adr A g m hidden dflt topK ids probs outCount)

/-- C103: a call ends in one way only. -/
theorem C103_unique (c : EvalCall) (buffer : Bool) (e e' : EvalEnd) (h : c.Ends buffer e) (h' : c.Ends buffer e') :
    e = e' := by
  have seg : ∀ s s' : Nat, (∃ a b, c.segments = a ++ s :: b ∧ c.segmentCount ≤ s ∧ ∀ x ∈ a, x < c.segmentCount) →
      (∃ a b, c.segments = a ++ s' :: b ∧ c.segmentCount ≤ s' ∧ ∀ x ∈ a, x < c.segmentCount) → s = s' := by
    rintro s s' ⟨a, b, h1, h2, h3⟩ ⟨a', b', h1', h2', h3'⟩
    rw [h1] at h1'
    rcases List.append_eq_append_iff.mp h1' with ⟨d, rfl, h4⟩ | ⟨d, rfl, h4⟩
    · cases d with
      | nil => simpa using (List.cons.inj h4).1
      | cons x d =>
        have := (List.cons.inj h4).1
        subst this
        have := h3' s (by simp)
        omega
    · cases d with
      | nil => simpa using (List.cons.inj h4).1.symm
      | cons x d =>
        have := (List.cons.inj h4).1
        subst this
        have := h3 s' (by simp)
        omega
  have none_bad : ∀ s : Nat, (∃ a b, c.segments = a ++ s :: b ∧ c.segmentCount ≤ s ∧ ∀ x ∈ a, x < c.segmentCount) →
      ¬ ∀ x ∈ c.segments, x < c.segmentCount := by
    rintro s ⟨a, b, h1, h2, _⟩ h
    have := h s (by rw [h1]; simp)
    omega
  cases e <;> cases e' <;> simp only [EvalCall.Ends] at h h' <;> first
    | rfl
    | (exfalso; omega)
    | (exfalso; exact none_bad _ h.2.2 h'.2.2.1)
    | (exfalso; exact none_bad _ h'.2.2 h.2.2.1)
    | (rw [seg _ _ h.2.2 h'.2.2])
    | (exfalso; have h1 := h.2.2.2.2.1; have h2 := h'.2.2.2.2.1; rw [h1] at h2; cases h2)
    | (exfalso; have h1 := h.2.2.2.2; have h2 := h'.2.2.2.2.1; rw [h1] at h2; cases h2)
    | (exfalso; have h1 := h.2.2.2.2.1; have h2 := h'.2.2.2.2; rw [h1] at h2; cases h2)

/-- C103: so does a call of the head. -/
theorem C103_lm_unique (c : LmCall) (ids probs head : Bool) (e e' : LmEnd) (h : c.Ends ids probs head e)
    (h' : c.Ends ids probs head e') : e = e' := by
  cases e <;> cases e' <;> simp only [LmCall.Ends] at h h' <;> first
    | rfl
    | (exfalso; exact h h'.1)
    | (exfalso; exact h' h.1)
    | (exfalso; exact h.2.2.2.2 h'.2.2.2.2)
    | (exfalso; exact h'.2.2.2.2 h.2.2.2.2)
    | (exfalso; simp_all)

theorem modelL_says {β γ : Type} (model : β → Option γ) (ctx : Option β) :
    Says (modelL model ctx) (.ok (ctx.bind model)) (contextLines model ctx) := by
  unfold modelL contextLines
  cases ctx with
  | none => exact ((Load.says_say _ _).then (k := fun _ => pure none) (Load.says_pure _)).congr rfl rfl
  | some c =>
    simp only [Option.bind_some]
    cases model c with
    | none => exact ((Load.says_say _ _).then (k := fun _ => pure none) (Load.says_pure _)).congr rfl rfl
    | some m => exact Load.says_pure _

theorem contextLines_tame {β γ : Type} (model : β → Option γ) (ctx : Option β) :
    ∀ l ∈ contextLines model ctx, Tame l.2 := by
  unfold contextLines
  intro l hl
  split at hl
  · rw [List.mem_singleton] at hl; subst hl; exact tame_lit (by decide)
  · split at hl
    · rw [List.mem_singleton] at hl; subst hl; exact tame_lit (by decide)
    · cases hl

theorem contextLines_model {β γ : Type} {model : β → Option γ} {ctx : Option β} {m : γ} (h : ctx.bind model = some m) :
    contextLines model ctx = [] := by
  cases ctx with
  | none => cases h
  | some c =>
    have : model c = some m := h
    simp [contextLines, this]

/-- C103 for `berts_eval`: without a context or a model one line says so; without settings or a place for the size
nothing is said; otherwise the lines are those of the evaluation. -/
theorem C103_berts_eval (adr : Fin (2 ^ 63)) (A : Arith α) (g : Gg) (ctx : Option (ECtx α)) (tokens : List Nat) (segs : Option (List Nat))
    (cond : Option (Int × Nat × Int)) (out : Option (List α)) (outCount : Option Nat) :
    Undisturbed (bertsEvalL adr A g ctx tokens segs cond out outCount)
      (bertsEval A g ctx tokens segs (cond.map fun c => (c.1, c.2.1)) out outCount)
      (fun r ls =>
        match ctx.bind (·.model), cond, outCount with
        | some m, some (layer, pool, threads), some c =>
          ∃ e, (evalCall adr g m tokens (segs.getD (List.replicate tokens.length 0)) layer pool threads c).Ends out.isSome e ∧
            r.1 = e.ret ∧
            ls = (evalCall adr g m tokens (segs.getD (List.replicate tokens.length 0)) layer pool threads c).lines e
        | _, _, _ => r = (false, out, outCount) ∧ ls = contextLines (·.model) ctx) := by
  apply undisturbed_of
  unfold bertsEvalL bertsEval
  cases hm : ctx.bind (·.model) with
  | none =>
    refine Tell.first (modelL_says _ _) (contextLines_tame _ _)
      (P := fun r ls => r = (false, out, outCount) ∧ ls = []) ?_ ?_
    · rw [hm]
      exact Tell.pure ⟨rfl, rfl⟩
    · rintro b ls ⟨rfl, rfl⟩
      exact ⟨rfl, by simp⟩
  | some m =>
    have hctx := contextLines_model hm
    refine Tell.first (modelL_says _ _) (contextLines_tame _ _) (P := fun r ls =>
        match cond, outCount with
        | some (layer, pool, threads), some c =>
          ∃ e, (evalCall adr g m tokens (segs.getD (List.replicate tokens.length 0)) layer pool threads c).Ends out.isSome e ∧
            r.1 = e.ret ∧
            ls = (evalCall adr g m tokens (segs.getD (List.replicate tokens.length 0)) layer pool threads c).lines e
        | _, _ => r = (false, out, outCount) ∧ ls = []) ?_ ?_
    · rw [hm]
      cases cond with
      | none => exact Tell.pure ⟨rfl, rfl⟩
      | some cond =>
        obtain ⟨layer, pool, threads⟩ := cond
        cases outCount with
        | none => exact Tell.pure ⟨rfl, rfl⟩
        | some c =>
          obtain ⟨ls, h1, h2, h3⟩ :=
            evalL_tell adr A g m tokens (segs.getD (List.replicate tokens.length 0)) layer pool threads out c
          simp only [Option.map_some]
          generalize hr : eval A g m tokens (segs.getD (List.replicate tokens.length 0)) layer pool out c = r at h1 h2
          cases r with
          | ok o =>
            refine ⟨ls, (h1.then (k := fun o => pure (o.ret, o.buf, some o.count)) (Load.says_pure _)).congr rfl (by simp), ?_, h3⟩
            intro a ha
            cases ha
            exact h2 o rfl
          | ub => exact ⟨ls, h1.stop nofun _ _, nofun, h3⟩
          | abort => exact ⟨ls, h1.stop nofun _ _, nofun, h3⟩
          | hang => exact ⟨ls, h1.stop nofun _ _, nofun, h3⟩
    · intro b ls h
      rw [hctx, List.nil_append]
      cases cond <;> cases outCount <;> simp_all

/-- C103 for `berts_eval_lm`. -/
theorem C103_berts_eval_lm (adr : Fin (2 ^ 63)) (A : Arith α) (g : Gg) (ctx : Option (ECtx α)) (hidden : List α) (dflt : α)
    (cond : Option Int) (ids : Option (List Nat)) (probs : Option (List α)) (outCount : Option Nat) :
    Undisturbed (bertsEvalLmL adr A g ctx hidden dflt cond ids probs outCount)
      (bertsEvalLm A g ctx hidden dflt cond ids probs outCount)
      (fun r ls =>
        match ctx.bind (·.model), cond, outCount with
        | some m, some _, some _ => ∃ e, (lmCall adr g m hidden).Ends ids.isSome probs.isSome m.w.lm.isSome e ∧
            r.1 = e.ret ∧ ls = (lmCall adr g m hidden).lines e
        | _, _, _ => r = (false, ids, probs, outCount) ∧ ls = contextLines (·.model) ctx) := by
  apply undisturbed_of
  unfold bertsEvalLmL bertsEvalLm
  cases hm : ctx.bind (·.model) with
  | none =>
    refine Tell.first (modelL_says _ _) (contextLines_tame _ _)
      (P := fun r ls => r = (false, ids, probs, outCount) ∧ ls = []) ?_ ?_
    · rw [hm]
      exact Tell.pure ⟨rfl, rfl⟩
    · rintro b ls ⟨rfl, rfl⟩
      exact ⟨rfl, by simp⟩
  | some m =>
    have hctx := contextLines_model hm
    refine Tell.first (modelL_says _ _) (contextLines_tame _ _) (P := fun r ls =>
        match cond, outCount with
        | some _, some _ => ∃ e, (lmCall adr g m hidden).Ends ids.isSome probs.isSome m.w.lm.isSome e ∧
            r.1 = e.ret ∧ ls = (lmCall adr g m hidden).lines e
        | _, _ => r = (false, ids, probs, outCount) ∧ ls = []) ?_ ?_
    · rw [hm]
      cases cond with
      | none => exact Tell.pure ⟨rfl, rfl⟩
      | some k =>
        cases outCount with
        | none => exact Tell.pure ⟨rfl, rfl⟩
        | some c =>
          obtain ⟨ls, h1, h2, h3⟩ := evalLmL_tell adr A g m hidden dflt k ids probs c
          simp only
          generalize hr : evalLm A g m hidden dflt k ids probs c = r at h1 h2
          cases r with
          | ok o =>
            refine ⟨ls, (h1.then (k := fun o => pure (o.ret, o.ids, o.probs, some o.count)) (Load.says_pure _)).congr rfl
              (by simp), ?_, h3⟩
            intro a ha
            cases ha
            exact h2 o rfl
          | ub => exact ⟨ls, h1.stop nofun _ _, nofun, h3⟩
          | abort => exact ⟨ls, h1.stop nofun _ _, nofun, h3⟩
          | hang => exact ⟨ls, h1.stop nofun _ _, nofun, h3⟩
    · intro b ls h
      rw [hctx, List.nil_append]
      cases cond <;> cases outCount <;> simp_all

/-! ## C104 -/

/-- C104: a call is refused iff there is a reason. -/
theorem C104_reason (c : EvalCall) (e : EvalEnd) : e.ret = false ↔ (c.reason e).isSome := by
  cases e <;> simp [EvalEnd.ret, EvalCall.reason]

theorem C104_lm_reason (c : LmCall) (e : LmEnd) : e.ret = false ↔ (c.reason e).isSome := by
  cases e <;> simp [LmEnd.ret, LmCall.reason]

theorem heard_last {level n : Int} {ls fr : List (Int × List Nat)} {t : List Nat} (h : level ≤ n) :
    heard level (ls ++ [line n t] ++ fr) = heard level ls ++ [t] ++ heard level fr := by
  simp [heard, line, h]

/-- C104 (partial: the level must not be above INFO, the default level is): if a call is refused, the last line
written is the reason; only the line about the context freed comes after it, at the level DEBUG. -/
theorem C104_info_partial (c : EvalCall) (e : EvalEnd) (t : List Nat) (h : c.reason e = some t) (level : Int)
    (hl : level ≤ 1) : ∃ pre, heard level (c.lines e) = pre ++ [t] ++ heard level (c.freed e) ∧
      (c.freed e = [] ∨ c.freed e = [objectLine (bytes! "ggml_free") c.addr]) := by
  cases e <;> simp only [EvalCall.reason, Option.some.injEq, reduceCtorEq] at h <;> subst h
  · exact ⟨_, heard_last (ls := [_, _]) (by omega), .inl rfl⟩
  · exact ⟨_, heard_last (ls := [_, _]) (by omega), .inl rfl⟩
  · exact ⟨_, heard_last (ls := [_, _]) (by omega), .inl rfl⟩
  · exact ⟨_, heard_last (ls := [_, _]) (by omega), .inl rfl⟩
  · exact ⟨_, heard_last (ls := [_, _, _, _, _]) (by omega), .inl rfl⟩
  · exact ⟨_, heard_last (ls := [_, _, _, _, _, _, _]) (by omega), .inr rfl⟩

/-- C104 (partial, likewise) for the head. -/
theorem C104_lm_info_partial (c : LmCall) (e : LmEnd) (t : List Nat) (h : c.reason e = some t) (level : Int)
    (hl : level ≤ 1) : ∃ pre, heard level (c.lines e) = pre ++ [t] ++ heard level (c.freed e) ∧
      (c.freed e = [] ∨ c.freed e = [objectLine (bytes! "ggml_free") c.addr]) := by
  cases e <;> simp only [LmCall.reason, Option.some.injEq, reduceCtorEq] at h <;> subst h
  · exact ⟨_, heard_last (ls := [_]) (by omega), .inl rfl⟩
  · exact ⟨_, heard_last (ls := [_, _]) (by omega), .inl rfl⟩
  · refine ⟨_, (congrArg (heard level) ?_).trans (heard_last (n := 3) (ls := line 1 (bytes! "start LM " ++ c.name) :: (c.shape ++ c.pool))
      (by omega)), .inr rfl⟩
    simp [LmCall.lines, LmCall.last]
  · refine ⟨_, (congrArg (heard level) ?_).trans (heard_last (n := 3) (ls := line 1 (bytes! "start LM " ++ c.name) :: (c.shape ++ c.pool))
      (by omega)), .inr rfl⟩
    simp [LmCall.lines, LmCall.last]

/-- C104 at the default level WARN: of the reasons only the activation function is written; the other five are
formatted errors. -/
theorem C104_default (c : EvalCall) (e : EvalEnd) :
    heard 2 (c.lines e) = match e with
      | .activation => [bytes! "unknown activation function"]
      | _ => [] := by
  cases e <;> rfl

/-- C104 at the default level WARN, for the head: all reasons but the size are written, that of BERT's missing
activation function twice, and it is written too if the head is missing. -/
theorem C104_lm_default (c : LmCall) (e : LmEnd) :
    heard 2 (c.lines e) = match e with
      | .buffer => [bytes! "output buffer is not specified"]
      | .weights => (if c.Complains then [bytes! "gelu_new is not implmented yet"] else []) ++
          [bytes! "LM weights are not loaded"]
      | .geluNew => (if c.Complains then [bytes! "gelu_new is not implmented yet"] else []) ++
          [bytes! "gelu_new is not implmented yet"]
      | .done => if c.Complains then [bytes! "gelu_new is not implmented yet"] else []
      | _ => [] := by
  cases e <;> simp only [LmCall.lines, LmCall.last, LmCall.shape, LmCall.pool]
  · rfl
  · rfl
  · rfl
  all_goals
    by_cases hc : c.Complains
    · simp only [if_pos hc]; rfl
    · simp only [if_neg hc]; rfl

/-- C104 fails at the default level: too many tokens, too few segments, an unknown segment, an unknown pooling type and
a layer that does not exist are refused without a word. -/
theorem C104_silent_counterexample :
    evalL 64 tinyA tinyG (tiny true 1) [1, 2] [0, 0] 0 0 1 none 0 St.init = .ok (⟨false, none, 0⟩, St.init) ∧
    evalL 64 tinyA tinyG (tiny true 4) [1, 2] [0] 0 0 1 none 0 St.init = .ok (⟨false, none, 0⟩, St.init) ∧
    evalL 64 tinyA tinyG (tiny true 4) [1, 2] [0, 2] 0 0 1 none 0 St.init = .ok (⟨false, none, 0⟩, St.init) ∧
    evalL 64 tinyA tinyG (tiny true 4) [1, 2] [0, 0] 0 4 1 none 0 St.init = .ok (⟨false, none, 0⟩, St.init) ∧
    evalL 64 tinyA tinyG (tiny true 4) [1, 2] [0, 0] 2 0 1 (some [7]) 1 St.init = .ok (⟨false, some [7], 4⟩, St.init) :=
  ⟨rfl, rfl, rfl, rfl, rfl⟩

/-- C104 fails at every level: without settings or without a place for the size a call is refused without a word. -/
theorem C104_null_counterexample (adr : Fin (2 ^ 63)) (A : Arith α) (g : Gg) (m : EModel α) (tokens : List Nat) (segs : Option (List Nat))
    (cond : Option (Int × Nat × Int)) (out : Option (List α)) (outCount : Option Nat) (h : cond = none ∨ outCount = none)
    (s : St) :
    bertsEvalL adr A g (some ⟨some m⟩) tokens segs cond out outCount s = .ok ((false, out, outCount), s) := by
  rcases h with rfl | rfl
  · rfl
  · cases cond <;> rfl

/-! ## C105 -/

theorem fmt_count_tame (a b : Nat) : ∀ l ∈ [countLine a b], Tame l.2 := by
  intro l hl
  rw [List.mem_singleton] at hl
  subst hl
  unfold countLine
  simp only [line]
  exact append_tame (append_tame (append_tame (append_tame (tame_lit (by decide)) (decimal_tame _)) (tame_lit (by decide)))
    (decimal_tame _)) (tame_lit (by decide))

/-- C105: `berts_tokenize` with messages is `berts_tokenize` without.  After the messages of the tokenizer it writes one
line iff there are more ids, CLS and SEP included, than the model has positions.  If the tokenizer fails, the ids
counted are CLS and the `part` it has appended before. -/
theorem C105_warns (c : Api.Ctx) (m : Api.ModelI) (hm : c.model = some m) (hc : m.clsId ≠ INVALID)
    (hsep : m.sepId ≠ INVALID) (maxTokens : Nat) (tok : List Nat → LogM (Bool × List Nat)) (text toks part : List Nat)
    (ok : Bool) (s s1 : St) (h0 : m.tokenize text = .ok (ok, toks))
    (ht : tok text s = .ok ((ok, if ok then toks else part), s1)) (buf : Option (List Nat)) (len : Option Nat)
    (count : Nat) (hcount : count = if ok then toks.length + 2 else part.length + 1) :
    (∀ o, Api.bertsTokenize (some c) text buf len = .ok o → ∃ s',
      bertsTokenizeL (some c) maxTokens tok text buf len s = .ok (o, s') ∧
      Appended s1 (if maxTokens < count then [countLine count maxTokens] else []) s') ∧
    (Api.bertsTokenize (some c) text buf len = .ub → bertsTokenizeL (some c) maxTokens tok text buf len s = .ub) := by
  have hlen : (if ok then [m.clsId] ++ (if ok then toks else part) ++ [m.sepId] else
      [m.clsId] ++ (if ok then toks else part)).length = count := by
    rw [hcount]; cases ok <;> simp
  have hsay : ∀ o : Api.Out, Says (do
      if maxTokens < count then
        Load.sayF .warn (bytes! "Token count ({}) is larger than the max_position_embeddings ({}). Calling eval() with this sequence will cause a failure.")
          [numArg count, numArg maxTokens]
      pure o) (.ok o) (if maxTokens < count then [countLine count maxTokens] else []) := by
    intro o
    by_cases h : maxTokens < count
    · simp only [if_pos h]
      exact ((says_fmt (fmt_count _ _) 2 rfl).then (k := fun _ => pure o) (Load.says_pure o)).congr rfl rfl
    · simp only [if_neg h]
      exact Load.says_pure o
  have hL : bertsTokenizeL (some c) maxTokens tok text buf len s =
      (if ok then Api.emit ([m.clsId] ++ toks ++ [m.sepId]) buf len else .ok (buf, len)).bind fun o =>
        (runLines s1 (if maxTokens < count then [countLine count maxTokens] else [])).bind fun s' =>
          .ok (⟨ok, o.1, o.2⟩, s') := by
    unfold bertsTokenizeL
    have hml : modelL (·.model) (some c) s = .ok (some m, s) := by
      unfold modelL
      simp only [hm]
      rfl
    rw [Load.bindM, hml, ok_bind']
    simp only [if_neg hc, if_neg hsep]
    rw [Load.bindM, ht, ok_bind']
    simp only
    rw [hlen]
    have hids : (if ok then Api.emit (if ok then [m.clsId] ++ (if ok then toks else part) ++ [m.sepId] else
        [m.clsId] ++ (if ok then toks else part)) buf len else .ok (buf, len)) =
        (if ok then Api.emit ([m.clsId] ++ toks ++ [m.sepId]) buf len else .ok (buf, len)) := by cases ok <;> rfl
    rw [hids]
    generalize (if ok then Api.emit ([m.clsId] ++ toks ++ [m.sepId]) buf len else .ok (buf, len)) = r
    rw [Load.bindM]
    cases r with
    | ok o =>
      have := hsay ⟨ok, o.1, o.2⟩ s1
      simp only [ok_bind'] at this
      exact this
    | ub => rfl
    | abort => rfl
    | hang => rfl
  have hA : Api.bertsTokenize (some c) text buf len =
      (if ok then Api.emit ([m.clsId] ++ toks ++ [m.sepId]) buf len else .ok (buf, len)).bind fun o =>
        .ok ⟨ok, o.1, o.2⟩ := by
    unfold Api.bertsTokenize
    simp only [Api.getModel, hm, if_neg hc, if_neg hsep, h0, Res.bind_ok]
    cases ok <;> rfl
  have htame : ∀ l ∈ (if maxTokens < count then [countLine count maxTokens] else []), Tame l.2 := by
    split
    · exact fmt_count_tame _ _
    · intro l hl; cases hl
  obtain ⟨s', h1, h2⟩ := appended_of htame s1
  rw [hL, hA]
  generalize (if ok then Api.emit ([m.clsId] ++ toks ++ [m.sepId]) buf len else .ok (buf, len)) = r
  cases r with
  | ok o =>
    refine ⟨fun o' ho => ?_, fun h => by cases h⟩
    rw [ok_bind'] at ho
    rw [← Res.ok.inj ho]
    exact ⟨s', by rw [ok_bind', h1, ok_bind'], h2⟩
  | ub => exact ⟨fun o ho => (by cases ho), fun _ => rfl⟩
  | abort => exact ⟨fun o ho => (by cases ho), fun h => (by cases h)⟩
  | hang => exact ⟨fun o ho => (by cases ho), fun h => (by cases h)⟩

/-- C105: the warning is right.  More ids than positions are refused by every call of `berts_eval`, which changes
nothing; a list that is not longer is accepted at least by a dry run (for a model that has segments). -/
theorem C105_iff (A : Arith α) (g : Gg) (m : EModel α) (hseg : 0 < m.hp.segments) (ids : List Nat) :
    m.hp.maxTokens < ids.length ↔ ∀ segs cond out outCount,
      bertsEval A g (some ⟨some m⟩) ids segs cond out outCount = .ok (false, out, outCount) := by
  constructor
  · intro h segs cond out outCount
    unfold bertsEval
    simp only [Option.bind_some]
    cases cond with
    | none => rfl
    | some cond =>
      cases outCount with
      | none => rfl
      | some c =>
        simp only
        rw [show eval A g m ids (segs.getD (List.replicate ids.length 0)) cond.1 cond.2 out c = .ok ⟨false, out, c⟩ by
          unfold eval; rw [if_pos h]]
        rfl
  · intro h
    apply Nat.lt_of_not_le
    intro hle
    have h1 := h none (some (0, 0)) none (some 0)
    have hacc : Accepted m ids (List.replicate ids.length 0) 0 := by
      refine ⟨hle, by simp, ?_, by omega⟩
      intro x hx
      rw [List.eq_of_mem_replicate hx]
      exact hseg
    unfold bertsEval at h1
    simp only [Option.bind_some, Option.getD_none] at h1
    rw [eval_accepted hacc] at h1
    have := Res.ok.inj h1
    simp at this

/-- C105 for RoBERTa at the default level: the log is the warning or nothing, whatever happens in the tokenizer. -/
theorem C105_roberta (e : Roberta.Env) (r : Roberta.RVocab) (setOrder : List (List Nat) → List (List Nat))
    (c : Api.Ctx) (hm : c.model = some (Roberta.robertaModel e r setOrder)) (hc : r.special.cls ≠ INVALID)
    (hsep : r.special.sep ≠ INVALID) (maxTokens : Nat) (text ids part : List Nat)
    (ht : Roberta.tokenize e r setOrder text = .ok (some ids)) (s : St) (hs : s.level = 2) (buf : List Nat) :
    ∃ s', bertsTokenizeL (some c) maxTokens (robertaTok e r setOrder part) text (some buf) (some buf.length) s =
        .ok (⟨true, some ((r.special.cls :: ids ++ [r.special.sep]).take buf.length ++ buf.drop (min buf.length (ids.length + 2))),
          some (ids.length + 2)⟩, s') ∧
      ∀ f, s.file = some f → s'.out f = s.out f ++
        if maxTokens < ids.length + 2 then (countLine (ids.length + 2) maxTokens).2 ++ [10] else [] := by
  have h0 : (Roberta.robertaModel e r setOrder).tokenize text = .ok (true, ids) := by
    show (Roberta.tokenize e r setOrder text).bind _ = _
    rw [ht]
    rfl
  have h1 : robertaTok e r setOrder part text s = .ok ((true, ids), s) := by
    unfold robertaTok
    rw [Load.bindM, C101_default e r setOrder text s (by omega), ht]
    rfl
  have h50 := C50_tokenize c _ hm text ids h0 hc hsep buf buf.length (Nat.le_refl _)
  obtain ⟨s', h2, h3⟩ := (C105_warns c _ hm hc hsep maxTokens (robertaTok e r setOrder part) text ids part true s s h0 h1
    (some buf) (some buf.length) (ids.length + 2) rfl).1 _ h50
  refine ⟨s', by rw [h2]; simp [Roberta.robertaModel], fun f hf => ?_⟩
  rw [h3.written f hf, hs]
  split
  · simp [heard, countLine, line]
  · simp [heard]

/-- C105 for RoBERTa at the default level if the tokenizer fails: false, nothing is returned, and the log is the warning
about the ids appended before or nothing. -/
theorem C105_roberta_fails (e : Roberta.Env) (r : Roberta.RVocab) (setOrder : List (List Nat) → List (List Nat))
    (c : Api.Ctx) (hm : c.model = some (Roberta.robertaModel e r setOrder)) (hc : r.special.cls ≠ INVALID)
    (hsep : r.special.sep ≠ INVALID) (maxTokens : Nat) (text part : List Nat)
    (ht : Roberta.tokenize e r setOrder text = .ok none) (s : St) (hs : s.level = 2) (buf : Option (List Nat))
    (len : Option Nat) :
    ∃ s', bertsTokenizeL (some c) maxTokens (robertaTok e r setOrder part) text buf len s = .ok (⟨false, buf, len⟩, s') ∧
      ∀ f, s.file = some f → s'.out f = s.out f ++
        if maxTokens < part.length + 1 then (countLine (part.length + 1) maxTokens).2 ++ [10] else [] := by
  have h0 : (Roberta.robertaModel e r setOrder).tokenize text = .ok (false, []) := by
    show (Roberta.tokenize e r setOrder text).bind _ = _
    rw [ht]
    rfl
  have h1 : robertaTok e r setOrder part text s = .ok ((false, part), s) := by
    unfold robertaTok
    rw [Load.bindM, C101_default e r setOrder text s (by omega), ht]
    rfl
  have h50 := C50_tokenize_failure c _ hm text [] h0 buf len
  obtain ⟨s', h2, h3⟩ := (C105_warns c _ hm hc hsep maxTokens (robertaTok e r setOrder part) text [] part false s s h0 h1
    buf len (part.length + 1) rfl).1 _ h50
  refine ⟨s', h2, fun f hf => ?_⟩
  rw [h3.written f hf, hs]
  split
  · simp [heard, countLine, line]
  · simp [heard]

/-- C105 for BERT at the default level: the lines about the words that cannot be finished, then the warning or nothing
(if the unknown text has no percent sign, see C97). -/
theorem C105_bert {u : Bert.Icu} {cond : Bert.TokInfo} {v : Vocab.VocabT} {sp : Vocab.Special} {cs ds : List Nat}
    {words : List (List Nat)} {rs : List (List (List Nat × Nat) × Option (List Nat))}
    (h : Reported u cond v sp cs ds words rs) (hh : ∃ x ∈ v.idToTok.map unitsOfUtf8, marker <+: x)
    (c : Api.Ctx) (hm : c.model = some (Bert.bertModel u cond v sp)) (hc : sp.cls ≠ INVALID) (hsep : sp.sep ≠ INVALID)
    (maxTokens : Nat) (s : St) (f : Nat) (hf : s.file = some f) (hl : s.level = 2)
    (ht : ∀ rest ∈ rs.filterMap (·.2), Tame (unitText rest)) (buf ids : List Nat)
    (hids : ids = rs.flatMap (reportIds sp.unk)) :
    ∃ s', bertsTokenizeL (some c) maxTokens (bertTok u cond v sp) (utf8Encode cs) (some buf) (some buf.length) s =
        .ok (⟨true, some ((sp.cls :: ids ++ [sp.sep]).take buf.length ++ buf.drop (min buf.length (ids.length + 2))),
          some (ids.length + 2)⟩, s') ∧
      s'.out f = s.out f ++
        ((rs.filterMap (·.2)).flatMap fun rest => bytes! "  unknown token: " ++ unitText rest ++ [10]) ++
        if maxTokens < ids.length + 2 then (countLine (ids.length + 2) maxTokens).2 ++ [10] else [] := by
  obtain ⟨s1, h1, k1, k2, k3⟩ := C97_default_partial h hh s f hf hl ht
  rw [← hids] at h1
  have h0 : (Bert.bertModel u cond v sp).tokenize (utf8Encode cs) = .ok (true, ids) := by
    show (Bert.tokenize u cond v sp (utf8Encode cs)).bind _ = _
    rw [tokenize_reported h, if_pos hh, ← hids]
    rfl
  have h2 : bertTok u cond v sp (utf8Encode cs) s = .ok ((true, ids), s1) := by
    unfold bertTok
    rw [h1]
    rfl
  have h50 := C50_tokenize c _ hm (utf8Encode cs) ids h0 hc hsep buf buf.length (Nat.le_refl _)
  obtain ⟨s', h3, h4⟩ := (C105_warns c _ hm hc hsep maxTokens (bertTok u cond v sp) (utf8Encode cs) ids [] true s s1 h0
    h2 (some buf) (some buf.length) (ids.length + 2) rfl).1 _ h50
  refine ⟨s', by rw [h3]; simp [Bert.bertModel], ?_⟩
  rw [h4.written f (by rw [k2, hf]), k1, hl, k3]
  split
  · simp [heard, countLine, line]
  · simp [heard]

/-- C105: a model without CLS or SEP token refuses every text, changes nothing and says so. -/
theorem C105_no_special (c : Api.Ctx) (m : Api.ModelI) (hm : c.model = some m)
    (h : m.clsId = INVALID ∨ m.sepId = INVALID) (maxTokens : Nat) (tok : List Nat → LogM (Bool × List Nat))
    (text : List Nat) (buf : Option (List Nat)) (len : Option Nat) (s : St) :
    ∃ s', bertsTokenizeL (some c) maxTokens tok text buf len s = .ok (⟨false, buf, len⟩, s') ∧
      Appended s [line 3 (if m.clsId = INVALID then bytes! "cls_id is not found" else bytes! "sep_id is not found")] s' := by
  have hml : modelL (·.model) (some c) s = .ok (some m, s) := by
    unfold modelL
    simp only [hm]
    rfl
  have says : ∀ t : List Nat, Says (Load.say .error t >>= fun _ => pure (⟨false, buf, len⟩ : Api.Out))
      (.ok ⟨false, buf, len⟩) [line 3 t] := fun t =>
    ((Load.says_say .error t).then (k := fun _ => pure _) (Load.says_pure _)).congr rfl rfl
  obtain ⟨s', h1, h2⟩ := appended_of (lines := [line 3 (if m.clsId = INVALID then bytes! "cls_id is not found" else
    bytes! "sep_id is not found")]) (by
      intro l hl
      rw [List.mem_singleton] at hl
      subst hl
      simp only [line]
      split <;> exact tame_lit (by decide)) s
  refine ⟨s', ?_, h2⟩
  unfold bertsTokenizeL
  rw [Load.bindM, hml, ok_bind']
  by_cases hc : m.clsId = INVALID
  · simp only [if_pos hc] at h1 ⊢
    have := says (bytes! "cls_id is not found") s
    rw [h1] at this
    exact this
  · have hs := h.resolve_left hc
    simp only [if_neg hc, if_pos hs] at h1 ⊢
    have := says (bytes! "sep_id is not found") s
    rw [h1] at this
    exact this

/-- C105 is not more than that: a RoBERTa text without a warning can be too long, because its positions start behind
the padding token's. -/
theorem C105_not_sufficient :
    ¬ (tiny false 4).hp.maxTokens < [0, 2, 0, 2].length ∧
    bertsEval tinyA tinyG (some ⟨some (tiny false 4)⟩) [0, 2, 0, 2] none (some (-1, 0)) (some [0, 0]) (some 2) = .ub :=
  ⟨by decide, by decide +kernel⟩

/-! ## Examples -/

/-- A BERT model, a text and a report that meet the hypotheses of `C105_bert`. -/
example : ∃ (c : Api.Ctx) (rs : _), c.model = some (Bert.bertModel asciiIcu casedInfo noPercent ⟨0, 0, 0, 0, 0, 0, 0⟩) ∧
    Reported asciiIcu casedInfo noPercent ⟨0, 0, 0, 0, 0, 0, 0⟩ (ascii "100 7") (ascii "100 7") [ascii "100", ascii "7"] rs ∧
    (∃ x ∈ noPercent.idToTok.map unitsOfUtf8, marker <+: x) ∧ (∀ rest ∈ rs.filterMap (·.2), Tame (unitText rest)) ∧
    (0 : Nat) ≠ INVALID := by
  obtain ⟨rs, h1, h2⟩ := reported_noPercent
  refine ⟨⟨.bert, some (Bert.bertModel asciiIcu casedInfo noPercent ⟨0, 0, 0, 0, 0, 0, 0⟩)⟩, rs, rfl, h1, ?_, ?_, by decide⟩
  · decide +kernel
  · rw [h2]
    unfold Tame
    decide +kernel

/-- A RoBERTa model and a text that meet the hypotheses of `C105_roberta_fails`. -/
example : ∃ r, Roberta.tokenize (robEnv true) r id (utf8Encode [0xc3]) = .ok none := by
  obtain ⟨r, _, _, h⟩ := C65_nonascii_counterexample true
  exact ⟨r, h⟩

/-- What a call returns and the texts it writes. -/
def saidBy {β : Type} (r : Res (β × St)) : Option (β × List Nat) :=
  match r with
  | .ok (a, s) => some (a, s.out 0)
  | _ => none

example : (evalCall 64 tinyG (tiny true 1) [1, 2] [0, 0] 0 0 1 0).Ends false .tooMany := by
  unfold EvalCall.Ends evalCall tiny
  decide

example : saidBy (evalL 64 tinyA tinyG (tiny true 1) [1, 2] [0, 0] 0 0 1 none 0 (robLog 1)) = some (⟨false, none, 0⟩,
    bytes! "start evaluating BERT\ntoo many tokens (2) for this model (1)\n") := by decide +kernel

example : saidBy (evalL 64 tinyA tinyG (tiny false 4) [1, 2] [0, 2] 0 0 1 none 0 (robLog 0)) = some (⟨false, none, 0⟩,
    bytes! "start evaluating RoBERTa\n  #tokens = 2\ninvalid segment value: 2 (allowed = 0..1)\n") := by decide +kernel

example : saidBy (evalL 64 tinyA tinyG (tiny true 4) [1, 2] [0, 0] (-3) 1 8 (some [7, 7]) 2 (robLog 1)) =
    some (⟨false, some [7, 7], 2⟩, bytes! "start evaluating BERT\n  berts_eval_info {\n    output_layer = -3;\n    pool_type = cls;\n    n_threads = 8\n  }\ninvalid output_layer_value: -3 (expected: -1..1)\n") := by
  decide +kernel

example : saidBy (evalL 64 tinyA tinyG (tiny true 4) [1, 2] [0, 0] 0 0 1 none 0 (robLog 0)) = some (⟨true, none, 4⟩,
    bytes! "start evaluating BERT\n  #tokens = 2\n  berts_eval_info {\n    output_layer = 0;\n    pool_type = none;\n    n_threads = 1\n  }\n  output size = 4\n    given     = 0\nfinish evaluating BERT (dry run)\n") := by
  decide +kernel

example : saidBy (bertsEvalL 64 tinyA tinyG none [1] none none none none (robLog 2)) =
    some ((false, none, none), bytes! "ctx=nullptr\n") := by decide +kernel

example : saidBy (evalLmL 64 tinyA tinyG (tiny true 4) [1, 2, 3] 0 1 none none 0 (robLog 1)) = some (⟨false, none, none, 0⟩,
    bytes! "start LM BERT\ninvalid size of hidden_states, expected to a multiple of 2, but 3\n") := by decide +kernel

example : (evalLmL 64 tinyA tinyG (tiny true 4) [1, 2, 3, 4] 0 1 (some [9, 9]) (some [9, 9]) 2 (robLog 3)).bind
    (fun r => .ok (r.1.ret, r.2.out 0)) = .ok (true, []) := by decide +kernel

example : (evalLmL 64 tinyA tinyG (tiny true 4) [1, 2, 3, 4] 0 1 (some [9, 9]) (some [9, 9]) 2 (robLog 0)).bind
    (fun r => .ok (r.1.ret, decide (bytes! "\nggml_init @ 0000000000000040\n  context buffer size = " <:+: r.2.out 0),
      decide (bytes! "\nfinish LM BERT\nggml_free @ 0000000000000040\n" <:+ r.2.out 0))) = .ok (true, true, true) := by
  decide +kernel

/-- A model with a tokenizer that knows one text. -/
def twoIds : Api.ModelI := ⟨1, 0, 0, 2, 0, 0, 0, 9, fun _ => .ok [], fun _ => .ok 0, fun t => .ok (t == [97], [5, 6])⟩

example : twoIds.clsId ≠ INVALID ∧ twoIds.sepId ≠ INVALID ∧ twoIds.tokenize [97] = .ok (true, [5, 6]) := by decide

/-- A text with a warning, one without, and one that is not tokenized but counted. -/
example :
    saidBy (bertsTokenizeL (some ⟨.bert, some twoIds⟩) 3 (fun t => pure (t == [97], [5, 6])) [97] none (some 0) (robLog 2)) =
      some (⟨true, none, some 4⟩, bytes! "Token count (4) is larger than the max_position_embeddings (3). Calling eval() with this sequence will cause a failure.\n") ∧
    saidBy (bertsTokenizeL (some ⟨.bert, some twoIds⟩) 4 (fun t => pure (t == [97], [5, 6])) [97] none (some 0) (robLog 2)) =
      some (⟨true, none, some 4⟩, []) ∧
    saidBy (bertsTokenizeL (some ⟨.bert, some twoIds⟩) 2 (fun t => pure (t == [97], [5, 6])) [98] none (some 0) (robLog 2)) =
      some (⟨false, none, some 0⟩, bytes! "Token count (3) is larger than the max_position_embeddings (2). Calling eval() with this sequence will cause a failure.\n") := by
  refine ⟨?_, ?_, ?_⟩ <;> decide +kernel

end Berts.Props
