import Verif.Model.EvalLog
import Verif.Proofs.Eval
import Verif.Proofs.LoadLog
import Verif.Props.LoadLog
import Verif.Spec.EvalLog

/-! # Lemmas about evaluation with messages -/

namespace Berts.Eval

open Berts.Spec Berts.Graph Berts.Vocab Berts.Log Berts.Format Berts.Load
open Berts.Bert (runLines runLines_append runLines_one bind_assoc' ok_bind')

variable {α : Type}

/-! ## When a graph is not built -/

theorem M.bind_ok {β γ : Type} {p : M β} {f : β → M γ} {n : Nat} {r : γ × Nat} (h : (p >>= f) n = .ok r) :
    ∃ q, p n = .ok q ∧ f q.1 q.2 = .ok r := by
  have h' : (p n).bind (fun q => f q.1 q.2) = .ok r := h
  cases hp : p n with
  | ok q => rw [hp] at h'; exact ⟨q, rfl, h'⟩
  | ub => rw [hp] at h'; cases h'
  | abort => rw [hp] at h'; cases h'
  | hang => rw [hp] at h'; cases h'

theorem M.pure_ok {β : Type} {a : β} {n : Nat} {r : β × Nat} (h : (pure a : M β) n = .ok r) : r.1 = a := by
  have : Res.ok (a, n) = .ok r := h
  rw [← Res.ok.inj this]

theorem feedForward_none {e : Env α} {eps act : Nat} {l : Layer α} {x : T α} {n : Nat} {r : Option (T α) × Nat}
    (h : feedForward e eps act l x n = .ok r) : r.1 = none ↔ act ≠ 0 := by
  unfold feedForward at h
  obtain ⟨_, _, h⟩ := M.bind_ok h
  split at h
  · rename_i ha
    obtain ⟨_, _, h⟩ := M.bind_ok h
    obtain ⟨_, _, h⟩ := M.bind_ok h
    obtain ⟨_, _, h⟩ := M.bind_ok h
    obtain ⟨_, _, h⟩ := M.bind_ok h
    rw [M.pure_ok h]
    simp_all
  · rename_i ha
    rw [M.pure_ok h]
    simp_all

theorem layerLoop_none {e : Env α} {hp : HParams} {n : Nat} {last : Int} (ls : List (Layer α)) (idx : Nat) (x : T α)
    {k : Nat} {r : Option (T α) × Nat} (h : layerLoop e hp n last idx ls x k = .ok r) :
    r.1 = none ↔ hp.act ≠ 0 ∧ (idx : Int) < last ∧ ls ≠ [] := by
  induction ls generalizing idx x k with
  | nil => rw [layerLoop] at h; rw [M.pure_ok h]; simp
  | cons l ls ih =>
    rw [layerLoop] at h
    split at h
    · rw [M.pure_ok h]
      simp
      omega
    · rename_i hi
      obtain ⟨_, _, h⟩ := M.bind_ok h
      obtain ⟨q, hq, h⟩ := M.bind_ok h
      have hn := feedForward_none hq
      rcases hq1 : q.1 with _ | y
      · rw [hq1] at h
        rw [M.pure_ok h]
        have := hn.mp hq1
        simp [this]
        omega
      · rw [hq1] at h
        have ha : hp.act = 0 := by
          apply Classical.byContradiction
          intro hne
          have := hn.mpr hne
          rw [hq1] at this
          cases this
        rw [ih _ _ h]
        simp [ha]

theorem pooler_some {e : Env α} {hp : HParams} {w : Weights α} {poolType n : Nat} {x : T α} {k : Nat}
    {r : Option (T α) × Nat} (hpt : poolType < 4) (h : pooler e hp w poolType n x k = .ok r) : r.1 ≠ none := by
  have : poolType = 0 ∨ poolType = 1 ∨ poolType = 2 ∨ poolType = 3 := by omega
  unfold pooler at h
  rcases this with rfl | rfl | rfl | rfl
  · rw [M.pure_ok h]; simp
  all_goals
    obtain ⟨_, _, h⟩ := M.bind_ok h
    obtain ⟨_, _, h⟩ := M.bind_ok h
    obtain ⟨_, _, h⟩ := M.bind_ok h
    obtain ⟨_, _, h⟩ := M.bind_ok h
    rw [M.pure_ok h]
    simp

theorem graphProg_none {e : Env α} {hp : HParams} {w : Weights α} {last : Int} {poolType : Nat} {tokens segs : List Nat}
    {pos : List Int} {k : Nat} {r : Option (T α) × Nat} (hpt : poolType < 4)
    (h : graphProg e hp w last poolType tokens segs pos k = .ok r) :
    r.1 = none ↔ hp.act ≠ 0 ∧ 0 < last ∧ w.layers ≠ [] := by
  unfold graphProg at h
  obtain ⟨q, hq, h⟩ := M.bind_ok h
  have hb : q.1 = none ↔ hp.act ≠ 0 ∧ 0 < last ∧ w.layers ≠ [] := by
    unfold buildGraph at hq
    obtain ⟨_, _, hq⟩ := M.bind_ok hq
    split at hq
    · cases hq
    · obtain ⟨y, hy, hq⟩ := M.bind_ok hq
      have hl := layerLoop_none _ _ _ hy
      rcases hy1 : y.1 with _ | z
      · rw [hy1] at hq
        rw [M.pure_ok hq]
        simpa using hl.mp hy1
      · rw [hy1] at hq
        have := pooler_some hpt hq
        rw [hy1] at hl
        constructor
        · intro h; exact absurd h this
        · intro h; have := hl.mpr (by simpa using h); cases this
  rcases hq1 : q.1 with _ | x
  · rw [hq1] at h
    rw [M.pure_ok h]
    simpa using hb.mp hq1
  · rw [hq1] at h
    obtain ⟨_, _, h⟩ := M.bind_ok h
    rw [M.pure_ok h]
    rw [hq1] at hb
    simpa using hb

/-! ## Formats -/

theorem intArg_show (z : Int) : intArg z [] = some (showInt z) := rfl

/-- Shows what a format gives, for its parts. -/
macro "formatz " ps:term : tactic =>
  `(tactic| (
    rw [vformat_parts (ps := $ps) _ (by decide +kernel)]
    simp only [render_lits, render_last, render, List.getElem?_cons_zero, List.getElem?_cons_succ, textArg_text,
      intArg_show, numArg_text, Option.map_some, List.append_assoc, List.append_nil]))

theorem fmt_start (t : List Nat) : vformat (bytes! "start evaluating {}") [textArg t] =
    some (bytes! "start evaluating " ++ t) := by formatz (lits (bytes! "start evaluating ") ++ [.field 0 []])

theorem fmt_tokens (n : Nat) : vformat (bytes! "  #tokens = {}") [numArg n] =
    some (bytes! "  #tokens = " ++ decimal n) := by formatz (lits (bytes! "  #tokens = ") ++ [.field 0 []])

theorem fmt_tooMany (a b : Nat) : vformat (bytes! "too many tokens ({}) for this model ({})") [numArg a, numArg b] =
    some (bytes! "too many tokens (" ++ decimal a ++ bytes! ") for this model (" ++ decimal b ++ bytes! ")") := by
  formatz (lits (bytes! "too many tokens (") ++ .field 0 [] :: (lits (bytes! ") for this model (") ++ .field 1 [] ::
    lits (bytes! ")")))

theorem fmt_segmentCount (a b : Nat) :
    vformat (bytes! "segment count ({}) is not match for tokens ({})") [numArg a, numArg b] =
    some (bytes! "segment count (" ++ decimal a ++ bytes! ") is not match for tokens (" ++ decimal b ++ bytes! ")") := by
  formatz (lits (bytes! "segment count (") ++ .field 0 [] :: (lits (bytes! ") is not match for tokens (") ++
    .field 1 [] :: lits (bytes! ")")))

theorem fmt_segment (a : Nat) (b : Int) :
    vformat (bytes! "invalid segment value: {} (allowed = 0..{})") [numArg a, intArg b] =
    some (bytes! "invalid segment value: " ++ decimal a ++ bytes! " (allowed = 0.." ++ showInt b ++ bytes! ")") := by
  formatz (lits (bytes! "invalid segment value: ") ++ .field 0 [] :: (lits (bytes! " (allowed = 0..") ++
    .field 1 [] :: lits (bytes! ")")))

theorem fmt_pooling (b : Int) :
    vformat (bytes! "unknown pooling type: {}") [intArg b] = some (bytes! "unknown pooling type: " ++ showInt b) := by
  formatz (lits (bytes! "unknown pooling type: ") ++ [.field 0 []])

theorem fmt_settings (a b : Int) (t : List Nat) :
    vformat (bytes! "  berts_eval_info {{\n    output_layer = {};\n    pool_type = {};\n    n_threads = {}\n  }}")
      [intArg a, textArg t, intArg b] =
    some (bytes! "  berts_eval_info {\n    output_layer = " ++ showInt a ++ bytes! ";\n    pool_type = " ++ t ++
      bytes! ";\n    n_threads = " ++ showInt b ++ bytes! "\n  }") := by
  formatz (lits (bytes! "  berts_eval_info {\n    output_layer = ") ++ .field 0 [] ::
    (lits (bytes! ";\n    pool_type = ") ++ .field 1 [] :: (lits (bytes! ";\n    n_threads = ") ++ .field 2 [] ::
    lits (bytes! "\n  }"))))

theorem fmt_outputSize (n : Nat) : vformat (bytes! "  output size = {}") [numArg n] =
    some (bytes! "  output size = " ++ decimal n) := by formatz (lits (bytes! "  output size = ") ++ [.field 0 []])

theorem fmt_given (n : Nat) : vformat (bytes! "    given     = {}") [numArg n] =
    some (bytes! "    given     = " ++ decimal n) := by formatz (lits (bytes! "    given     = ") ++ [.field 0 []])

theorem fmt_dry (t : List Nat) : vformat (bytes! "finish evaluating {} (dry run)") [textArg t] =
    some (bytes! "finish evaluating " ++ t ++ bytes! " (dry run)") := by
  formatz (lits (bytes! "finish evaluating ") ++ .field 0 [] :: lits (bytes! " (dry run)"))

theorem fmt_finish (t : List Nat) : vformat (bytes! "finish evaluating {}") [textArg t] =
    some (bytes! "finish evaluating " ++ t) := by formatz (lits (bytes! "finish evaluating ") ++ [.field 0 []])

theorem fmt_layer (a b c : Int) :
    vformat (bytes! "invalid output_layer_value: {} (expected: {}..{})") [intArg a, intArg b, intArg c] =
    some (bytes! "invalid output_layer_value: " ++ showInt a ++ bytes! " (expected: " ++ showInt b ++ bytes! ".." ++
      showInt c ++ bytes! ")") := by
  formatz (lits (bytes! "invalid output_layer_value: ") ++ .field 0 [] :: (lits (bytes! " (expected: ") ++
    .field 1 [] :: (lits (bytes! "..") ++ .field 2 [] :: lits (bytes! ")"))))

theorem fmt_buffer (n : Nat) : vformat (bytes! "  context buffer size = {}") [numArg n] =
    some (bytes! "  context buffer size = " ++ decimal n) := by
  formatz (lits (bytes! "  context buffer size = ") ++ [.field 0 []])

theorem fmt_startLm (t : List Nat) : vformat (bytes! "start LM {}") [textArg t] =
    some (bytes! "start LM " ++ t) := by formatz (lits (bytes! "start LM ") ++ [.field 0 []])

theorem fmt_finishLm (t : List Nat) : vformat (bytes! "finish LM {}") [textArg t] =
    some (bytes! "finish LM " ++ t) := by formatz (lits (bytes! "finish LM ") ++ [.field 0 []])

theorem fmt_dryLm (t : List Nat) : vformat (bytes! "finish LM {} (dry run)") [textArg t] =
    some (bytes! "finish LM " ++ t ++ bytes! " (dry run)") := by
  formatz (lits (bytes! "finish LM ") ++ .field 0 [] :: lits (bytes! " (dry run)"))

theorem fmt_hidden (a b : Nat) :
    vformat (bytes! "invalid size of hidden_states, expected to a multiple of {}, but {}") [numArg a, numArg b] =
    some (bytes! "invalid size of hidden_states, expected to a multiple of " ++ decimal a ++ bytes! ", but " ++
      decimal b) := by
  formatz (lits (bytes! "invalid size of hidden_states, expected to a multiple of ") ++ .field 0 [] ::
    (lits (bytes! ", but ") ++ [.field 1 []]))

theorem fmt_shape (a b : Nat) :
    vformat (bytes! "  #tokens = {0}\n  hidden_dim = {1}\n") [textArg (bytes! "  input_shape = {0}x{1}"), numArg a, numArg b] =
    some (bytes! "  #tokens =   input_shape = {0}x{1}\n  hidden_dim = " ++ decimal a ++ bytes! "\n") := by
  rw [vformat_parts (ps := lits (bytes! "  #tokens = ") ++ .field 0 [] :: (lits (bytes! "\n  hidden_dim = ") ++
    .field 1 [] :: lits (bytes! "\n"))) _ (by decide +kernel)]
  simp only [render_lits, render_last, render, List.getElem?_cons_zero, List.getElem?_cons_succ, textArg_text,
      numArg_text, Option.map_some]
  rfl

theorem fmt_count (a b : Nat) :
    vformat (bytes! "Token count ({}) is larger than the max_position_embeddings ({}). Calling eval() with this sequence will cause a failure.")
      [numArg a, numArg b] =
    some (bytes! "Token count (" ++ decimal a ++ bytes! ") is larger than the max_position_embeddings (" ++ decimal b ++
      bytes! "). Calling eval() with this sequence will cause a failure.") := by
  formatz (lits (bytes! "Token count (") ++ .field 0 [] ::
    (lits (bytes! ") is larger than the max_position_embeddings (") ++ .field 1 [] ::
    lits (bytes! "). Calling eval() with this sequence will cause a failure.")))

/-! ## Evaluation -/

/-- The call, as the messages show it. -/
def evalCall (adr : Fin (2 ^ 63)) (g : Gg) (m : EModel α) (tokens segs : List Nat) (outputLayer : Int) (poolType : Nat) (threads : Int)
    (outCount : Nat) : EvalCall where
  name := if m.isBert then bytes! "BERT" else bytes! "RoBERTa"
  act := m.hp.act
  maxTokens := m.hp.maxTokens
  segmentCount := m.hp.segments
  layerCount := m.hp.nLayers
  tokens := tokens.length
  segments := segs
  layer := outputLayer
  pool := poolType
  threads := threads
  given := outCount
  needed := if poolType = 0 then m.hp.hidden * tokens.length else m.hp.hidden
  computed := min (layersOf m.hp.nLayers outputLayer) m.w.layers.length
  size := (bufferSize g m.hp poolType tokens.length).calc (layersOf m.hp.nLayers outputLayer)
  addr := adr.val

theorem poolTypeStr_eq {p : Nat} (h : p < 4) : poolTypeStr p = poolNames.getD p [] := by
  have : p = 0 ∨ p = 1 ∨ p = 2 ∨ p = 3 := by omega
  rcases this with rfl | rfl | rfl | rfl <;> rfl

theorem says_fmt {v : Sev} {f : List Nat} {args : List Arg} {t : List Nat} (h : vformat f args = some t) (n : Int)
    (hn : n = match v with | .debug => 0 | .info => 1 | .warn => 2 | .error => 1) :
    Says (sayF v f args) (.ok ()) [line n t] := by
  subst hn
  exact says_sayF h

/-- The outcome `r` after lines, which are as `P` tells if the outcome is a result. -/
def Tell {β : Type} (f : LogM β) (r : Res β) (P : β → List (Int × List Nat) → Prop) : Prop :=
  ∃ ls, Says f r ls ∧ (∀ a, r = .ok a → P a ls) ∧ ∀ l ∈ ls, Props.Tame l.2

theorem Tell.first {β γ : Type} {m : LogM γ} {a : γ} {ls : List (Int × List Nat)} (h : Says m (.ok a) ls)
    (h37 : ∀ l ∈ ls, Props.Tame l.2) {k : γ → LogM β} {r : Res β} {P Q : β → List (Int × List Nat) → Prop}
    (hk : Tell (k a) r P) (hP : ∀ b ls', P b ls' → Q b (ls ++ ls')) : Tell (m >>= k) r Q := by
  obtain ⟨ls', h1, h2, h3⟩ := hk
  refine ⟨ls ++ ls', h.then h1, fun a ha => hP _ _ (h2 a ha), ?_⟩
  intro l hl
  rcases List.mem_append.mp hl with hl | hl
  · exact h37 l hl
  · exact h3 l hl

theorem Tell.one {β γ : Type} {m : LogM γ} {a : γ} {l : Int × List Nat} (h : Says m (.ok a) [l]) (h37 : Props.Tame l.2)
    {k : γ → LogM β} {r : Res β} {P Q : β → List (Int × List Nat) → Prop}
    (hk : Tell (k a) r P) (hP : ∀ b ls', P b ls' → Q b (l :: ls')) : Tell (m >>= k) r Q :=
  Tell.first h (by simpa using h37) hk hP

theorem Tell.pure {β : Type} {a : β} {P : β → List (Int × List Nat) → Prop} (h : P a []) :
    Tell (Pure.pure a) (.ok a) P :=
  ⟨[], says_pure a, fun b hb => by rw [← Res.ok.inj hb]; exact h, by simp⟩

theorem Tell.lift_bind {β γ : Type} {r : Res γ} {k : γ → LogM β} {q : γ → Res β} {P : β → List (Int × List Nat) → Prop}
    (h : ∀ a, r = .ok a → Tell (k a) (q a) P) : Tell (Load.lift r >>= k) (r.bind q) P := by
  cases r with
  | ok a =>
    obtain ⟨ls, h1, h2, h3⟩ := h a rfl
    exact ⟨ls, (says_lift (.ok a)).then h1, h2, h3⟩
  | ub => exact ⟨[], (says_lift _).stop (by simp) _ _, nofun, by simp⟩
  | abort => exact ⟨[], (says_lift _).stop (by simp) _ _, nofun, by simp⟩
  | hang => exact ⟨[], (says_lift _).stop (by simp) _ _, nofun, by simp⟩

open Berts.Props (Tame)

theorem decimal_tame (n : Nat) : Tame (decimal n) := by
  refine ⟨Props.decimal_no_percent n, ?_⟩
  have : ∀ b ∈ decimal n, 48 ≤ b := by
    induction n using Nat.strongRecOn with
    | ind n ih =>
      intro b hb
      rw [decimal] at hb
      split at hb
      · simp only [List.mem_singleton] at hb; omega
      · rw [List.mem_append, List.mem_singleton] at hb
        rcases hb with hb | hb
        · exact ih _ (by omega) b hb
        · omega
  intro h
  have := this 0 h
  omega

theorem append_tame {a b : List Nat} (ha : Tame a) (hb : Tame b) : Tame (a ++ b) := by
  unfold Tame at *
  simp only [List.mem_append, not_or]
  exact ⟨⟨ha.1, hb.1⟩, ha.2, hb.2⟩

theorem tame_lit {a : List Nat} (h : a.all (fun c => c != 37 && c != 0) = true) : Tame a := by
  rw [List.all_eq_true] at h
  exact ⟨fun hm => by have := h _ hm; revert this; decide, fun hm => by have := h _ hm; revert this; decide⟩

theorem showInt_tame (z : Int) : Tame (showInt z) := by
  unfold showInt
  split
  · exact append_tame (tame_lit (by decide)) (decimal_tame _)
  · exact decimal_tame _

theorem name_tame (b : Bool) : Tame (modelName b) := by cases b <;> exact tame_lit (by decide)

theorem pool_tame (p : Nat) : Tame (poolTypeStr p) := by
  unfold poolTypeStr
  split <;> exact tame_lit (by decide)

/-- Shows that a text contains no percent sign and no null character. -/
macro "tame" : tactic =>
  `(tactic| (
    show Tame (Prod.snd (line _ _))
    simp only [line]
    repeat' first | exact decimal_tame _ | exact showInt_tame _ | exact name_tame _ |
      exact pool_tame _ | apply append_tame | exact tame_lit (by decide)))

theorem find_segment {segs : List Nat} {n s : Nat} (h : segs.find? (fun s => decide (n ≤ s)) = some s) :
    (segs.any (fun s => decide (n ≤ s))) = true ∧ ∃ a b, segs = a ++ s :: b ∧ n ≤ s ∧ ∀ x ∈ a, x < n := by
  obtain ⟨hs, a, b, hab, ha⟩ := List.find?_eq_some_iff_append.mp h
  refine ⟨?_, a, b, hab, by simpa using hs, fun x hx => by simpa using ha x hx⟩
  rw [List.any_eq_true]
  exact ⟨s, by rw [hab]; simp, hs⟩

theorem find_none {segs : List Nat} {n : Nat} (h : segs.find? (fun s => decide (n ≤ s)) = none) :
    (segs.any (fun s => decide (n ≤ s))) = false ∧ ∀ x ∈ segs, x < n := by
  have := List.find?_eq_none.mp h
  refine ⟨?_, fun x hx => by simpa using this x hx⟩
  rw [List.any_eq_false]
  exact fun x hx => this x hx

theorem neededCount_none {hp : HParams} {p n : Nat} (h : neededCount hp p n = none) : 4 ≤ p := by
  unfold neededCount at h
  split at h <;> first | cases h | skip
  apply Classical.byContradiction
  intro hp
  have : p = 0 ∨ p = 1 ∨ p = 2 ∨ p = 3 := by omega
  simp_all

theorem neededCount_some {hp : HParams} {p n c : Nat} (h : neededCount hp p n = some c) :
    p < 4 ∧ c = if p = 0 then hp.hidden * n else hp.hidden := by
  unfold neededCount at h
  split at h <;> first | cases h | skip
  all_goals simp_all

theorem lastLayer_some {n : Nat} {L last : Int} (h : lastLayer n L = .ok (some last)) :
    L.natAbs ≤ n ∧ last.toNat = layersOf n L ∧ last = (layersOf n L : Int) := by
  unfold lastLayer at h
  unfold layersOf
  split at h
  · rw [if_pos (by assumption)]
    split at h
    · cases h
    · split at h
      · cases h
      · have := Option.some.inj (Res.ok.inj h)
        omega
  · rw [if_neg (by assumption)]
    split at h
    · cases h
    · have := Option.some.inj (Res.ok.inj h)
      omega

theorem lastLayer_none {n : Nat} {L : Int} (h : lastLayer n L = .ok none) : n < L.natAbs := by
  unfold lastLayer at h
  split at h
  · split at h
    · cases h
    · split at h
      · omega
      · cases h
  · split at h
    · omega
    · cases h

theorem tell_init (adr : Fin (2 ^ 63)) (n : Nat) {β : Type} {k : Unit → LogM β} {r : Res β}
    {P Q : β → List (Int × List Nat) → Prop} (hk : Tell (k ()) r P)
    (hP : ∀ b ls, P b ls → Q b (objectLine (bytes! "ggml_init") adr.val ::
      line 0 (bytes! "  context buffer size = " ++ decimal n) :: ls)) :
    Tell (sayF .debug (bytes! "ggml_init @ {:016x}") [addrArg adr.val] >>= fun _ =>
      sayF .debug (bytes! "  context buffer size = {}") [numArg n] >>= k) r Q :=
  Tell.one (says_fmt (fmt_ggmlInit adr) 0 rfl) (Props.object_tame (tame_lit (by decide)) _)
    (Tell.one (P := P) (Q := fun b ls => Q b (objectLine (bytes! "ggml_init") adr.val :: ls))
      (says_fmt (fmt_buffer n) 0 rfl) (by tame) hk hP) (fun _ _ h => h)

theorem tell_free (adr : Fin (2 ^ 63)) {β : Type} (a : β) :
    Tell (sayF .debug (bytes! "ggml_free @ {:016x}") [addrArg adr.val] >>= fun _ => pure a) (.ok a)
      (fun o ls => o = a ∧ ls = [objectLine (bytes! "ggml_free") adr.val]) :=
  Tell.one (says_fmt (fmt_ggmlFree adr) 0 rfl) (Props.object_tame (tame_lit (by decide)) _)
    (Tell.pure (P := fun o ls => o = a ∧ ls = []) ⟨rfl, rfl⟩) (fun _ _ h => ⟨h.1, by rw [h.2]; rfl⟩)

theorem evalWithL_tell (adr : Fin (2 ^ 63)) (A : Arith α) (g : Gg) (m : EModel α) (tokens segs : List Nat) (L last : Int)
    (poolType : Nat) (hpt : poolType < 4) (hl : lastLayer m.hp.nLayers L = .ok (some last)) (threads : Int)
    (buf : List α) (given needed : Nat) :
    Tell (evalWithL adr A g m tokens segs last poolType buf given needed)
      (evalWith A g m tokens segs last poolType buf given needed)
      (fun o ls => (o.ret = false ∧ (m.hp.act ≠ 0 ∧ 0 < min (layersOf m.hp.nLayers L) m.w.layers.length) ∧
          (evalCall adr g m tokens segs L poolType threads given).settings ++ ls =
            (evalCall adr g m tokens segs L poolType threads given).last .activation ++ [objectLine (bytes! "ggml_free") adr.val]) ∨
        (o.ret = true ∧ (m.hp.act = 0 ∨ min (layersOf m.hp.nLayers L) m.w.layers.length = 0) ∧
          (evalCall adr g m tokens segs L poolType threads given).settings ++ ls =
            (evalCall adr g m tokens segs L poolType threads given).last .done ++ [objectLine (bytes! "ggml_free") adr.val])) := by
  obtain ⟨_, hnat, hint⟩ := lastLayer_some hl
  unfold evalWithL evalWith
  have hs : (evalCall adr g m tokens segs L poolType threads given).size =
      (bufferSize g m.hp poolType tokens.length).calc last.toNat := by rw [hnat]; rfl
  refine tell_init adr _ (P := fun o ls =>
    (o.ret = false ∧ (m.hp.act ≠ 0 ∧ 0 < min (layersOf m.hp.nLayers L) m.w.layers.length) ∧
      ls = [line 3 (bytes! "unknown activation function"), objectLine (bytes! "ggml_free") adr.val]) ∨
    (o.ret = true ∧ (m.hp.act = 0 ∨ min (layersOf m.hp.nLayers L) m.w.layers.length = 0) ∧
      ls = [line 1 (bytes! "finish evaluating " ++ modelName m.isBert), objectLine (bytes! "ggml_free") adr.val])) ?_ ?_
  · apply Tell.lift_bind
    intro r hr
    have hnone := graphProg_none hpt hr
    rcases h1 : r.1 with _ | x
    · refine Tell.one (says_say .error _) (tame_lit (by decide)) (tell_free adr _) ?_
      rintro b ls ⟨rfl, rfl⟩
      obtain ⟨h2, h3, h4⟩ := hnone.mp h1
      refine Or.inl ⟨rfl, ⟨h2, ?_⟩, rfl⟩
      have : 0 < m.w.layers.length := List.length_pos_iff.mpr h4
      omega
    · have hd : m.hp.act = 0 ∨ min (layersOf m.hp.nLayers L) m.w.layers.length = 0 := by
        apply Classical.byContradiction
        intro hn
        rw [not_or] at hn
        have := hnone.mpr ⟨hn.1, by omega, by intro h0; rw [h0] at hn; simp at hn⟩
        rw [h1] at this
        cases this
      apply Tell.lift_bind
      intro _ _
      apply Tell.lift_bind
      intro _ _
      apply Tell.lift_bind
      intro _ _
      refine Tell.one (says_fmt (fmt_finish _) 1 rfl) (by tame) (tell_free adr _) ?_
      rintro b ls ⟨rfl, rfl⟩
      exact Or.inr ⟨rfl, hd, rfl⟩
  · rintro o ls (⟨h1, h2, rfl⟩ | ⟨h1, h2, rfl⟩)
    · refine Or.inl ⟨h1, h2, ?_⟩
      simp only [EvalCall.last, hs, List.append_assoc]
      rfl
    · refine Or.inr ⟨h1, h2, ?_⟩
      simp only [EvalCall.last, hs, List.append_assoc]
      rfl

theorem evalL_tell (adr : Fin (2 ^ 63)) (A : Arith α) (g : Gg) (m : EModel α) (tokens segs : List Nat) (L : Int)
    (poolType : Nat) (threads : Int) (out : Option (List α)) (outCount : Nat) :
    Tell (evalL adr A g m tokens segs L poolType threads out outCount) (eval A g m tokens segs L poolType out outCount)
      (fun o ls => ∃ e, (evalCall adr g m tokens segs L poolType threads outCount).Ends out.isSome e ∧ o.ret = e.ret ∧
        ls = (evalCall adr g m tokens segs L poolType threads outCount).lines e) := by
  unfold evalL
  refine Tell.one (says_fmt (fmt_start _) 1 rfl) (by tame) (Tell.one (says_fmt (fmt_tokens _) 0 rfl) (by tame)
    (P := fun o ls => ∃ e, (evalCall adr g m tokens segs L poolType threads outCount).Ends out.isSome e ∧ o.ret = e.ret ∧
        ls = (evalCall adr g m tokens segs L poolType threads outCount).last e ++ (evalCall adr g m tokens segs L poolType threads outCount).freed e)
    (Q := fun o ls => ∃ e, (evalCall adr g m tokens segs L poolType threads outCount).Ends out.isSome e ∧ o.ret = e.ret ∧
        ls = line 0 (bytes! "  #tokens = " ++ decimal tokens.length) ::
          ((evalCall adr g m tokens segs L poolType threads outCount).last e ++ (evalCall adr g m tokens segs L poolType threads outCount).freed e)) ?_
      (fun b ls h => by obtain ⟨e, h1, h2, rfl⟩ := h; exact ⟨e, h1, h2, rfl⟩)) ?_
  · unfold eval
    split
    · rename_i h1
      refine Tell.one (says_fmt (fmt_tooMany _ _) 1 rfl) (by tame)
        (Tell.pure (P := fun o ls => o.ret = false ∧ ls = []) ⟨rfl, rfl⟩) ?_
      rintro o ls ⟨ho, rfl⟩
      exact ⟨.tooMany, h1, ho, rfl⟩
    · rename_i h1
      have h1' : tokens.length ≤ m.hp.maxTokens := by omega
      split
      · rename_i h2
        refine Tell.one (says_fmt (fmt_segmentCount _ _) 1 rfl) (by tame)
          (Tell.pure (P := fun o ls => o.ret = false ∧ ls = []) ⟨rfl, rfl⟩) ?_
        rintro o ls ⟨ho, rfl⟩
        exact ⟨.segmentCount, ⟨h1', h2⟩, ho, rfl⟩
      · rename_i h2
        have h2' : tokens.length = segs.length := by omega
        cases h3 : segs.find? (fun s => decide (m.hp.segments ≤ s)) with
        | some s =>
          obtain ⟨hany, h3'⟩ := find_segment h3
          rw [if_pos hany]
          refine Tell.one (says_fmt (fmt_segment _ _) 1 rfl) (by tame)
            (Tell.pure (P := fun o ls => o.ret = false ∧ ls = []) ⟨rfl, rfl⟩) ?_
          rintro o ls ⟨ho, rfl⟩
          exact ⟨.segment s, ⟨h1', h2', h3'⟩, ho, rfl⟩
        | none =>
          obtain ⟨hany, h3'⟩ := find_none h3
          rw [if_neg (by rw [hany]; simp)]
          cases h4 : neededCount m.hp poolType tokens.length with
          | none =>
            refine Tell.one (says_fmt (fmt_pooling _) 1 rfl) (by tame)
              (Tell.pure (P := fun o ls => o.ret = false ∧ ls = []) ⟨rfl, rfl⟩) ?_
            rintro o ls ⟨ho, rfl⟩
            exact ⟨.pooling, ⟨h1', h2', h3', neededCount_none h4⟩, ho, rfl⟩
          | some needed =>
            obtain ⟨hpt, hneed⟩ := neededCount_some h4
            have hset : Says (sayWhen 1 do
                sayF .info (bytes! "  berts_eval_info {{\n    output_layer = {};\n    pool_type = {};\n    n_threads = {}\n  }}")
                  [intArg L, textArg (poolTypeStr poolType), intArg threads]
                sayF .debug (bytes! "  output size = {}") [numArg needed]
                sayF .debug (bytes! "    given     = {}") [numArg outCount]) (.ok ())
                (evalCall adr g m tokens segs L poolType threads outCount).settings := by
              refine Says.when (((says_fmt (fmt_settings _ _ _) 1 rfl).then ((says_fmt (fmt_outputSize _) 0 rfl).then
                (says_fmt (fmt_given _) 0 rfl))).congr rfl ?_) ?_
              · rw [poolTypeStr_eq hpt, hneed]; rfl
              · intro l hl
                simp only [EvalCall.settings, List.mem_cons, List.not_mem_nil, or_false] at hl
                rcases hl with rfl | rfl | rfl <;> simp [line]
            have hset37 : ∀ l ∈ (evalCall adr g m tokens segs L poolType threads outCount).settings, Tame l.2 := by
              intro l hl
              simp only [EvalCall.settings, List.mem_cons, List.not_mem_nil, or_false] at hl
              have hp37 : Tame (poolNames.getD (evalCall adr g m tokens segs L poolType threads outCount).pool []) := by
                show Tame (poolNames.getD poolType [])
                rw [← poolTypeStr_eq hpt]
                exact pool_tame _
              rcases hl with rfl | rfl | rfl
              · simp only [line]
                repeat' first | exact hp37 | exact showInt_tame _ | apply append_tame | exact tame_lit (by decide)
              · tame
              · tame
            refine Tell.first hset hset37 (P := fun o ls => ∃ e,
              (evalCall adr g m tokens segs L poolType threads outCount).Ends out.isSome e ∧ o.ret = e.ret ∧
              (evalCall adr g m tokens segs L poolType threads outCount).settings ++ ls =
                (evalCall adr g m tokens segs L poolType threads outCount).last e ++ (evalCall adr g m tokens segs L poolType threads outCount).freed e) ?_ ?_
            · cases out with
              | none =>
                refine Tell.one (says_fmt (fmt_dry _) 1 rfl) (by tame)
                  (Tell.pure (P := fun o ls => o.ret = true ∧ ls = []) ⟨rfl, rfl⟩) ?_
                rintro o ls ⟨ho, rfl⟩
                exact ⟨.dry, ⟨h1', h2', h3', hpt, rfl⟩, ho, rfl⟩
              | some buf =>
                show Tell (evalRunL adr A g m tokens segs L poolType buf outCount needed)
                  (evalRun A g m tokens segs L poolType buf outCount needed) _
                unfold evalRunL evalRun
                apply Tell.lift_bind
                intro l hl
                cases l with
                | none =>
                  refine Tell.one (says_fmt (fmt_layer _ _ _) 1 rfl) (by tame)
                    (Tell.pure (P := fun o ls => o.ret = false ∧ ls = []) ⟨rfl, rfl⟩) ?_
                  rintro o ls ⟨ho, rfl⟩
                  exact ⟨.layer, ⟨h1', h2', h3', hpt, rfl, lastLayer_none hl⟩, ho, rfl⟩
                | some last =>
                  obtain ⟨ls, hs, ho, h37⟩ :=
                    evalWithL_tell adr A g m tokens segs L last poolType hpt hl threads buf outCount needed
                  refine ⟨ls, hs, fun o h => ?_, h37⟩
                  rcases ho o h with ⟨hr, hd, he⟩ | ⟨hr, hd, he⟩
                  · exact ⟨.activation, ⟨h1', h2', h3', hpt, rfl, (lastLayer_some hl).1, hd⟩, hr, he⟩
                  · exact ⟨.done, ⟨h1', h2', h3', hpt, rfl, (lastLayer_some hl).1, hd⟩, hr, he⟩
            · rintro o ls ⟨e, h⟩
              exact ⟨e, h⟩
  · rintro o ls ⟨e, h5, h6, rfl⟩
    exact ⟨e, h5, h6, rfl⟩

/-! ## Language model head -/

/-- The call, as the messages show it. -/
def lmCall (adr : Fin (2 ^ 63)) (g : Gg) (m : EModel α) (hidden : List α) : LmCall where
  isBert := m.isBert
  act := m.hp.act
  hidden := m.hp.hidden
  count := hidden.length
  size := match lmBufferSize g m.isBert m.hp m.vocabCount (hidden.length / m.hp.hidden) with
    | .ok s => s.calc 0
    | _ => 0
  addr := adr.val

theorem lmAct_none {A : Arith α} {b : Bool} {act : Nat} : lmAct A b act = none ↔ b = true ∧ 3 ≤ act := by
  unfold lmAct
  cases b
  · simp
  · simp only [Bool.not_true, Bool.false_eq_true, if_false, true_and]
    split
    · simp
    · simp
    · simp
    · rename_i h0 h1 h2
      have : act ≠ 0 := fun h => h0 h
      have : act ≠ 1 := fun h => h1 h
      have : act ≠ 2 := fun h => h2 h
      simp only [true_iff]
      omega

theorem lmProg_none {e : Env α} {m : EModel α} {hidden : List α} {dflt : α} {k : Nat}
    {r : Option (T α × T Nat) × Nat} (h : lmProg e m hidden dflt k = .ok r) :
    r.1 = none ↔ m.w.lm = none ∨ (m.isBert = true ∧ 3 ≤ m.hp.act) := by
  unfold lmProg at h
  obtain ⟨q, hq, h⟩ := M.bind_ok h
  have hb : q.1 = none ↔ m.w.lm = none ∨ (m.isBert = true ∧ 3 ≤ m.hp.act) := by
    unfold buildLm at hq
    rcases h0 : m.w.lm with _ | lm
    · rw [h0] at hq
      rw [M.pure_ok hq]
      simp
    · rw [h0] at hq
      obtain ⟨_, _, hq⟩ := M.bind_ok hq
      obtain ⟨_, _, hq⟩ := M.bind_ok hq
      obtain ⟨_, _, hq⟩ := M.bind_ok hq
      have ha := lmAct_none (A := e.A) (b := m.isBert) (act := m.hp.act)
      rw [← ha]
      cases hl : lmAct e.A m.isBert m.hp.act with
      | none => rw [hl] at hq; rw [M.pure_ok hq]; simp
      | some act =>
        rw [hl] at hq
        obtain ⟨_, _, hq⟩ := M.bind_ok hq
        obtain ⟨_, _, hq⟩ := M.bind_ok hq
        obtain ⟨_, _, hq⟩ := M.bind_ok hq
        obtain ⟨_, _, hq⟩ := M.bind_ok hq
        obtain ⟨_, _, hq⟩ := M.bind_ok hq
        obtain ⟨_, _, hq⟩ := M.bind_ok hq
        obtain ⟨_, _, hq⟩ := M.bind_ok hq
        obtain ⟨_, _, hq⟩ := M.bind_ok hq
        obtain ⟨_, _, hq⟩ := M.bind_ok hq
        rw [M.pure_ok hq]
        simp
  rcases hq1 : q.1 with _ | x
  · rw [hq1] at h
    rw [M.pure_ok h]
    simpa using hb.mp hq1
  · rw [hq1] at h
    obtain ⟨_, _, h⟩ := M.bind_ok h
    rw [M.pure_ok h]
    rw [hq1] at hb
    simpa using hb

theorem lmRunL_tell (adr : Fin (2 ^ 63)) (A : Arith α) (g : Gg) (m : EModel α) (hidden : List α) (dflt : α) (topK : Int)
    (ids : List Nat) (probs : List α) (given needed : Nat) (hdvd : m.hp.hidden ∣ hidden.length) :
    Tell (lmRunL adr A g m hidden dflt topK ids probs given needed) (lmRun A g m hidden dflt topK ids probs given needed)
      (fun o ls => ∃ e, (lmCall adr g m hidden).Ends true true m.w.lm.isSome e ∧ o.ret = e.ret ∧
        (lmCall adr g m hidden).shape ++ ls = (lmCall adr g m hidden).last e ++ (lmCall adr g m hidden).freed e) := by
  unfold lmRunL lmRun
  apply Tell.lift_bind
  intro size hsize
  have hs : (lmCall adr g m hidden).size = size.calc 0 := by
    show (match lmBufferSize g m.isBert m.hp m.vocabCount (hidden.length / m.hp.hidden) with
    | .ok s => s.calc 0
    | _ => 0) = _
    rw [hsize]
  have hact : ¬ (m.isBert = true ∧ 3 < m.hp.act) := by
    rintro ⟨h1, h2⟩
    simp [lmBufferSize, h1, h2] at hsize
  have hpool : Says (if m.isBert = true ∧ m.hp.act = 3 then say .error (bytes! "gelu_new is not implmented yet")
      else pure ()) (.ok ()) (if (lmCall adr g m hidden).Complains then [line 3 (bytes! "gelu_new is not implmented yet")] else []) := by
    have : (lmCall adr g m hidden).Complains ↔ m.isBert = true ∧ m.hp.act = 3 := Iff.rfl
    by_cases hc : m.isBert = true ∧ m.hp.act = 3
    · rw [if_pos hc, if_pos (this.mpr hc)]
      exact says_say _ _
    · rw [if_neg hc, if_neg (fun h => hc (this.mp h))]
      exact says_pure _
  have hrest : Tell (do
      sayF .debug (bytes! "ggml_init @ {:016x}") [addrArg adr.val]
      sayF .debug (bytes! "  context buffer size = {}") [numArg (size.calc 0)]
      let r ← Load.lift (lmProg ⟨A, g, size.calc 0⟩ m hidden dflt 0)
      match r.1 with
      | none => do
        say .error (match m.w.lm with
          | none => bytes! "LM weights are not loaded"
          | some _ => bytes! "gelu_new is not implmented yet")
        sayF .debug (bytes! "ggml_free @ {:016x}") [addrArg adr.val]
        pure (⟨false, some ids, some probs, needed⟩ : LmOut α)
      | some px => do
        let r ← Load.lift (lmOutput px.2 px.1 m.vocabCount (hidden.length / m.hp.hidden) topK ids probs given needed)
        sayF .info (bytes! "finish LM {}") [textArg (modelName m.isBert)]
        sayF .debug (bytes! "ggml_free @ {:016x}") [addrArg adr.val]
        pure ⟨true, some r.1, some r.2, needed⟩)
      ((lmProg ⟨A, g, size.calc 0⟩ m hidden dflt 0).bind fun r =>
        match r.1 with
        | none => .ok ⟨false, some ids, some probs, needed⟩
        | some px =>
          (lmOutput px.2 px.1 m.vocabCount (hidden.length / m.hp.hidden) topK ids probs given needed).bind fun r =>
            .ok ⟨true, some r.1, some r.2, needed⟩)
      (fun o ls => ∃ e, (lmCall adr g m hidden).Ends true true m.w.lm.isSome e ∧ o.ret = e.ret ∧
        (lmCall adr g m hidden).shape ++ ((if (lmCall adr g m hidden).Complains
          then [line 3 (bytes! "gelu_new is not implmented yet")] else []) ++ ls) = (lmCall adr g m hidden).last e ++ (lmCall adr g m hidden).freed e) := by
    refine tell_init adr _ (P := fun o ls => ∃ e,
      (lmCall adr g m hidden).Ends true true m.w.lm.isSome e ∧ o.ret = e.ret ∧
        (lmCall adr g m hidden).shape ++ ((lmCall adr g m hidden).pool ++ ls) = (lmCall adr g m hidden).last e ++ (lmCall adr g m hidden).freed e) ?_ ?_
    · apply Tell.lift_bind
      intro r hr
      have hnone := lmProg_none hr
      rcases h1 : r.1 with _ | x
      · rw [h1] at hnone
        cases hlm : m.w.lm with
        | none =>
          refine Tell.one (says_say .error (bytes! "LM weights are not loaded")) (tame_lit (by decide))
            (tell_free adr _) ?_
          rintro o ls ⟨rfl, rfl⟩
          refine ⟨.weights, ⟨hdvd, rfl, rfl, rfl⟩, rfl, ?_⟩
          simp only [LmCall.last, List.append_assoc]
          rfl
        | some lm =>
          refine Tell.one (says_say .error (bytes! "gelu_new is not implmented yet")) (tame_lit (by decide))
            (tell_free adr _) ?_
          rintro o ls ⟨rfl, rfl⟩
          have : m.isBert = true ∧ 3 ≤ m.hp.act := by simpa [hlm] using hnone
          have : (lmCall adr g m hidden).Complains := ⟨this.1, by
            show m.hp.act = 3
            have h1 := this.1
            have h2 := this.2
            have : ¬ 3 < m.hp.act := fun h => hact ⟨h1, h⟩
            omega⟩
          refine ⟨.geluNew, ⟨hdvd, rfl, rfl, rfl, this⟩, rfl, ?_⟩
          simp only [LmCall.last, List.append_assoc]
          rfl
      · rw [h1] at hnone
        apply Tell.lift_bind
        intro _ _
        refine Tell.one (says_fmt (fmt_finishLm _) 1 rfl) (by tame)
          (tell_free adr _) ?_
        rintro o ls ⟨rfl, rfl⟩
        have hn : ¬ (m.w.lm = none ∨ (m.isBert = true ∧ 3 ≤ m.hp.act)) := by simpa using hnone
        rw [not_or] at hn
        have hsome : m.w.lm.isSome = true := by
          cases hlm : m.w.lm with
          | none => exact absurd hlm hn.1
          | some _ => rfl
        refine ⟨.done, ⟨hdvd, rfl, rfl, hsome, ?_⟩, rfl, ?_⟩
        · rintro ⟨hc1, hc2⟩
          have hc2' : m.hp.act = 3 := hc2
          exact hn.2 ⟨hc1, by omega⟩
        · simp only [LmCall.last, List.append_assoc]
          rfl
    · rintro o ls ⟨e, h1, h2, h3⟩
      refine ⟨e, h1, h2, ?_⟩
      rw [← h3]
      simp only [LmCall.pool, hs, List.append_assoc]
      rfl
  have := Tell.first hpool (by
      intro l hl
      split at hl
      · rw [List.mem_singleton] at hl; subst hl; exact tame_lit (by decide)
      · cases hl) (k := fun _ => _) hrest (Q := fun o ls => ∃ e, (lmCall adr g m hidden).Ends true true m.w.lm.isSome e ∧
      o.ret = e.ret ∧ (lmCall adr g m hidden).shape ++ ls = (lmCall adr g m hidden).last e ++ (lmCall adr g m hidden).freed e) (fun o ls h => h)
  refine Eq.mp ?_ this
  congr 1
  split <;> rfl

theorem evalLmL_tell (adr : Fin (2 ^ 63)) (A : Arith α) (g : Gg) (m : EModel α) (hidden : List α) (dflt : α) (topK : Int)
    (ids : Option (List Nat)) (probs : Option (List α)) (outCount : Nat) :
    Tell (evalLmL adr A g m hidden dflt topK ids probs outCount) (evalLm A g m hidden dflt topK ids probs outCount)
      (fun o ls => ∃ e, (lmCall adr g m hidden).Ends ids.isSome probs.isSome m.w.lm.isSome e ∧ o.ret = e.ret ∧
        ls = (lmCall adr g m hidden).lines e) := by
  unfold evalLmL
  refine Tell.one (says_fmt (fmt_startLm _) 1 rfl) (by tame) (P := fun o ls => ∃ e,
    (lmCall adr g m hidden).Ends ids.isSome probs.isSome m.w.lm.isSome e ∧ o.ret = e.ret ∧
        ls = (lmCall adr g m hidden).last e ++ (lmCall adr g m hidden).freed e) ?_ ?_
  · unfold evalLm
    split
    · exact ⟨[], says_lift _, nofun, by simp⟩
    · split
      · rename_i h0 h1
        refine Tell.one (says_fmt (fmt_hidden _ _) 1 rfl) (by tame)
          (Tell.pure (P := fun o ls => o.ret = false ∧ ls = []) ⟨rfl, rfl⟩) ?_
        rintro o ls ⟨ho, rfl⟩
        refine ⟨.size, ?_, ho, rfl⟩
        intro hd
        exact h1 (Nat.mod_eq_zero_of_dvd hd)
      · rename_i h0 h1
        have hdvd : m.hp.hidden ∣ hidden.length := Nat.dvd_of_mod_eq_zero (by omega)
        refine Tell.one (says_fmt (fmt_shape _ _) 0 rfl) (by tame) (P := fun o ls => ∃ e,
          (lmCall adr g m hidden).Ends ids.isSome probs.isSome m.w.lm.isSome e ∧ o.ret = e.ret ∧
            (lmCall adr g m hidden).shape ++ ls = (lmCall adr g m hidden).last e ++ (lmCall adr g m hidden).freed e) ?_ ?_
        · rcases ids with _ | i <;> rcases probs with _ | p
          · refine Tell.one (says_fmt (fmt_dryLm _) 1 rfl) (by tame)
              (Tell.pure (P := fun o ls => o.ret = true ∧ ls = []) ⟨rfl, rfl⟩) ?_
            rintro o ls ⟨ho, rfl⟩
            exact ⟨.dry, ⟨hdvd, rfl, rfl⟩, ho, rfl⟩
          · refine Tell.one (says_say .error _) (tame_lit (by decide))
              (Tell.pure (P := fun o ls => o.ret = false ∧ ls = []) ⟨rfl, rfl⟩) ?_
            rintro o ls ⟨ho, rfl⟩
            exact ⟨.buffer, ⟨hdvd, by simp⟩, ho, rfl⟩
          · refine Tell.one (says_say .error _) (tame_lit (by decide))
              (Tell.pure (P := fun o ls => o.ret = false ∧ ls = []) ⟨rfl, rfl⟩) ?_
            rintro o ls ⟨ho, rfl⟩
            exact ⟨.buffer, ⟨hdvd, by simp⟩, ho, rfl⟩
          · exact lmRunL_tell adr A g m hidden dflt topK i p outCount _ hdvd
        · rintro o ls ⟨e, h2, h3, h4⟩
          exact ⟨e, h2, h3, h4⟩
  · rintro o ls ⟨e, h2, h3, rfl⟩
    exact ⟨e, h2, h3, rfl⟩

end Berts.Eval
