import Verif.Model.LoadLog
import Verif.Proofs.BertLog
import Verif.Proofs.Load
import Verif.Proofs.Vocab
import Verif.Spec.LoadLog

/-! # Lemmas about loading with messages -/

namespace Berts.Load

open Berts.Vocab Berts.Log Berts.Format Berts.Spec
open Berts.Bert (runLines runLines_append runLines_one bind_assoc' ok_bind')

/-- `f` has the outcome `r` after writing the lines `ls`. -/
def Says {α : Type} (f : LogM α) (r : Res α) (ls : List (Int × List Nat)) : Prop :=
  ∀ s, f s = (runLines s ls).bind fun s' => r.bind fun a => .ok (a, s')

variable {α β : Type}

theorem says_pure (a : α) : Says (pure a) (.ok a) [] := fun _ => rfl

theorem says_lift (r : Res α) : Says (lift r) r [] := fun _ => rfl

theorem bindM (m : LogM α) (k : α → LogM β) (s : St) : (m >>= k) s = (m s).bind fun x => k x.1 x.2 := rfl

/-- Sequence after a computation that succeeds. -/
theorem Says.then {m : LogM α} {a : α} {ls : List (Int × List Nat)} (h : Says m (.ok a) ls) {k : α → LogM β}
    {r : Res β} {ls' : List (Int × List Nat)} (hk : Says (k a) r ls') : Says (m >>= k) r (ls ++ ls') := by
  intro s
  rw [bindM, h s, runLines_append, bind_assoc', bind_assoc']
  congr 1
  funext s'
  rw [ok_bind', ok_bind']
  exact hk s'

/-- Sequence after a computation that fails. -/
theorem Says.stop {m : LogM α} {r : Res α} {ls : List (Int × List Nat)} (h : Says m r ls) (hr : ∀ a, r ≠ .ok a)
    (k : α → LogM β) (q : α → Res β) : Says (m >>= k) (r.bind q) ls := by
  intro s
  rw [bindM, h s, bind_assoc']
  congr 1
  funext s'
  cases r with
  | ok a => exact absurd rfl (hr a)
  | ub => rfl
  | abort => rfl
  | hang => rfl

theorem Says.congr {m : LogM α} {r r' : Res α} {ls ls' : List (Int × List Nat)} (h : Says m r ls) (hr : r = r')
    (hl : ls = ls') : Says m r' ls' := by rw [← hr, ← hl]; exact h

theorem write_info (s : St) (m : List Nat) :
    (plain s .info m) = runLines s [line 1 m] := by rw [runLines_one]; rfl

theorem says_sayF {v : Sev} {f : List Nat} {args : List Arg} {m : List Nat} (h : vformat f args = some m) :
    Says (sayF v f args) (.ok ()) [line (match v with | .debug => 0 | .info => 1 | .warn => 2 | .error => 1) m] := by
  intro s
  unfold sayF fmt formatted
  rw [h, runLines_one]
  cases v
  all_goals
    simp only [ok_bind', line, isLogging, plain, writeIf]
    by_cases hl : s.level ≤ 0
    all_goals by_cases h1 : s.level ≤ 1
    all_goals by_cases h2 : s.level ≤ 2
    all_goals by_cases h3 : s.level ≤ 3
    all_goals first
      | omega
      | simp [hl, h1, h2, h3]

theorem says_say (v : Sev) (m : List Nat) : Says (say v m) (.ok ()) [line v.val m] := by
  intro s
  rw [runLines_one]
  cases v <;> rfl

theorem runLines_off {ls : List (Int × List Nat)} {s : St} {l : Int} (h : ¬ s.level ≤ l) (hl : ∀ x ∈ ls, x.1 ≤ l) :
    runLines s ls = .ok s := by
  induction ls with
  | nil => rfl
  | cons x ls ih =>
    have := hl x (by simp)
    unfold runLines writeIf
    rw [if_neg (by omega), ok_bind']
    exact ih fun y hy => hl y (by simp [hy])

theorem Says.when {l : Int} {m : LogM Unit} {ls : List (Int × List Nat)} (h : Says m (.ok ()) ls)
    (hl : ∀ x ∈ ls, x.1 ≤ l) : Says (sayWhen l m) (.ok ()) ls := by
  intro s
  unfold sayWhen isLogging
  by_cases h1 : s.level ≤ l
  · rw [if_pos (by simpa using h1)]
    exact h s
  · rw [if_neg (by simpa using h1), runLines_off h1 hl]
    rfl

/-- A sequence whose first part writes nothing. -/
theorem says_lift_bind {r : Res α} {k : α → LogM β} {q : α → Res β} {ls : List (Int × List Nat)}
    (h : ∀ a, r = .ok a → Says (k a) (q a) ls) (hn : (∀ a, r ≠ .ok a) → ls = []) :
    Says (lift r >>= k) (r.bind q) ls := by
  cases r with
  | ok a => exact (says_lift (.ok a)).then (h a rfl)
  | ub => rw [hn (by simp)]; exact (says_lift (.ub : Res α)).stop (by simp) k q
  | abort => rw [hn (by simp)]; exact (says_lift (.abort : Res α)).stop (by simp) k q
  | hang => rw [hn (by simp)]; exact (says_lift (.hang : Res α)).stop (by simp) k q

/-! ## Lines and what they may say -/

/-- All lines that are written at the level WARN are printed as they are. -/
def Calm (ls : List (Int × List Nat)) : Prop := ∀ l ∈ ls, 2 ≤ l.1 → 37 ∉ l.2 ∧ 0 ∉ l.2

theorem calm_nil : Calm [] := by intro l hl; cases hl

theorem Calm.append {a b : List (Int × List Nat)} (ha : Calm a) (hb : Calm b) : Calm (a ++ b) := by
  intro l hl
  rcases List.mem_append.mp hl with h | h
  · exact ha l h
  · exact hb l h

theorem calm_low {a : List (Int × List Nat)} (h : ∀ l ∈ a, l.1 ≤ 1) : Calm a := by
  intro l hl h2
  have := h l hl
  omega

theorem calm_one {l : Int × List Nat} (h : 2 ≤ l.1 → 37 ∉ l.2 ∧ 0 ∉ l.2) : Calm [l] := by
  intro x hx
  rw [List.mem_singleton] at hx
  subst hx
  exact h

theorem calm_debug (m : List Nat) : Calm [line 0 m] := calm_one fun h => absurd (show (2 : Int) ≤ 0 from h) (by decide)

theorem calm_info (m : List Nat) : Calm [line 1 m] := calm_one fun h => absurd (show (2 : Int) ≤ 1 from h) (by decide)

/-- After the lines `pre`, `f` has the outcome `r` and writes lines such that, with those of `pre`, `E` holds; if `C`,
those for the level WARN are printed as they are. -/
def Tells (C : Prop) {α : Type} (f : LogM α) (r : Res α) (pre : List (Int × List Nat))
    (E : α → List (Int × List Nat) → Prop) : Prop :=
  ∃ ls, Says f r ls ∧ (C → Calm (pre ++ ls)) ∧ ∀ a, r = .ok a → E a (pre ++ ls)

section Tells

variable {C : Prop} {pre : List (Int × List Nat)} {E : β → List (Int × List Nat) → Prop}

theorem Tells.pure {a : β} (hc : C → Calm pre) (he : E a pre) : Tells C (pure a) (.ok a) pre E :=
  ⟨[], says_pure a, by simpa using hc, by intro b hb; cases Res.ok.inj hb; simpa using he⟩

theorem Tells.lift {r : Res β} (hc : C → Calm pre) (he : ∀ a, r = .ok a → E a pre) : Tells C (lift r) r pre E :=
  ⟨[], says_lift r, by simpa using hc, by intro b hb; simpa using he b hb⟩

theorem bind_not_ok {r : Res α} (hr : ∀ a, r ≠ .ok a) (q : α → Res β) (b : β) : r.bind q ≠ .ok b := by
  cases r with
  | ok a => exact absurd rfl (hr a)
  | ub => exact fun h => nomatch h
  | abort => exact fun h => nomatch h
  | hang => exact fun h => nomatch h

theorem Tells.bind {m : LogM α} {r : Res α} {E0 : α → List (Int × List Nat) → Prop} {k : α → LogM β} {q : α → Res β}
    (h : Tells C m r pre E0)
    (hk : ∀ a ls, r = .ok a → (C → Calm ls) → E0 a ls → Tells C (k a) (q a) ls E) :
    Tells C (m >>= k) (r.bind q) pre E := by
  obtain ⟨ls, hs, hc, he⟩ := h
  by_cases hr : ∀ a, r ≠ .ok a
  · exact ⟨ls, hs.stop hr k q, hc, fun b hb => absurd hb (bind_not_ok hr q b)⟩
  · have ⟨a, ha⟩ : ∃ a, r = .ok a := Classical.byContradiction fun hn => hr fun a ha => hn ⟨a, ha⟩
    subst ha
    obtain ⟨ls', hs', hc', he'⟩ := hk a (pre ++ ls) rfl hc (he a rfl)
    rw [ok_bind']
    exact ⟨ls ++ ls', hs.then hs', by rw [← List.append_assoc]; exact hc',
      fun b hb => by rw [← List.append_assoc]; exact he' b hb⟩

theorem Tells.lift_bind {r : Res α} {k : α → LogM β} {q : α → Res β} (hc : C → Calm pre)
    (hk : ∀ a, r = .ok a → Tells C (k a) (q a) pre E) : Tells C (Load.lift r >>= k) (r.bind q) pre E :=
  (Tells.lift (E := fun _ ls => ls = pre) hc fun _ _ => rfl).bind fun a ls ha _ hl => by subst hl; exact hk a ha

theorem Tells.after {m : LogM α} {a : α} {ls : List (Int × List Nat)} {k : α → LogM β} {r : Res β}
    (hm : Says m (.ok a) ls) (hk : Tells C (k a) r (pre ++ ls) E) : Tells C (m >>= k) r pre E := by
  obtain ⟨ls', hs', hc', he'⟩ := hk
  exact ⟨ls ++ ls', hm.then hs', by rw [← List.append_assoc]; exact hc',
    fun b hb => by rw [← List.append_assoc]; exact he' b hb⟩

theorem Tells.mono {f : LogM β} {r : Res β} {E' : β → List (Int × List Nat) → Prop} (h : Tells C f r pre E)
    (hE : ∀ a ls, r = .ok a → E a ls → E' a ls) : Tells C f r pre E' := by
  obtain ⟨ls, hs, hc, he⟩ := h
  exact ⟨ls, hs, hc, fun a ha => hE a _ ha (he a ha)⟩

end Tells

/-! ## Formats -/

/-- Text in a format. -/
def lits (b : List Nat) : List Part := b.map Part.lit

theorem render_lits (args : List Arg) (b : List Nat) (ps : List Part) :
    render args (lits b ++ ps) = (render args ps).map (b ++ ·) := by
  induction b with
  | nil => simp [lits]
  | cons c b ih =>
    show render args (.lit c :: (lits b ++ ps)) = _
    rw [render, ih]
    cases render args ps <;> rfl

theorem render_last (args : List Arg) (b : List Nat) : render args (lits b) = some b := by
  have := render_lits args b []
  rw [List.append_nil] at this
  rw [this]
  simp [render]

theorem vformat_parts {f : List Nat} {ps : List Part} (args : List Arg) (h : parse .text .open_ f = some ps) :
    vformat f args = render args ps := by
  unfold vformat
  rw [h]

theorem intArg_text (n : Nat) : intArg (asI32 n) [] = some (showInt (signed32 n)) := rfl

theorem numArg_text (n : Nat) : numArg n [] = some (decimal n) := rfl

theorem textArg_text (t : List Nat) : textArg t [] = some t := rfl

theorem boolArg_text (b : Bool) : boolArg b [] = some (showBool b) := rfl

theorem boolArg_text5 (b : Bool) : boolArg b (bytes! "<5s") = some (showBool5 b) := rfl

theorem hexDigit_eq (n : Nat) : hexDigit n = (bytes! "0123456789abcdef").getD (n % 16) 0 := by
  have h : ∀ m, m < 16 → (if m < 10 then 48 + m else 87 + m) = (bytes! "0123456789abcdef").getD m 0 := by decide +kernel
  exact h (n % 16) (Nat.mod_lt n (by omega))

theorem hex_zero (k : Nat) : hex k 0 = List.replicate k 48 := by
  induction k with
  | zero => rfl
  | succ k ih =>
    rw [hex, Nat.zero_div, ih, List.replicate_succ']
    rfl

theorem hexText_eq (k n : Nat) (h : n < 16 ^ (k + 1)) :
    List.replicate (k + 1 - (hexText n).length) 48 ++ hexText n = hex (k + 1) n := by
  induction k generalizing n with
  | zero =>
    rw [hexText, if_pos (by simpa using h), hexDigit_eq]
    rfl
  | succ k ih =>
    rw [hexText, hex]
    by_cases h1 : n < 16
    · rw [if_pos h1, Nat.div_eq_of_lt h1, hex_zero, hexDigit_eq]
      rfl
    · rw [if_neg h1, ← ih (n / 16) (by rw [Nat.div_lt_iff_lt_mul (by omega), ← Nat.pow_succ]; exact h), hexDigit_eq,
        ← List.append_assoc]
      congr 3
      rw [List.length_append, List.length_singleton]
      omega

theorem addrArg_text (a : Fin (2 ^ 63)) : addrArg a.val (bytes! "016x") = some (hex 16 a.val) := by
  unfold addrArg
  rw [if_pos rfl, hexText_eq 15 a.val (by omega)]

/-- Shows what a format gives, for its parts. -/
macro "formats " ps:term : tactic =>
  `(tactic| (
    rw [vformat_parts (ps := $ps) _ (by decide +kernel)]
    simp only [render_lits, render_last, render, List.getElem?_cons_zero, List.getElem?_cons_succ, textArg_text,
      intArg_text, numArg_text, boolArg_text, boolArg_text5, addrArg_text, Option.map_some, List.append_assoc, List.append_nil]))

theorem fmt_meta (a b c d e f g : List Nat) (x y : Nat) :
    vformat (bytes! "model metadata\n  arch: {0}\n  quantization_version: {1}\n  alignment: {2}\n  name: {3}\n  author: {4}\n  url: {5}\n  description: {6}\n  license: {7}\n  type: {8}")
      [textArg a, intArg (asI32 x), intArg (asI32 y), textArg b, textArg c, textArg d, textArg e, textArg f, textArg g] =
    some (bytes! "model metadata\n  arch: " ++ a ++ bytes! "\n  quantization_version: " ++ showInt (signed32 x) ++
      bytes! "\n  alignment: " ++ showInt (signed32 y) ++ bytes! "\n  name: " ++ b ++ bytes! "\n  author: " ++ c ++
      bytes! "\n  url: " ++ d ++ bytes! "\n  description: " ++ e ++ bytes! "\n  license: " ++ f ++
      bytes! "\n  type: " ++ g) := by
  formats (lits (bytes! "model metadata\n  arch: ") ++ .field 0 [] ::
    (lits (bytes! "\n  quantization_version: ") ++ .field 1 [] :: (lits (bytes! "\n  alignment: ") ++ .field 2 [] ::
    (lits (bytes! "\n  name: ") ++ .field 3 [] :: (lits (bytes! "\n  author: ") ++ .field 4 [] ::
    (lits (bytes! "\n  url: ") ++ .field 5 [] :: (lits (bytes! "\n  description: ") ++ .field 6 [] ::
    (lits (bytes! "\n  license: ") ++ .field 7 [] :: (lits (bytes! "\n  type: ") ++ [.field 8 []])))))))))

theorem fmt_info (x y : Nat) :
    vformat (bytes! "gguf info\n  n_tensors: {}\n  n_kv: {}") [numArg x, numArg y] =
    some (bytes! "gguf info\n  n_tensors: " ++ decimal x ++ bytes! "\n  n_kv: " ++ decimal y) := by
  formats (lits (bytes! "gguf info\n  n_tensors: ") ++ .field 0 [] :: (lits (bytes! "\n  n_kv: ") ++ [.field 1 []]))

theorem fmt_key (n : Nat) (t : List Nat) :
    vformat (bytes! "  key {0}: {1}") [numArg n, textArg t] =
    some (bytes! "  key " ++ decimal n ++ bytes! ": " ++ t) := by
  formats (lits (bytes! "  key ") ++ .field 0 [] :: (lits (bytes! ": ") ++ [.field 1 []]))

theorem fmt_tensor (i d n p o : Nat) (a b : List Nat) :
    vformat (bytes! "  tensor {}\n    name: {} ({})\n    n_dims: {}\n    size: {}\n    padded_size: {}\n    offset: {}")
      [numArg i, textArg a, textArg b, numArg d, numArg n, numArg p, numArg o] =
    some (bytes! "  tensor " ++ decimal i ++ bytes! "\n    name: " ++ a ++ bytes! " (" ++ b ++
      bytes! ")\n    n_dims: " ++ decimal d ++ bytes! "\n    size: " ++ decimal n ++
      bytes! "\n    padded_size: " ++ decimal p ++ bytes! "\n    offset: " ++ decimal o) := by
  formats (lits (bytes! "  tensor ") ++ .field 0 [] :: (lits (bytes! "\n    name: ") ++ .field 1 [] ::
    (lits (bytes! " (") ++ .field 2 [] :: (lits (bytes! ")\n    n_dims: ") ++ .field 3 [] ::
    (lits (bytes! "\n    size: ") ++ .field 4 [] :: (lits (bytes! "\n    padded_size: ") ++ .field 5 [] ::
    (lits (bytes! "\n    offset: ") ++ [.field 6 []])))))))

theorem fmt_load (n : Nat) (t : List Nat) :
    vformat (bytes! "  load {} {}") [numArg n, textArg t] =
    some (bytes! "  load " ++ decimal n ++ bytes! " " ++ t) := by
  formats (lits (bytes! "  load ") ++ .field 0 [] :: (lits (bytes! " ") ++ [.field 1 []]))

theorem fmt_bertsInit (a : Fin (2 ^ 63)) :
    vformat (bytes! "berts_init @ {:016x}") [addrArg a.val] = some (bytes! "berts_init" ++ bytes! " @ " ++ hex 16 a.val) := by
  formats (lits (bytes! "berts_init @ ") ++ [.field 0 (bytes! "016x")])
  rfl

theorem fmt_bertsFree (a : Fin (2 ^ 63)) :
    vformat (bytes! "berts_free @ {:016x}") [addrArg a.val] = some (bytes! "berts_free" ++ bytes! " @ " ++ hex 16 a.val) := by
  formats (lits (bytes! "berts_free @ ") ++ [.field 0 (bytes! "016x")])
  rfl

theorem fmt_ggmlInit (a : Fin (2 ^ 63)) :
    vformat (bytes! "ggml_init @ {:016x}") [addrArg a.val] = some (bytes! "ggml_init" ++ bytes! " @ " ++ hex 16 a.val) := by
  formats (lits (bytes! "ggml_init @ ") ++ [.field 0 (bytes! "016x")])
  rfl

theorem fmt_ggmlFree (a : Fin (2 ^ 63)) :
    vformat (bytes! "ggml_free @ {:016x}") [addrArg a.val] = some (bytes! "ggml_free" ++ bytes! " @ " ++ hex 16 a.val) := by
  formats (lits (bytes! "ggml_free @ ") ++ [.field 0 (bytes! "016x")])
  rfl

theorem fmt_ggufInit (a : Fin (2 ^ 63)) :
    vformat (bytes! "gguf_init @ {:016x}") [addrArg a.val] = some (bytes! "gguf_init" ++ bytes! " @ " ++ hex 16 a.val) := by
  formats (lits (bytes! "gguf_init @ ") ++ [.field 0 (bytes! "016x")])
  rfl

theorem fmt_ggufFree (a : Fin (2 ^ 63)) :
    vformat (bytes! "gguf_free @ {:016x}") [addrArg a.val] = some (bytes! "gguf_free" ++ bytes! " @ " ++ hex 16 a.val) := by
  formats (lits (bytes! "gguf_free @ ") ++ [.field 0 (bytes! "016x")])
  rfl

theorem fmt_size (x y : Nat) :
    vformat (bytes! "  model_size: {} ({} MiB)") [numArg x, numArg y] =
    some (bytes! "  model_size: " ++ decimal x ++ bytes! " (" ++ decimal y ++ bytes! " MiB)") := by
  formats (lits (bytes! "  model_size: ") ++ .field 0 [] :: (lits (bytes! " (") ++ .field 1 [] :: lits (bytes! " MiB)")))

theorem fmt_hparams (a b c d e f g h i : Nat) (x y : List Nat) :
    vformat (bytes! "hparams\n  arch: {}\n  vocab_size: {}\n  hidden_dim: {}\n  n_layers: {}\n  attn_heads: {}\n  max_tokens: {}\n  intermediate_dim: {}\n  segments: {}\n  hidden_act: {}\n  eps: {}\n  init_range: {}")
      [intArg (asI32 a), numArg b, numArg c, numArg d, numArg e, numArg f, numArg g, numArg h, intArg (asI32 i),
       textArg x, textArg y] =
    some (bytes! "hparams\n  arch: " ++ showInt (signed32 a) ++ bytes! "\n  vocab_size: " ++ decimal b ++
      bytes! "\n  hidden_dim: " ++ decimal c ++ bytes! "\n  n_layers: " ++ decimal d ++
      bytes! "\n  attn_heads: " ++ decimal e ++ bytes! "\n  max_tokens: " ++ decimal f ++
      bytes! "\n  intermediate_dim: " ++ decimal g ++ bytes! "\n  segments: " ++ decimal h ++
      bytes! "\n  hidden_act: " ++ showInt (signed32 i) ++ bytes! "\n  eps: " ++ x ++ bytes! "\n  init_range: " ++ y) := by
  formats (lits (bytes! "hparams\n  arch: ") ++ .field 0 [] :: (lits (bytes! "\n  vocab_size: ") ++ .field 1 [] ::
    (lits (bytes! "\n  hidden_dim: ") ++ .field 2 [] :: (lits (bytes! "\n  n_layers: ") ++ .field 3 [] ::
    (lits (bytes! "\n  attn_heads: ") ++ .field 4 [] :: (lits (bytes! "\n  max_tokens: ") ++ .field 5 [] ::
    (lits (bytes! "\n  intermediate_dim: ") ++ .field 6 [] :: (lits (bytes! "\n  segments: ") ++ .field 7 [] ::
    (lits (bytes! "\n  hidden_act: ") ++ .field 8 [] :: (lits (bytes! "\n  eps: ") ++ .field 9 [] ::
    (lits (bytes! "\n  init_range: ") ++ [.field 10 []])))))))))))

theorem fmt_notFound (t : List Nat) :
    vformat (bytes! "token {} is not found") [textArg t] = some (bytes! "token " ++ t ++ bytes! " is not found") := by
  formats (lits (bytes! "token ") ++ .field 0 [] :: lits (bytes! " is not found"))

theorem fmt_instead (a b : List Nat) :
    vformat (bytes! "{} is not defined; use {} instead") [textArg a, textArg b] =
    some (a ++ bytes! " is not defined; use " ++ b ++ bytes! " instead") := by
  formats (.field 0 [] :: (lits (bytes! " is not defined; use ") ++ .field 1 [] :: lits (bytes! " instead")))

theorem fmt_notExist (a : List Nat) :
    vformat (bytes! "{} does not exist in vocab") [textArg a] = some (a ++ bytes! " does not exist in vocab") := by
  formats (.field 0 [] :: lits (bytes! " does not exist in vocab"))

theorem fmt_noId (x y : Nat) :
    vformat (bytes! "token id {} is not found (max={})") [numArg x, numArg y] =
    some (bytes! "token id " ++ decimal x ++ bytes! " is not found (max=" ++ decimal y ++ bytes! ")") := by
  formats (lits (bytes! "token id ") ++ .field 0 [] :: (lits (bytes! " is not found (max=") ++ .field 1 [] ::
    lits (bytes! ")")))

theorem fmt_bool (b : Bool) :
    vformat (bytes! "  do_basic_tokenize = {}") [boolArg b] = some (bytes! "  do_basic_tokenize = " ++ showBool b) := by
  formats (lits (bytes! "  do_basic_tokenize = ") ++ [.field 0 []])

theorem fmt_cond (b c d e f g h i : Bool) :
    vformat (bytes! "  tokenizer_info {{\n    bool normalize = {:<5s};                 // ignored, always normalized with NFC\n    bool remove_replacement_char = {:<5s};   // remove U+FFFD\n    bool remove_null_char = {:<5s};          // remove U+0000\n    bool remove_control_char = {:<5s};       // remove control chars (category C*)\n    bool normalize_whitespaces = {:<5s};     // convert all whitespaces to a normal space (U+0020)\n    bool add_space_around_cjk_char = {:<5s}; // add space around all CJK characters\n    bool do_lower_case = {:<5s};             // force input to be lowercase letters\n    bool strip_accents = {:<5s};             // remove all accent chars\n    bool split_on_punc = {:<5s};             // split words at a punctuation\n  }}")
      [boolArg true, boolArg b, boolArg c, boolArg d, boolArg e, boolArg f, boolArg g, boolArg h, boolArg i] =
    some (bytes! "  tokenizer_info {\n    bool normalize = true ;                 // ignored, always normalized with NFC\n    bool remove_replacement_char = " ++ showBool5 b ++
    bytes! ";   // remove U+FFFD\n    bool remove_null_char = " ++ showBool5 c ++
    bytes! ";          // remove U+0000\n    bool remove_control_char = " ++ showBool5 d ++
    bytes! ";       // remove control chars (category C*)\n    bool normalize_whitespaces = " ++ showBool5 e ++
    bytes! ";     // convert all whitespaces to a normal space (U+0020)\n    bool add_space_around_cjk_char = " ++
      showBool5 f ++
    bytes! "; // add space around all CJK characters\n    bool do_lower_case = " ++ showBool5 g ++
    bytes! ";             // force input to be lowercase letters\n    bool strip_accents = " ++ showBool5 h ++
    bytes! ";             // remove all accent chars\n    bool split_on_punc = " ++ showBool5 i ++
    bytes! ";             // split words at a punctuation\n  }") := by
  formats (lits (bytes! "  tokenizer_info {\n    bool normalize = ") ++ .field 0 (bytes! "<5s") ::
    (lits (bytes! ";                 // ignored, always normalized with NFC\n    bool remove_replacement_char = ") ++
      .field 1 (bytes! "<5s") ::
    (lits (bytes! ";   // remove U+FFFD\n    bool remove_null_char = ") ++ .field 2 (bytes! "<5s") ::
    (lits (bytes! ";          // remove U+0000\n    bool remove_control_char = ") ++ .field 3 (bytes! "<5s") ::
    (lits (bytes! ";       // remove control chars (category C*)\n    bool normalize_whitespaces = ") ++
      .field 4 (bytes! "<5s") ::
    (lits (bytes! ";     // convert all whitespaces to a normal space (U+0020)\n    bool add_space_around_cjk_char = ") ++
      .field 5 (bytes! "<5s") ::
    (lits (bytes! "; // add space around all CJK characters\n    bool do_lower_case = ") ++ .field 6 (bytes! "<5s") ::
    (lits (bytes! ";             // force input to be lowercase letters\n    bool strip_accents = ") ++
      .field 7 (bytes! "<5s") ::
    (lits (bytes! ";             // remove all accent chars\n    bool split_on_punc = ") ++ .field 8 (bytes! "<5s") ::
    lits (bytes! ";             // split words at a punctuation\n  }"))))))))))
  rfl

/-! ## The handles -/

/-- What is said when an object gets an owner. -/
def initLines (pr : Printed) : Rsrc → List (Int × List Nat)
  | .gguf => [objectLine (bytes! "gguf_init") (pr.addr .gguf)]
  | .meta => [objectLine (bytes! "ggml_init") (pr.addr .meta)]
  | .weights => [objectLine (bytes! "ggml_init") (pr.addr .weights)]
  | .ctx => [objectLine (bytes! "berts_init") (pr.addr .ctx)]
  | .model => []

/-- What is said when an object is freed by its owner. -/
def freeLines (pr : Printed) : Rsrc → List (Int × List Nat)
  | .gguf => [objectLine (bytes! "gguf_free") (pr.addr .gguf)]
  | .meta => [objectLine (bytes! "ggml_free") (pr.addr .meta)]
  | .weights => [objectLine (bytes! "ggml_free") (pr.addr .weights)]
  | .ctx => [objectLine (bytes! "berts_free") (pr.addr .ctx)]
  | .model => []

theorem low_init (pr : Printed) (r : Rsrc) : ∀ x ∈ initLines pr r, x.1 ≤ 1 := by
  intro x hx
  cases r <;> simp only [initLines, List.mem_singleton, List.not_mem_nil] at hx <;> subst hx <;> exact Int.zero_le_ofNat 1

theorem low_free (pr : Printed) (r : Rsrc) : ∀ x ∈ freeLines pr r, x.1 ≤ 1 := by
  intro x hx
  cases r <;> simp only [freeLines, List.mem_singleton, List.not_mem_nil] at hx <;> subst hx <;> exact Int.zero_le_ofNat 1

theorem onInit_says (pr : Printed) (r : Rsrc) : Says (onInit pr r) (.ok ()) (initLines pr r) := by
  cases r
  · exact says_sayF (v := .debug) (fmt_ggufInit _)
  · exact says_sayF (v := .debug) (fmt_ggmlInit _)
  · exact says_sayF (v := .debug) (fmt_ggmlInit _)
  · exact says_pure ()
  · exact says_sayF (v := .debug) (fmt_bertsInit _)

theorem onDispose_says (pr : Printed) (r : Rsrc) : Says (onDispose pr r) (.ok ()) (freeLines pr r) := by
  cases r
  · exact says_sayF (v := .debug) (fmt_ggufFree _)
  · exact says_sayF (v := .debug) (fmt_ggmlFree _)
  · exact says_sayF (v := .debug) (fmt_ggmlFree _)
  · exact says_pure ()
  · exact says_sayF (v := .debug) (fmt_bertsFree _)

/-- What a handle owns. -/
def owned (s : Handle.St Rsrc) (h : Nat) : List Rsrc :=
  match s.obj h with
  | some (some r) => [r]
  | _ => []

theorem owned_some {s : Handle.St Rsrc} {h : Nat} {r : Option Rsrc} (e : s.obj h = some r) : owned s h = r.toList := by
  unfold owned
  rw [e]
  cases r <;> rfl

theorem ctorL_says (pr : Printed) (s : Handle.St Rsrc) (h : Nat) (p : Option Rsrc) :
    Says (ctorL pr s h p) (Handle.ctor s h p) (p.toList.flatMap (initLines pr)) := by
  cases p with
  | none => exact says_lift _
  | some r => exact Says.congr ((onInit_says pr r).then (says_lift _)) rfl (by simp)

theorem disposeL_says (pr : Printed) (s : Handle.St Rsrc) (h : Nat) :
    Says (disposeL pr s h) (Handle.dispose s h) ((owned s h).flatMap (freeLines pr)) := by
  unfold disposeL owned
  cases s.obj h with
  | none => exact says_lift _
  | some o =>
    cases o with
    | none => exact says_lift _
    | some r => exact Says.congr ((onDispose_says pr r).then (says_lift _)) rfl (by simp)

section

variable {C : Prop} {pre : List (Int × List Nat)}

theorem dtorL_tells (pr : Printed) (s : Handle.St Rsrc) (h : Nat) (hc : C → Calm pre) :
    Tells C (dtorL pr s h) (Handle.dtor s h) pre
      fun s' ls => ls = pre ++ (owned s h).flatMap (freeLines pr) ∧ ∀ j, j ≠ h → owned s' j = owned s j := by
  have hc1 : C → Calm (pre ++ (owned s h).flatMap (freeLines pr)) := fun c => (hc c).append (calm_low fun x hx => by
    obtain ⟨r, _, hx⟩ := List.mem_flatMap.1 hx
    exact low_free pr r x hx)
  unfold dtorL Handle.dtor
  refine Tells.bind (E0 := fun s' ls => ls = pre ++ (owned s h).flatMap (freeLines pr) ∧
    ∀ j, j ≠ h → s'.obj j = s.obj j) ⟨_, disposeL_says pr s h, hc1, fun s' hs => ⟨rfl, ?_⟩⟩ ?_
  · intro j hj
    unfold Handle.dispose at hs
    split at hs
    · cases hs
    · cases Res.ok.inj hs; rfl
    · cases Res.ok.inj hs
      simp [Handle.put, hj]
  · rintro s' ls _ hls ⟨rfl, ho⟩
    refine Tells.pure hls ⟨rfl, fun j hj => ?_⟩
    simp [owned, Handle.put, hj, ho j hj]

theorem closeGgL_tells (pr : Printed) (l : Ledger) (hc : C → Calm pre) :
    Tells C (closeGgL pr l) (closeGg l) pre
      fun _ ls => ls = pre ++ (owned l.h 1 ++ owned l.h 0).flatMap (freeLines pr) := by
  unfold closeGgL closeGg
  refine (dtorL_tells pr l.h 1 hc).bind ?_
  rintro h ls _ hls ⟨rfl, ho⟩
  refine (dtorL_tells pr h 0 hls).bind ?_
  rintro h' ls _ hls ⟨rfl, -⟩
  refine Tells.pure hls ?_
  rw [ho 0 (by decide), List.flatMap_append, List.append_assoc]

theorem leaveL_tells {α : Type} (pr : Printed) (r : Option (Ctx α)) (l : Ledger) (hc : C → Calm pre) :
    Tells C (leaveL pr r l) (leave r l) pre
      fun x ls => x.1 = r ∧ ls = pre ++ (owned l.h 2 ++ owned l.h 1 ++ owned l.h 0).flatMap (freeLines pr) := by
  unfold leaveL leave
  refine (dtorL_tells pr l.h 2 hc).bind ?_
  rintro h ls _ hls ⟨rfl, ho⟩
  refine (closeGgL_tells pr { l with h := h } hls).bind ?_
  rintro l' ls _ hls rfl
  refine Tells.pure hls ⟨rfl, ?_⟩
  show _ ++ (owned h 1 ++ owned h 0).flatMap (freeLines pr) = _
  rw [ho 0 (by decide), ho 1 (by decide)]
  simp only [List.flatMap_append, List.append_assoc]

theorem ggCtorL_none (pr : Printed) :
    Says (ggCtorL pr Handle.St.init 0 1 3 none) (Handle.ggCtor Handle.St.init 0 1 3 none) [] := fun _ => rfl

theorem ggCtorL_some (pr : Printed) :
    Says (ggCtorL pr Handle.St.init 0 1 3 (some (.gguf, .meta)))
      (Handle.ggCtor Handle.St.init 0 1 3 (some (.gguf, .meta))) [objectLine (bytes! "gguf_init") (pr.addr .gguf)] := by
  have h1 : ∀ h, Says (ctorL pr ⟨Handle.put (Handle.put (Handle.put (fun _ => none) 0 (some none)) 1 (some none)) 0
      (some (some .meta)), []⟩ 3 (some .gguf)) (.ok h) (initLines pr .gguf) → Says (moveAssignL pr h 1 3 >>= fun h => dtorL pr h 3)
      (Handle.ggCtor Handle.St.init 0 1 3 (some (.gguf, .meta))) [] →
      Says (ggCtorL pr Handle.St.init 0 1 3 (some (.gguf, .meta)))
        (Handle.ggCtor Handle.St.init 0 1 3 (some (.gguf, .meta))) (initLines pr .gguf ++ []) :=
    fun h a b => a.then (k := fun h => moveAssignL pr h 1 3 >>= fun h => dtorL pr h 3) b
  refine Says.congr (h1 _ (Says.congr (ctorL_says pr _ 3 (some .gguf)) rfl (by simp)) fun _ => rfl) rfl ?_
  exact List.append_nil _

end

/-! ## The file -/

theorem strOr_text {g : Gguf} {k : String} {s : List Nat} (h : strOr g k = .ok s) : textOf g k = s := by
  unfold strOr find at h
  unfold textOf valueOf
  split at h
  · rename_i hk; rw [hk]; exact Res.ok.inj h
  · rename_i hk; rw [hk]; exact Res.ok.inj h
  · cases h

theorem u32Opt_number {g : Gguf} {k : String} {n : Option Nat} (h : u32Opt g k = .ok n) :
    numberOf g k = showInt (signed32 (n.getD (2 ^ 32 - 1))) := by
  unfold u32Opt find at h
  unfold numberOf valueOf
  split at h
  · rename_i hk; rw [hk]; cases Res.ok.inj h; decide +kernel
  · rename_i hk; rw [hk]; cases Res.ok.inj h; rfl
  · cases h

theorem ftypeName_ok (t : Nat) :
    TypeNames.ftypeName t = (ftype t).bind fun _ => .ok (typeNames.getD t []) := by
  unfold TypeNames.ftypeName ftype
  have hl : TypeNames.ftypes.length = 19 := by decide
  rw [hl]
  by_cases h : t < 19
  · rw [if_neg (by omega), if_pos h, ok_bind']
    have : ∀ t, t < 19 → TypeNames.ftypes[t]? = some (typeNames.getD t []) := by decide +kernel
    rw [this t h]
  · rw [if_pos (by omega), if_neg h]
    rfl

theorem keysL_says (kv : List (List Nat × Kv)) (i : Nat) :
    Says (keysL i kv) (.ok ()) ((kv.zipIdx i).map fun p => line 0 (bytes! "  key " ++ decimal p.2 ++ bytes! ": " ++ p.1.1)) := by
  induction kv generalizing i with
  | nil => exact says_pure ()
  | cons p kv ih =>
    unfold keysL
    rw [List.zipIdx_cons, List.map_cons]
    exact (says_sayF (v := .debug) (fmt_key i p.1)).then (ih (i + 1))

theorem low_file (g : Gguf) (t : Nat) : ∀ x ∈ fileLines g t, x.1 ≤ 1 := by
  intro x hx
  unfold fileLines at hx
  rcases List.mem_append.1 hx with hx | hx
  · simp only [List.mem_cons, List.not_mem_nil, or_false] at hx
    rcases hx with rfl | rfl <;> exact Int.le_refl 1
  · obtain ⟨_, _, rfl⟩ := List.mem_map.1 hx
    exact Int.zero_le_ofNat 1

theorem generalL_tells {C : Prop} {pre : List (Int × List Nat)} (g : Gguf) (hc : C → Calm pre) :
    Tells C (generalL g) (general g) pre
      fun _ ls => ∃ t, u32 g "general.file_type" = .ok t ∧ ls = pre ++ fileLines g t := by
  unfold generalL general
  refine Tells.lift_bind hc fun arch h1 => ?_
  refine Tells.lift_bind hc fun ver h2 => ?_
  refine Tells.lift_bind hc fun align h3 => ?_
  refine Tells.lift_bind hc fun name h4 => ?_
  refine Tells.lift_bind hc fun author h5 => ?_
  refine Tells.lift_bind hc fun url h6 => ?_
  refine Tells.lift_bind hc fun desc h7 => ?_
  refine Tells.lift_bind hc fun license h8 => ?_
  refine Tells.lift_bind hc fun t h9 => ?_
  have hr : ftype t = (TypeNames.ftypeName t).bind fun _ => ftype t := by
    rw [ftypeName_ok]
    unfold ftype
    split <;> rfl
  rw [hr]
  refine Tells.lift_bind hc fun type h10 => ?_
  have h11 : ftype t = .ok () ∧ type = typeNames.getD t [] := by
    rw [ftypeName_ok] at h10
    unfold ftype at h10 ⊢
    split at h10
    · rename_i h
      rw [if_pos h]
      exact ⟨rfl, (Res.ok.inj h10).symm⟩
    · cases h10
  rw [h11.1]
  refine ⟨fileLines g t, ?_, ?_, fun _ _ => ⟨t, h9, rfl⟩⟩
  · refine Says.congr ((says_sayF (fmt_meta ..)).then ((says_sayF (fmt_info ..)).then ((keysL_says g.kv 0).when (l := 0)
      fun x hx => ?_))) rfl ?_
    · obtain ⟨_, _, rfl⟩ := List.mem_map.1 hx
      exact Int.le_refl 0
    unfold fileLines
    rw [strOr_text h1, strOr_text h4, strOr_text h5, strOr_text h6, strOr_text h7, strOr_text h8, u32Opt_number h2,
      u32Opt_number h3, h11.2]
    rfl
  · intro c
    exact (hc c).append (calm_low (low_file g t))

theorem metaTensor_entry {g : Gguf} {t m : TInfo} (h : metaTensor g t.name = some m) :
    entryFor g t = m ∧ setName m.name = t.name := by
  unfold metaTensor at h
  refine ⟨?_, by simpa using List.find?_some h⟩
  unfold entryFor
  have e : (fun m : TInfo => m.name.take 63 == t.name) = fun m => setName m.name == t.name := rfl
  rw [e, h]
  rfl

theorem sizeLoopL_tells {C : Prop} {pre : List (Int × List Nat)} (gg : Graph.Gg) (g : Gguf) (dir : List TInfo)
    (i acc : Nat) (hc : C → Calm pre) :
    Tells C (sizeLoopL gg g i dir acc) (sizeLoop gg g dir acc) pre
      fun _ ls => ls = pre ++ (dir.zipIdx i).map fun p => entryLine gg.align g p.1 p.2 := by
  induction dir generalizing i acc pre with
  | nil => exact Tells.pure hc (List.append_nil _).symm
  | cons t dir ih =>
    unfold sizeLoopL sizeLoop
    cases hm : metaTensor g t.name with
    | none => exact Tells.lift hc (by rintro a ⟨⟩)
    | some m =>
      obtain ⟨h1, h2⟩ := metaTensor_entry hm
      refine Tells.after (says_sayF (v := .debug) (fmt_tensor ..)) ?_
      refine (ih (i + 1) _ fun c => (hc c).append (calm_debug _)).mono ?_
      rintro _ ls _ rfl
      rw [List.zipIdx_cons, List.map_cons, List.append_assoc]
      unfold entryLine
      rw [h1, h2]
      rfl

theorem loadLoopL_tells {C : Prop} {pre : List (Int × List Nat)} (gg : Graph.Gg) (g : Gguf) (pool : Nat)
    (junk : Nat → Nat → Nat) (dir : List TInfo) (i used : Nat) (s : Stream) (acc : List LT) (hc : C → Calm pre) :
    Tells C (loadLoopL gg g pool junk i dir used s acc) (loadLoop gg g pool junk i dir used s acc) pre
      fun r ls => r.isSome → ls = pre ++ (dir.zipIdx i).map fun p =>
        line 0 (bytes! "  load " ++ decimal p.2 ++ bytes! " " ++ p.1.name) := by
  induction dir generalizing i used s acc pre with
  | nil => exact Tells.pure hc fun _ => (List.append_nil _).symm
  | cons t dir ih =>
    unfold loadLoopL loadLoop
    refine Tells.after ((says_sayF (v := .debug) (fmt_load i t.name)).when (l := 0) (by simp [line])) ?_
    have hc1 := fun c => (hc c).append (calm_debug (bytes! "  load " ++ decimal i ++ bytes! " " ++ t.name))
    cases hm : metaTensor g t.name with
    | none => exact Tells.lift hc1 (by rintro a ⟨⟩)
    | some m =>
      refine Tells.lift_bind hc1 fun used' _ => ?_
      simp only
      split
      · exact Tells.pure hc1 (by simp)
      · refine (ih (i + 1) _ _ _ hc1).mono ?_
        rintro r ls _ h hr
        rw [h hr, List.zipIdx_cons, List.map_cons, List.append_assoc]
        rfl

theorem initGgL_tells {C : Prop} {pre : List (Int × List Nat)} (gg : Graph.Gg) (g : Gguf) (hc : C → Calm pre) :
    Tells C (initGgL gg g) (initGg gg g) pre
      fun size ls => ∃ t, u32 g "general.file_type" = .ok t ∧
        ls = pre ++ fileLines g t ++ dirLines gg.align g ++ [sizeLine size] := by
  unfold initGgL initGg
  refine (generalL_tells g hc).bind ?_
  rintro _ ls _ hls ⟨t, ht, rfl⟩
  have hr : ∀ r : Res Nat, r = r.bind fun h => .ok h := fun r => by cases r <;> rfl
  rw [hr (sizeLoop gg g g.dir 0)]
  refine (sizeLoopL_tells gg g g.dir 0 0 hls).bind ?_
  rintro size ls _ hls rfl
  refine Tells.after (says_sayF (fmt_size _ _)) ?_
  refine Tells.pure ?_ ⟨t, ht, ?_⟩
  · intro c
    exact (hls c).append (calm_info _)
  · unfold sizeLine
    rw [Nat.div_div_eq_div_mul]
    rfl

theorem hparamsL_tells {C : Prop} {pre : List (Int × List Nat)} (dbl : Nat → List Nat) (g : Gguf) (hc : C → Calm pre) :
    Tells C (hparamsL dbl g) (hparams g) pre fun h ls => ls = pre ++ [hparamsLine dbl h] := by
  unfold hparamsL
  have hr : ∀ r : Res Hp, r = r.bind fun h => .ok h := fun r => by cases r <;> rfl
  generalize hparams g = r
  conv => arg 3; rw [hr r]
  refine Tells.lift_bind hc fun h _ => ?_
  refine Tells.after (says_sayF (fmt_hparams ..)) ?_
  exact Tells.pure (fun c => (hc c).append (calm_info _)) rfl

end Berts.Load
