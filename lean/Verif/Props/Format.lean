import Verif.Spec.Format
import Verif.Props.Log
import Verif.Model.Load

/-! # Formatted messages: C95 -/

namespace Berts.Props

open Berts.Format Berts.Spec Berts.Log
open Berts.Vocab (ascii decimal)

/-- The numbers of the arguments shown. -/
def shownArgs (ps : List Part) : List Nat := ps.filterMap fun p => match p with
  | .lit _ => none
  | .field i _ => some i

/-- The texts between the fields, and their specifications. -/
def textsOf : List Part → List (List Nat) × List (List Nat)
  | [] => ([[]], [])
  | .lit c :: ps =>
    match textsOf ps with
    | (l :: ls, ss) => ((c :: l) :: ls, ss)
    | x => x
  | .field _ spec :: ps => ([] :: (textsOf ps).1, spec :: (textsOf ps).2)

theorem textsOf_ne (ps : List Part) : ∃ l ls, (textsOf ps).1 = l :: ls := by
  induction ps with
  | nil => exact ⟨[], [], rfl⟩
  | cons p ps ih =>
    obtain ⟨l, ls, h⟩ := ih
    cases p with
    | lit c =>
      refine ⟨c :: l, ls, ?_⟩
      rcases hx : textsOf ps with ⟨a, b⟩
      rw [hx] at h
      simp only at h
      subst h
      simp [textsOf, hx]
    | field i spec => exact ⟨[], _, rfl⟩

theorem textsOf_lit (c : Nat) (ps : List Part) (l : List Nat) (ls : List (List Nat)) (h : (textsOf ps).1 = l :: ls) :
    textsOf (.lit c :: ps) = ((c :: l) :: ls, (textsOf ps).2) := by
  rcases hx : textsOf ps with ⟨a, b⟩
  rw [hx] at h
  simp only at h
  subst h
  simp [textsOf, hx]

theorem textsOf_length (ps : List Part) (k m : Nat) (h : shownArgs ps = List.range' k m) :
    (textsOf ps).1.length = m + 1 ∧ (textsOf ps).2.length = m := by
  induction ps generalizing k m with
  | nil =>
    have : m = 0 := by
      have := congrArg List.length h
      simpa [shownArgs] using this.symm
    subst this
    exact ⟨rfl, rfl⟩
  | cons p ps ih =>
    cases p with
    | lit c =>
      obtain ⟨l, ls, hl⟩ := textsOf_ne ps
      have := ih k m h
      rw [textsOf_lit c ps l ls hl]
      rw [hl] at this
      exact this
    | field i spec =>
      have h' : i :: shownArgs ps = List.range' k m := h
      cases m with
      | zero => simp at h'
      | succ m =>
        rw [List.range'_succ] at h'
        simp only [List.cons.injEq] at h'
        have := ih (k + 1) m h'.2
        simp [textsOf, this]

theorem weave_cons (c : Nat) (l : List Nat) (ls ts : List (List Nat)) :
    weave ((c :: l) :: ls) ts = c :: weave (l :: ls) ts := by
  cases ts <;> simp [weave]

theorem render_weave (args : List Arg) (ps : List Part) (k m : Nat) (h : shownArgs ps = List.range' k m)
    (hlen : args.length = k + m) (texts : List (List Nat))
    (ht : List.zipWith (fun (a : Arg) s => a s) (args.drop k) (textsOf ps).2 = texts.map some) :
    render args ps = some (weave (textsOf ps).1 texts) := by
  induction ps generalizing k m texts with
  | nil =>
    simp only [textsOf, List.zipWith_nil_right] at ht
    have : texts = [] := by simpa using ht.symm
    subst this
    rfl
  | cons p ps ih =>
    cases p with
    | lit c =>
      obtain ⟨l, ls, hl⟩ := textsOf_ne ps
      rw [textsOf_lit c ps l ls hl] at ht ⊢
      have := ih k m h hlen texts ht
      simp only [render, this, Option.map_some]
      rw [hl, weave_cons]
    | field i spec =>
      have h' : i :: shownArgs ps = List.range' k m := h
      cases m with
      | zero => simp at h'
      | succ m =>
        rw [List.range'_succ] at h'
        simp only [List.cons.injEq] at h'
        obtain ⟨rfl, h2⟩ := h'
        have hi : i < args.length := by omega
        rw [List.drop_eq_getElem_cons hi] at ht
        simp only [textsOf, List.zipWith_cons_cons] at ht
        match texts, ht with
        | t :: texts, ht =>
          simp only [List.map_cons, List.cons.injEq] at ht
          have := ih (i + 1) m h2 (by omega) texts ht.2
          simp only [render, List.getElem?_eq_getElem hi, ht.1, this, Option.map_some, textsOf, weave, List.nil_append]

theorem shows_of (f : List Nat) (ps : List Part) (n : Nat) (hp : parse .text .open_ f = some ps)
    (h : shownArgs ps = List.range n) : ShowsArgs (vformat f) n (textsOf ps).1 (textsOf ps).2 := by
  rw [List.range_eq_range'] at h
  obtain ⟨h1, h2⟩ := textsOf_length ps 0 n h
  refine ⟨h1, h2, ?_⟩
  intro args texts hlen ht
  unfold vformat
  rw [hp]
  exact render_weave args ps 0 n h (by omega) texts (by simpa using ht)

/-- The call that goes wrong. -/
def badSite (s : Site) : Bool := s.line == 237 && s.file == "model_berts.hpp"

/-- What is checked of each call. -/
def siteOk (s : Site) : Bool :=
  badSite s || match parse .text .open_ s.fmt with
    | none => false
    | some ps => shownArgs ps == List.range s.argc && (textsOf ps).1.all (fun l => !l.contains 37 && !l.contains 0)

theorem sites_ok : ∀ s ∈ sites, siteOk s = true := by decide +kernel

/-- C95, except for the debug message of `eval_lm`: formatting the message of any call succeeds whatever the
arguments are, and shows each argument once and in order; the fixed texts have no percent signs or NULs.
(Missing: model_berts.hpp:237, see the counterexample.) -/
theorem C95_shows_partial (s : Site) (hs : s ∈ sites) (hb : badSite s = false) :
    ∃ lits specs, ShowsArgs (vformat s.fmt) s.argc lits specs ∧ ∀ l ∈ lits, Tame l := by
  have h := sites_ok s hs
  unfold siteOk at h
  rw [hb, Bool.false_or] at h
  split at h
  · cases h
  · rename_i ps hp
    simp only [Bool.and_eq_true, beq_iff_eq, List.all_eq_true, Bool.not_eq_true', ] at h
    refine ⟨_, _, shows_of s.fmt ps s.argc hp h.1, ?_⟩
    intro l hl
    have := h.2 l hl
    exact ⟨by simpa using this.1, by simpa using this.2⟩

example : (⟨"gguf.cpp", 162, some .info, (bytes! "loading model: {}"), 1⟩ : Site) ∈ sites ∧
    badSite ⟨"gguf.cpp", 162, some .info, (bytes! "loading model: {}"), 1⟩ = false :=
  ⟨List.mem_of_getElem? (i := 32) rfl, by decide⟩

theorem weave_tame (ls ts : List (List Nat)) (hl : ∀ l ∈ ls, Tame l) (ht : ∀ t ∈ ts, Tame t) : Tame (weave ls ts) := by
  have app : ∀ a b : List Nat, Tame a → Tame b → Tame (a ++ b) := by
    intro a b ha hb
    simp only [Tame, List.mem_append, not_or] at *
    exact ⟨⟨ha.1, hb.1⟩, ⟨ha.2, hb.2⟩⟩
  induction ts generalizing ls with
  | nil =>
    have : weave ls [] = ls.flatten := by cases ls <;> rfl
    rw [this]
    induction ls with
    | nil => simp [Tame]
    | cons l ls ih =>
      rw [List.flatten_cons]
      exact app _ _ (hl l (by simp)) (ih (fun x hx => hl x (by simp [hx])) (by cases ls <;> rfl))
  | cons t ts ih =>
    cases ls with
    | nil => simp [weave, Tame]
    | cons l ls =>
      exact app _ _ (app _ _ (hl l (by simp)) (ht t (by simp)))
        (ih ls (fun x hx => hl x (by simp [hx])) (fun x hx => ht x (by simp [hx])))

theorem render_missing (args : List Arg) (ps : List Part) (i : Nat) (h : i ∈ shownArgs ps) (hi : args.length ≤ i) :
    render args ps = none := by
  induction ps with
  | nil => cases h
  | cons p ps ih =>
    cases p with
    | lit c => simp [render, ih h]
    | field j spec =>
      have h' : i ∈ j :: shownArgs ps := h
      unfold render
      split
      · rfl
      · split
        · rfl
        · rename_i a ha _ _ _
          rcases List.mem_cons.mp h' with rfl | h'
          · have := (List.getElem?_eq_some_iff.mp ha).1
            omega
          · rw [ih h']; rfl

/-- C95, why the number of the arguments matters: every call of the library gives exactly as many arguments as its
message needs; with fewer the exception would end the process. -/
theorem C95_missing (s : Site) (hs : s ∈ sites) (hb : badSite s = false) (args : List Arg)
    (h : args.length < s.argc) : Format.fmt s.fmt args = .abort := by
  have hk := sites_ok s hs
  unfold siteOk at hk
  rw [hb, Bool.false_or] at hk
  split at hk
  · cases hk
  · rename_i ps hp
    simp only [Bool.and_eq_true, beq_iff_eq] at hk
    unfold Format.fmt vformat
    simp only [hp]
    rw [render_missing args ps args.length (by rw [hk.1]; simp [h]) (Nat.le_refl _)]

theorem parse_plain (num : Numbering) (a r : List Nat) (ha : ∀ c ∈ a, c ≠ 123 ∧ c ≠ 125) :
    parse .text num (a ++ r) = (parse .text num r).map (a.map Part.lit ++ ·) := by
  induction a with
  | nil => simp
  | cons c a ih =>
    obtain ⟨h1, h2⟩ := ha c (by simp)
    rw [List.cons_append, parse, if_neg h1, if_neg h2, ih fun x hx => ha x (by simp [hx]), Option.map_map]
    rfl

/-- C95, why the fields of a message are either all numbered or all not: a format that mixes the two is an error, which
would end the process. -/
theorem C95_mixed (a b r : List Nat) (ha : ∀ c ∈ a, c ≠ 123 ∧ c ≠ 125) (hb : ∀ c ∈ b, c ≠ 123 ∧ c ≠ 125)
    (args : List Arg) :
    Format.fmt (a ++ (bytes! "{0}" ++ (b ++ (bytes! "{}" ++ r)))) args = .abort ∧
    Format.fmt (a ++ (bytes! "{}" ++ (b ++ (bytes! "{0}" ++ r)))) args = .abort := by
  have h1 : parse .text .open_ (a ++ (bytes! "{0}" ++ (b ++ (bytes! "{}" ++ r)))) = none := by
    rw [parse_plain _ a _ ha]
    have : parse .text .open_ (bytes! "{0}" ++ (b ++ (bytes! "{}" ++ r))) =
        (parse .text .manual (b ++ (bytes! "{}" ++ r))).map (Part.field 0 [] :: ·) := rfl
    rw [this, parse_plain _ b _ hb]
    have : parse .text .manual (bytes! "{}" ++ r) = none := rfl
    rw [this]
    rfl
  have h2 : parse .text .open_ (a ++ (bytes! "{}" ++ (b ++ (bytes! "{0}" ++ r)))) = none := by
    rw [parse_plain _ a _ ha]
    have : parse .text .open_ (bytes! "{}" ++ (b ++ (bytes! "{0}" ++ r))) =
        (parse .text (.auto 1) (b ++ (bytes! "{0}" ++ r))).map (Part.field 0 [] :: ·) := rfl
    rw [this, parse_plain _ b _ hb]
    have : parse .text (.auto 1) (bytes! "{0}" ++ r) = none := rfl
    rw [this]
    rfl
  unfold Format.fmt vformat
  rw [h1, h2]
  exact ⟨rfl, rfl⟩

/-- The number written in lower-case hexadecimal digits. -/
def hexValue : List Nat → Option Nat
  | ds => ds.foldl (fun v d => v.bind fun n =>
      if 48 ≤ d ∧ d ≤ 57 then some (16 * n + (d - 48)) else if 97 ≤ d ∧ d ≤ 102 then some (16 * n + (d - 87)) else none)
    (some 0)

/-- C95 for numbers in messages: `{}` shows the decimal digits, `{:04x}` four hexadecimal digits that say the
number. -/
theorem C95_numbers (n : Nat) (hn : n < 65536) :
    numArg n [] = some (decimal n) ∧
    ∃ ds, numArg n (bytes! "04x") = some ds ∧ ds.length = 4 ∧ hexValue ds = some n := by
  refine ⟨rfl, _, rfl, rfl, ?_⟩
  have step : ∀ m, ∀ v : Nat, (if 48 ≤ hexDigit m ∧ hexDigit m ≤ 57 then some (16 * v + (hexDigit m - 48))
      else if 97 ≤ hexDigit m ∧ hexDigit m ≤ 102 then some (16 * v + (hexDigit m - 87)) else none) =
      some (16 * v + m % 16) := by
    intro m v
    unfold hexDigit
    by_cases h : m % 16 < 10
    · rw [if_pos h, if_pos (by omega)]
      congr 2
      omega
    · rw [if_neg h, if_neg (by omega), if_pos (by omega)]
      congr 2
      omega
  simp only [hexValue, List.foldl_cons, List.foldl_nil, Option.bind_some, step]
  congr 1
  omega

/-- C95, what reaches the log file, if the texts of the arguments have no percent signs or NULs (and errors are
not lost, see C53): the message of any call but one. -/
theorem C95_written_partial (s : Site) (hs : s ∈ sites) (hb : badSite s = false) (v : Sev) (hv : s.sev = some v) :
    ∃ lits specs, ShowsArgs (vformat s.fmt) s.argc lits specs ∧
      ∀ (st : St) (args : List Arg) (texts : List (List Nat)), args.length = s.argc →
        List.zipWith (fun (a : Arg) x => a x) args specs = texts.map some → (∀ t ∈ texts, Tame t) →
        (v = .error → ¬ (1 < st.level ∧ st.level ≤ 3)) →
        ∃ st', s.call st args = .ok st' ∧ Ideal st v (weave lits texts) st' := by
  obtain ⟨lits, specs, h1, h2⟩ := C95_shows_partial s hs hb
  refine ⟨lits, specs, h1, ?_⟩
  intro st args texts hn ht htame he
  have hm := h1.message args texts hn ht
  unfold Site.call Format.fmt
  rw [hm, hv]
  exact C53_formatted_partial st v (weave lits texts) (weave_tame lits texts h2 htame) he

example : List.zipWith (fun (a : Arg) x => a x) [textArg (bytes! "a.gguf")] [[]] = [(bytes! "a.gguf")].map some ∧
    (∀ t ∈ [(bytes! "a.gguf")], Tame t) := by
  refine ⟨by simp [textArg], ?_⟩
  simp only [Tame, List.mem_singleton, forall_eq]
  decide +kernel

/-- The call at model_berts.hpp:237-242. -/
def lmSite : Site := ⟨"model_berts.hpp", 237, some .debug, (bytes! "  #tokens = {0}\n  hidden_dim = {1}\n"), 3⟩

/-- C95 refuted: a comma too many turns the last line of the message into an argument.  It is printed as the number
of tokens, the number of tokens is printed as `hidden_dim`, and `hidden_dim` is not printed at all. -/
theorem C95_lm_counterexample :
    lmSite ∈ sites ∧
    (∀ tokens hidden, vformat lmSite.fmt [textArg (bytes! "  input_shape = {0}x{1}"), textArg tokens, textArg hidden] =
      some (bytes! "  #tokens =   input_shape = {0}x{1}\n  hidden_dim = " ++ tokens ++ (bytes! "\n"))) ∧
    ¬ ∃ lits specs, ShowsArgs (vformat lmSite.fmt) lmSite.argc lits specs := by
  have hp : parse .text .open_ lmSite.fmt = some ((bytes! "  #tokens = ").map Part.lit ++ [Part.field 0 []] ++
      (bytes! "\n  hidden_dim = ").map Part.lit ++ [Part.field 1 []] ++ (bytes! "\n").map Part.lit) := by decide +kernel
  have hr : ∀ (args : List Arg) (x y : List Nat) (a0 a1 : Arg) (rest : List Arg), args = a0 :: a1 :: rest →
      a0 [] = some x → a1 [] = some y → vformat lmSite.fmt args =
        some (bytes! "  #tokens = " ++ x ++ (bytes! "\n  hidden_dim = ") ++ y ++ (bytes! "\n")) := by
    intro args x y a0 a1 rest ha h0 h1
    have lits : ∀ (l : List Nat) ps, render args (l.map Part.lit ++ ps) = (render args ps).map (l ++ ·) := by
      intro l ps
      induction l with
      | nil => simp
      | cons c l ih =>
        simp only [List.map_cons, List.cons_append, render, ih, Option.map_map]
        rfl
    have last : render args ((bytes! "\n").map Part.lit) = some (bytes! "\n") := by
      have := lits (bytes! "\n") []
      simpa only [List.append_nil, render, Option.map_some] using this
    unfold vformat
    rw [hp]
    simp only [List.append_assoc]
    rw [lits]
    simp only [List.cons_append, List.nil_append, render]
    rw [lits]
    simp only [render, ha, List.getElem?_cons_zero, List.getElem?_cons_succ, h0, h1]
    rw [← ha, last]
    simp
  refine ⟨List.mem_of_getElem? (i := 68) rfl, ?_, ?_⟩
  · intro tokens hidden
    rw [hr _ (bytes! "  input_shape = {0}x{1}") tokens _ _ _ rfl rfl rfl]
    have : (bytes! "  #tokens = ") ++ (bytes! "  input_shape = {0}x{1}") ++ (bytes! "\n  hidden_dim = ") =
      (bytes! "  #tokens =   input_shape = {0}x{1}\n  hidden_dim = ") := by decide +kernel
    rw [this]
  · rintro ⟨lits, specs, h⟩
    have key : ∀ z : List Nat, vformat lmSite.fmt [fun _ => some [], fun _ => some [], fun _ => some z] =
        some (weave lits [[], [], z]) := by
      intro z
      apply h.message _ _ rfl
      match specs, h.fields with
      | [a, b, c], _ => rfl
    have k1 := key []
    have k2 := key [65]
    rw [hr _ [] [] (fun _ => some []) (fun _ => some []) _ rfl rfl rfl] at k1 k2
    rw [k1] at k2
    match lits, h.texts with
    | [a, b, c, d], _ =>
      simp [weave] at k2

/-- C95 refuted: a path with a percent sign is undefined behaviour when the model is loaded and information is
logged. -/
theorem C95_percent_counterexample (st : St) (f : Nat) (hf : st.file = some f) (hl : st.level ≤ 1)
    (pre post : List Nat) (hp : Tame pre) (hpost : post.head? ≠ some 37) :
    Site.call ⟨"gguf.cpp", 162, some .info, (bytes! "loading model: {}"), 1⟩ st [textArg (pre ++ 37 :: post)] = .ub := by
  have h0 : vformat (bytes! "loading model: {}") [textArg (pre ++ 37 :: post)] =
      some (bytes! "loading model: " ++ (pre ++ 37 :: post)) := by
    have hps : parse .text .open_ (bytes! "loading model: {}") =
      some ((bytes! "loading model: ").map Part.lit ++ [Part.field 0 []]) := by decide +kernel
    have := (shows_of _ _ 1 hps (by decide +kernel)).message [textArg (pre ++ 37 :: post)] [pre ++ 37 :: post] rfl
      (by
        have : (textsOf ((bytes! "loading model: ").map Part.lit ++ [Part.field 0 []])).2 = [[]] := by decide +kernel
        rw [this]; rfl)
    rw [this]
    have : (textsOf ((bytes! "loading model: ").map Part.lit ++ [Part.field 0 []])).1 = [(bytes! "loading model: "), []] := by
      decide +kernel
    rw [this]
    simp [weave]
  unfold Site.call Format.fmt Site.fmt
  simp only [h0]
  have : formatted st .info (.ok (bytes! "loading model: " ++ (pre ++ 37 :: post))) =
      plain st .info ((bytes! "loading model: " ++ pre) ++ 37 :: post) := by
    simp [formatted, isLogging, hl, Res.bind]
  rw [this]
  apply C53_percent_counterexample st .info f hf (by simpa [sevNum] using hl) _ post _ hpost
  have hlit : Tame (bytes! "loading model: ") := by simp only [Tame]; decide +kernel
  simp only [Tame, List.mem_append, not_or] at *
  exact ⟨⟨hlit.1, hp.1⟩, ⟨hlit.2, hp.2⟩⟩

example : Tame (bytes! "50") ∧ (bytes! ".gguf").head? ≠ some 37 ∧ St.init.file = some 0 := by
  simp only [Tame]; decide +kernel

/-- C95 for the keys of the layers, the only format that is not a literal (bert.cpp:289-292): it gives the key with
the number of the layer. -/
theorem C95_key (n : Nat) (s : String) (hs : ∀ c ∈ ascii s, c ≠ 123 ∧ c ≠ 125) :
    Format.fmt (ascii "berts.bert." ++ ascii "encoder.layer" ++ ascii ".{}." ++ ascii s) [textArg (decimal n)] =
      .ok (Load.layerKey n s) := by
  have lits : ∀ (l r : List Nat) num, (∀ c ∈ l, c ≠ 123 ∧ c ≠ 125) →
      parse .text num (l ++ r) = (parse .text num r).map (l.map Part.lit ++ ·) := by
    intro l r num hl
    induction l with
    | nil => simp
    | cons c l ih =>
      have hc := hl c (by simp)
      simp only [List.cons_append, parse, hc.1, hc.2, if_false, ih (fun x hx => hl x (by simp [hx])), Option.map_map]
      rfl
  have hp : parse .text .open_ (ascii "berts.bert." ++ ascii "encoder.layer" ++ ascii ".{}." ++ ascii s) =
      some ((ascii "berts.bert.encoder.layer.").map Part.lit ++ [Part.field 0 []] ++
        (ascii ".").map Part.lit ++ (ascii s).map Part.lit) := by
    have e : ascii "berts.bert." ++ ascii "encoder.layer" ++ ascii ".{}." =
      ascii "berts.bert.encoder.layer." ++ 123 :: 125 :: ascii "." := by decide +kernel
    rw [e, List.append_assoc, lits _ _ _ (by decide +kernel)]
    simp only [List.cons_append, parse, if_true, fieldOf]
    simp only [show (125 : Nat) = 123 ↔ False by decide, if_false, List.takeWhile_nil, List.dropWhile_nil, List.drop_nil,
      if_true]
    rw [lits _ _ _ (by decide +kernel)]
    have := lits (ascii s) [] (.auto 1) hs
    rw [List.append_nil] at this
    rw [this]
    simp [parse]
  have rl : ∀ (args : List Arg) (l : List Nat) ps, render args (l.map Part.lit ++ ps) = (render args ps).map (l ++ ·) := by
    intro args l ps
    induction l with
    | nil => simp
    | cons c l ih =>
      simp only [List.map_cons, List.cons_append, render, ih, Option.map_map]
      rfl
  unfold Format.fmt vformat
  rw [hp]
  simp only [List.append_assoc]
  rw [rl]
  simp only [List.cons_append, List.nil_append, render, List.getElem?_cons_zero]
  rw [rl]
  have last := rl [textArg (decimal n)] (ascii s) []
  rw [List.append_nil] at last
  rw [last]
  simp only [render, textArg, if_true, Option.map_some, List.append_nil]
  unfold Load.layerKey
  have e : ascii "berts.bert." ++ ascii "encoder.layer" ++ ascii "." = ascii "berts.bert.encoder.layer." := by decide +kernel
  rw [e]
  simp

example : ∀ c ∈ (ascii "attention.self.query.weight"), c ≠ 123 ∧ c ≠ 125 := by decide +kernel

end Berts.Props
