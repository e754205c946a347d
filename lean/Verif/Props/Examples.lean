import Verif.Proofs.Examples
import Verif.Props.Eval
import Verif.Props.Api

/-!
# Properties of the example programs
-/

namespace Berts.Props

open Berts.Examples
open Berts.Examples.Spec
open Berts.Vocab (ascii decimal)

/-! ## C58: type names on the command line -/

/-- C58: a type is accepted exactly for its name in any letter case and for its number (leading zeros
and, for 0, a minus sign are part of how numbers may be written). -/
theorem C58_accept_iff (arg : List Nat) (t : Nat) :
    parseFtype arg = .ok (some t) ↔ ∃ name, TypeName t name ∧ (CaseVariant arg name ∨ Number arg t) := by
  constructor
  · intro h
    unfold parseFtype at h
    rcases toupperAll_total arg with ⟨str, hs⟩ | ⟨hu, _⟩
    · rw [hs] at h
      have hv := (toupperAll_ok hs).2
      simp only [Eval.res_ok, parse_upper] at h
      split at h
      · cases h
      · cases hf : quantTypes.find? (fun p => decide (str = p.2 ∨
            ((fromChars str).1 = [] ∧ (fromChars str).2 = some (p.1 : Int)))) with
        | none => rw [hf] at h; cases h
        | some p =>
          rw [hf] at h
          obtain ⟨u, name⟩ := p
          have hu : u = t := by simpa using h
          subst hu
          have hm := (typeName_iff _ _).2 (List.mem_of_find?_eq_some hf)
          have hp : str = name ∨ ((fromChars str).1 = [] ∧ (fromChars str).2 = some (u : Int)) := by
            simpa using List.find?_some hf
          refine ⟨name, hm, ?_⟩
          rcases hp with rfl | ⟨h1, h2⟩
          · exact .inl hv
          · by_cases h0 : str = []
            · subst h0; cases h2
            · obtain ⟨v, hn, hv2⟩ := fromChars_nil h1 h0
              rw [h2] at hv2
              split at hv2
              · have : (u : Int) = v := by simpa using hv2
                subst this
                rw [variant_number hv (.inl hn)]
                exact .inr hn
              · cases hv2
    · rw [hu] at h; cases h
  · rintro ⟨name, hm, hc | hn⟩
    · unfold parseFtype
      rw [toupperAll_variant hc (typeName_upper hm)]
      simp only [Eval.res_ok, parse_upper]
      have hne : ¬ ((fromChars name).1 = [] ∧ name ≠ []) := by
        rintro ⟨h1, h0⟩
        obtain ⟨v, hv, _⟩ := fromChars_nil h1 h0
        exact typeName_notNumber hm v hv
      have hnn : name ≠ [] := by rintro rfl; cases hm
      have h1 : (fromChars name).1 ≠ [] := fun h => hne ⟨h, hnn⟩
      rw [if_neg (by simp [h1])]
      congr 1
      apply find_table
      · rintro ⟨u, n'⟩ ha hp
        have : name = n' := by simpa [h1] using hp
        subst this
        exact typeName_fun ((typeName_iff _ _).2 ha) hm
      · exact ⟨_, (typeName_iff _ _).1 hm, by simp⟩
    · have hup : toupperAll arg = .ok arg := by
        rcases toupperAll_total arg with ⟨r, hr⟩ | ⟨hu, c, hc, hb⟩
        · rw [hr, variant_number (toupperAll_ok hr).2 (.inr hn)]
        · exfalso
          have dig : ∀ {ds : List Nat} {w : Nat}, Digits ds w → c ∈ ds → c < 128 := by
            intro ds w hd hcd
            have := (digits_isDigit hd).2 c hcd
            simp [isDigit] at this
            omega
          generalize ht : (t : Int) = v at hn
          cases hn with
          | nonneg _ w hd => have := dig hd hc; omega
          | neg ds w hd =>
            rcases List.mem_cons.1 hc with rfl | hc
            · omega
            · have := dig hd hc; omega
      have ht : t < 15 := by cases hm <;> decide
      obtain ⟨h1, h0, h2⟩ := fromChars_number hn
      rw [if_pos (by omega)] at h2
      unfold parseFtype
      rw [hup]
      simp only [Eval.res_ok, parse_upper, h1, h2]
      rw [if_neg (by simp)]
      congr 1
      apply find_table
      · rintro ⟨u, n'⟩ ha hp
        have hp : arg = n' ∨ (t : Int) = u := by simpa using hp
        have hp : arg = n' ∨ t = u := hp.imp id (by omega)
        rcases hp with rfl | rfl
        · exact absurd hn (typeName_notNumber ((typeName_iff _ _).2 ha) _)
        · rfl
      · exact ⟨_, (typeName_iff _ _).1 hm, by simp⟩

/-- C58: the behaviour is undefined exactly for arguments with bytes 128..254, the empty argument and
numbers outside `int`. -/
theorem C58_ub_iff (arg : List Nat) :
    parseFtype arg = .ub ↔ (∃ c ∈ arg, 128 ≤ c ∧ c < 255) ∨ arg = [] ∨
      ∃ v, Number arg v ∧ ¬ (-2 ^ 31 ≤ v ∧ v < 2 ^ 31) := by
  unfold parseFtype
  rcases toupperAll_total arg with ⟨str, hs⟩ | ⟨hu, hc⟩
  · have hok := toupperAll_ok hs
    rw [hs]
    simp only [Eval.res_ok, parse_upper]
    constructor
    · intro h
      split at h
      · rename_i hb
        obtain ⟨h1, h2, h3⟩ := hb
        by_cases h0 : str = []
        · subst h0
          cases hok.2
          exact .inr (.inl rfl)
        · obtain ⟨v, hn, hv⟩ := fromChars_nil h1 h0
          rw [h2] at hv
          split at hv
          · cases hv
          · rename_i hr
            rw [← variant_number hok.2 (.inl hn)] at hn
            exact .inr (.inr ⟨v, hn, hr⟩)
      · cases h
    · rintro (⟨c, hc, hb⟩ | rfl | ⟨v, hn, hr⟩)
      · exact absurd hb (hok.1 c hc)
      · cases hs
        decide +kernel
      · have := variant_number hok.2 (.inr hn)
        subst this
        obtain ⟨h1, h0, h2⟩ := fromChars_number hn
        rw [if_neg hr] at h2
        have h3 : arg ≠ ascii "F32" := by
          intro e
          rw [e] at hn
          exact typeName_notNumber .f32 v hn
        rw [if_pos ⟨h1, h2, h3⟩]
  · rw [hu]
    simp only [hc, true_or, iff_true]
    rfl

/-- C58 (partial: where the behaviour is defined): everything else is rejected. -/
theorem C58_reject_partial (arg : List Nat) (h0 : arg ≠ []) (hb : ∀ c ∈ arg, ¬ (128 ≤ c ∧ c < 255))
    (hv : ∀ v, Number arg v → -2 ^ 31 ≤ v ∧ v < 2 ^ 31)
    (h : ∀ t name, TypeName t name → ¬ CaseVariant arg name ∧ ¬ Number arg t) :
    parseFtype arg = .ok none := by
  have h1 : parseFtype arg ≠ .ub := by
    rw [Ne, C58_ub_iff]
    rintro (⟨c, hc, h⟩ | h | ⟨v, hn, hr⟩)
    · exact hb c hc h
    · exact h0 h
    · exact hr (hv v hn)
  have h2 : ∀ t, parseFtype arg ≠ .ok (some t) := by
    intro t hc
    obtain ⟨name, hm, hx⟩ := (C58_accept_iff arg t).1 hc
    rcases hx with hx | hx
    · exact (h t name hm).1 hx
    · exact (h t name hm).2 hx
  have h3 : (∃ r, parseFtype arg = .ok r) ∨ parseFtype arg = .ub := by
    unfold parseFtype
    rcases toupperAll_total arg with ⟨str, hs⟩ | ⟨hu, _⟩
    · rw [hs]
      simp only [Eval.res_ok, parse_upper]
      split
      · exact .inr rfl
      · exact .inl ⟨_, rfl⟩
    · rw [hu]; exact .inr rfl
  rcases h3 with ⟨r, hr⟩ | hr
  · cases r with
    | none => exact hr
    | some t => exact absurd hr (h2 t)
  · exact absurd hr h1

theorem decimal_digits (n : Nat) : Digits (decimal n) n := by
  induction n using Nat.strongRecOn with
  | _ n ih =>
    unfold decimal
    split
    · rename_i h; exact .one n h
    · rename_i h
      have := Digits.snoc _ _ (n % 10) (ih (n / 10) (by omega)) (by omega)
      rwa [Nat.div_add_mod] at this

/-- C58: printing and parsing are inverse, for names and for numbers. -/
theorem C58_roundtrip (t : Nat) (name : List Nat) (h : TypeName t name) :
    ftypeToStr t = name ∧ parseFtype (ftypeToStr t) = .ok (some t) ∧ parseFtype (decimal t) = .ok (some t) := by
  have refl : ∀ l : List Nat, CaseVariant l l := by
    intro l; induction l with
    | nil => exact .nil
    | cons a t ih => exact .cons (.same a) ih
  have e : ftypeToStr t = name := by cases h <;> rfl
  refine ⟨e, ?_, ?_⟩
  · rw [e]; exact (C58_accept_iff name t).2 ⟨name, h, .inl (refl name)⟩
  · exact (C58_accept_iff _ t).2 ⟨name, h, .inr (.nonneg _ _ (decimal_digits t))⟩

/-- C58: what was parsed is printed as the name it has, in upper case. -/
theorem C58_print (arg : List Nat) (t : Nat) (h : parseFtype arg = .ok (some t)) :
    TypeName t (ftypeToStr t) := by
  obtain ⟨name, hm, _⟩ := (C58_accept_iff arg t).1 h
  rw [(C58_roundtrip t name hm).1]
  exact hm

/-- C58 fails: a number that does not fit `int` is compared without having been stored. -/
theorem C58_range_counterexample (n : Nat) (h : 2 ^ 31 ≤ n) : parseFtype (decimal n) = .ub :=
  (C58_ub_iff _).2 (.inr (.inr ⟨n, .nonneg _ _ (decimal_digits n), by omega⟩))

/-- C58: the program hands exactly the parsed type on, and only if one was given. -/
theorem C58_main (args : List (List Nat)) (quantize : List Nat → List Nat → Nat → Res Bool) (s : Nat)
    (model out : List Nat) (t : Nat) (h : quantMain args quantize = .ok (s, some (model, out, t))) :
    ∃ type, args = [model, type, out] ∧ parseFtype type = .ok (some t) ∧ (∃ b, quantize model out t = .ok b) := by
  unfold quantMain at h
  split at h
  · rename_i m ty o
    split at h
    · cases h
    · cases hp : parseFtype ty with
      | ok r =>
        rw [hp] at h
        cases r with
        | none => cases h
        | some u =>
          simp only [Eval.res_ok] at h
          cases hq : quantize m o u with
          | ok b =>
            rw [hq] at h
            cases b <;> cases h <;> exact ⟨ty, rfl, hp, _, hq⟩
          | ub => rw [hq] at h; cases h
          | abort => rw [hq] at h; cases h
          | hang => rw [hq] at h; cases h
      | ub => rw [hp] at h; cases h
      | abort => rw [hp] at h; cases h
      | hang => rw [hp] at h; cases h
  · cases h

/-- `q4_k`, `Q4_k` and `012` name the same type; `q4`, `1x`, `4` and `-1` none. -/
example : parseFtype (ascii "q4_k") = .ok (some 12) ∧ parseFtype (ascii "Q4_k") = .ok (some 12) ∧
    parseFtype (ascii "012") = .ok (some 12) ∧ parseFtype (ascii "q4") = .ok none ∧
    parseFtype (ascii "1x") = .ok none ∧ parseFtype (ascii "4") = .ok none ∧
    parseFtype (ascii "-1") = .ok none ∧ parseFtype (ascii "99999999999") = .ub := by decide +kernel

/-- The hypotheses of `C58_reject_partial` can be met. -/
example : parseFtype (ascii "4") = .ok none := by
  have hd : ∀ v, Number (ascii "4") v → v = 4 := fun v h =>
    number_unique h (.nonneg _ 4 (.one 4 (by decide)))
  refine C58_reject_partial _ (by decide) (by decide) (fun v h => by have := hd v h; omega) ?_
  intro t name h
  refine ⟨?_, fun hn => ?_⟩
  · intro hc
    have := (C58_accept_iff _ t).2 ⟨name, h, .inl hc⟩
    revert this
    rw [show parseFtype (ascii "4") = .ok none by decide +kernel]
    intro h; cases h
  · have := hd _ hn
    cases h <;> omega

/-! ## C59: the fill-mask example -/

open Berts.Api
open Berts.Spec (Arith Mat col)
open Berts.Graph
open Berts.Eval

/-- C59, exactly: the program reads past its array iff there are more tokens than bytes in the prompt;
otherwise it goes on with the ids that were stored, whatever the array held before. -/
theorem C59_iff (c : Ctx) (m : ModelI) (hm : c.model = some m) (text toks : List Nat)
    (ht : m.tokenize text = .ok (true, toks)) (hc : m.clsId ≠ INVALID) (hs : m.sepId ≠ INVALID)
    (junk : Nat → Nat) :
    promptTokens (some c) text junk =
      if toks.length + 2 ≤ text.length then .ok (some (m.clsId :: toks ++ [m.sepId])) else .ub := by
  unfold promptTokens
  rw [C50_tokenize c m hm text toks ht hc hs _ text.length (by simp)]
  simp only [Eval.res_ok, if_true, Option.getD_some]
  have hl : (m.clsId :: toks ++ [m.sepId]).length = toks.length + 2 := by simp
  unfold readTokens
  simp only [hl, List.length_append, List.length_take, List.length_drop, List.length_map, List.length_range]
  by_cases h : toks.length + 2 ≤ text.length
  · rw [if_pos h, if_pos (by omega), Eval.res_ok, List.take_append_of_le_length (by simp; omega),
      List.take_take, List.take_of_length_le (by simp; omega)]
  · rw [if_neg h, if_neg (by omega)]
    rfl

/-- C59 (partial: prompts with at least as many bytes as tokens). -/
theorem C59_reads_partial (c : Ctx) (m : ModelI) (hm : c.model = some m) (text toks : List Nat)
    (ht : m.tokenize text = .ok (true, toks)) (hc : m.clsId ≠ INVALID) (hs : m.sepId ≠ INVALID)
    (h : toks.length + 2 ≤ text.length) (junk : Nat → Nat) :
    promptTokens (some c) text junk = .ok (some (m.clsId :: toks ++ [m.sepId])) := by
  rw [C59_iff c m hm text toks ht hc hs, if_pos h]

/-- C59 fails: with a prompt of less than two bytes the program always reads past the end of its array
(every token list has the two framing tokens). -/
theorem C59_counterexample (c : Ctx) (m : ModelI) (hm : c.model = some m) (text toks : List Nat)
    (ht : m.tokenize text = .ok (true, toks)) (hc : m.clsId ≠ INVALID) (hs : m.sepId ≠ INVALID)
    (h : text.length < 2) (junk : Nat → Nat) : promptTokens (some c) text junk = .ub := by
  rw [C59_iff c m hm text toks ht hc hs, if_neg (by omega)]

/-- C59: a mask position is only found if the mask token is there exactly once. -/
theorem C59_mask (mask : Nat) (tokens : List Nat) (p : Nat) :
    findMask mask tokens = some p ↔
      tokens[p]? = some mask ∧ ∀ q : Nat, tokens[q]? = some mask → q = p := by
  have key : ∀ (ts : List Nat) (i : Nat) (f : Option Nat),
      (maskLoop mask ts i f = none ↔ (∃ a b : Nat, a < b ∧ ts[a]? = some mask ∧ ts[b]? = some mask) ∨
        (f ≠ none ∧ ∃ a : Nat, ts[a]? = some mask)) ∧
      (∀ p, maskLoop mask ts i f = some (some p) ↔
        (f = some p ∧ ∀ a : Nat, ts[a]? ≠ some mask) ∨
        (f = none ∧ ∃ a : Nat, p = i + a ∧ ts[a]? = some mask ∧ ∀ b : Nat, ts[b]? = some mask → b = a)) := by
    intro ts
    induction ts with
    | nil => intro i f; simp [maskLoop]
    | cons t ts ih =>
      intro i f
      have split : ∀ P : Nat → Prop, (∃ a, P a) ↔ P 0 ∨ ∃ a, P (a + 1) := by
        intro P
        constructor
        · rintro ⟨a, h⟩
          cases a with
          | zero => exact .inl h
          | succ a => exact .inr ⟨a, h⟩
        · rintro (h | ⟨a, h⟩)
          · exact ⟨_, h⟩
          · exact ⟨_, h⟩
      have splitA : ∀ P : Nat → Prop, (∀ a, P a) ↔ P 0 ∧ ∀ a, P (a + 1) := by
        intro P
        constructor
        · intro h; exact ⟨h 0, fun a => h (a + 1)⟩
        · rintro ⟨h1, h2⟩ a
          cases a with
          | zero => exact h1
          | succ a => exact h2 a
      unfold maskLoop
      by_cases e : t = mask
      · subst e
        rw [if_pos rfl]
        cases f with
        | none =>
          simp only
          obtain ⟨h1, h2⟩ := ih (i + 1) (some i)
          refine ⟨?_, ?_⟩
          · rw [h1]
            constructor
            · rintro (⟨a, b, hab, ha, hb⟩ | ⟨_, a, ha⟩)
              · exact .inl ⟨a + 1, b + 1, by omega, by simpa using ha, by simpa using hb⟩
              · exact .inl ⟨0, a + 1, by omega, by simp, by simpa using ha⟩
            · rintro (⟨a, b, hab, ha, hb⟩ | ⟨h, _⟩)
              · obtain ⟨b, rfl⟩ : ∃ b', b = b' + 1 := ⟨b - 1, by omega⟩
                exact .inr ⟨by simp, b, by simpa using hb⟩
              · exact absurd rfl h
          · intro p
            rw [h2]
            constructor
            · rintro (⟨h, ha⟩ | ⟨h, _⟩)
              · have : i = p := by simpa using h
                subst this
                refine .inr ⟨trivial, 0, by omega, by simp, ?_⟩
                intro b hb
                cases b with
                | zero => rfl
                | succ b => exact absurd (by simpa using hb) (ha b)
              · cases h
            · rintro (⟨h, _⟩ | ⟨_, a, hp, ha, hu⟩)
              · cases h
              · have h0 := hu 0 (by simp)
                subst h0
                refine .inl ⟨by simp [hp], ?_⟩
                intro b hb
                have := hu (b + 1) (by simpa using hb)
                omega
        | some q =>
          simp only [true_iff]
          refine ⟨.inr ⟨by simp, 0, by simp⟩, ?_⟩
          intro p
          constructor
          · intro h; cases h
          · rintro (⟨_, h⟩ | ⟨h, _⟩)
            · exact absurd (by simp) (h 0)
            · cases h
      · rw [if_neg e]
        obtain ⟨h1, h2⟩ := ih (i + 1) f
        have s0 : ∀ a, (t :: ts)[a + 1]? = ts[a]? := fun a => by simp
        have z0 : (t :: ts)[0]? ≠ some mask := by simpa using e
        refine ⟨?_, ?_⟩
        · rw [h1]
          constructor
          · rintro (⟨a, b, hab, ha, hb⟩ | ⟨hf, a, ha⟩)
            · exact .inl ⟨a + 1, b + 1, by omega, by rwa [s0], by rwa [s0]⟩
            · exact .inr ⟨hf, a + 1, by rwa [s0]⟩
          · rintro (⟨a, b, hab, ha, hb⟩ | ⟨hf, a, ha⟩)
            · cases a with
              | zero => exact absurd ha z0
              | succ a =>
                obtain ⟨b, rfl⟩ : ∃ b', b = b' + 1 := ⟨b - 1, by omega⟩
                exact .inl ⟨a, b, by omega, by rwa [s0] at ha, by rwa [s0] at hb⟩
            · cases a with
              | zero => exact absurd ha z0
              | succ a => exact .inr ⟨hf, a, by rwa [s0] at ha⟩
        · intro p
          rw [h2]
          constructor
          · rintro (⟨hf, h⟩ | ⟨hf, a, hp, ha, hu⟩)
            · refine .inl ⟨hf, ?_⟩
              rw [splitA]
              exact ⟨z0, fun a => by rw [s0]; exact h a⟩
            · refine .inr ⟨hf, a + 1, by omega, by rwa [s0], ?_⟩
              intro b hb
              cases b with
              | zero => exact absurd hb z0
              | succ b => rw [hu b (by rwa [s0] at hb)]
          · rintro (⟨hf, h⟩ | ⟨hf, a, hp, ha, hu⟩)
            · exact .inl ⟨hf, fun a => by have := h (a + 1); rwa [s0] at this⟩
            · cases a with
              | zero => exact absurd ha z0
              | succ a =>
                refine .inr ⟨hf, a, by omega, by rwa [s0] at ha, ?_⟩
                intro b hb
                have := hu (b + 1) (by rwa [s0])
                omega
  obtain ⟨h1, h2⟩ := key tokens 0 none
  unfold findMask
  constructor
  · intro h
    split at h
    · cases h
    · cases h
    · rename_i q hq
      cases h
      rcases (h2 p).1 hq with ⟨h, _⟩ | ⟨_, a, hp, ha, hu⟩
      · cases h
      · have : p = a := by omega
        subst this
        exact ⟨ha, hu⟩
  · rintro ⟨h3, h4⟩
    rw [(h2 p).2 (.inr ⟨rfl, p, by omega, h3, h4⟩)]

/-! ## C66: the fill-mask example prints the best tokens -/

variable {α : Type}

theorem hiddenOf_value (A : Arith α) (g : Gg) (m : EModel α) (V P S : Nat) (tokens : List Nat)
    (hf : Fits m V P S tokens) (ha : Accepted m tokens (tokens.map fun _ => 0) 0) (hn : 0 < tokens.length)
    (hr : RowsExist m V P tokens) (hl : 1 ≤ m.hp.nLayers) (junk : Nat → α) :
    hiddenOf A g (some ⟨some m⟩) tokens junk =
      .ok (some (expected A m m.hp.nLayers 0 tokens (tokens.map fun _ => 0), m.hp.hidden * tokens.length)) := by
  unfold hiddenOf
  have d := C40_dry A g m tokens (tokens.map fun _ => 0) (-1) 0 0 ha
  rw [(C40_api A g m tokens none none).1 (-1) 0 0 _ d]
  simp only [Eval.res_ok, if_true, Option.getD_some]
  have r := C41_from_back A g m V P S tokens (tokens.map fun _ => 0) 0 hf.toShaped ha hn hr 1 (by omega) hl
    (by have := hf.depth; omega)
    ((List.range (m.hp.hidden * tokens.length)).map junk) (by simp [outRows])
  simp only [List.length_map, List.length_range] at r
  rw [(C40_api A g m tokens none _).1 (-1) 0 _ _ r]
  simp only [Eval.res_ok, if_true, Option.getD_some]
  rfl

theorem tokenName_value (c : Ctx) (m : ModelI) (hm : c.model = some m) (id : Nat) (token : List Nat)
    (ht : m.idToToken id = .ok token) :
    tokenName (some c) id = if token.length ≤ 256 then .ok token else .abort := by
  unfold tokenName
  rw [C50_id_to_token c m hm id token ht _ 256 (by rw [List.length_replicate]; omega)]
  simp only [Eval.res_ok, Option.getD_some, List.length_append, List.length_take, List.length_drop,
    List.length_replicate]
  by_cases h : token.length ≤ 256
  · rw [if_pos h, if_pos (by omega), List.take_append_of_le_length (by simp; omega), List.take_take,
      List.take_of_length_le (by omega)]
  · rw [if_neg h, if_neg (by omega)]

theorem results_value (c : Ctx) (m : ModelI) (hm : c.model = some m) (ids : List Nat) (probs : List α) (k pos : Nat)
    (best : Nat → Nat) (pr : Nat → α) (name : Nat → List Nat)
    (h : ∀ i, i < k → ids[k * pos + i]? = some (best i) ∧ probs[k * pos + i]? = some (pr i) ∧
      m.idToToken (best i) = .ok (name (best i)) ∧ (name (best i)).length ≤ 256)
    (is : List Nat) (his : ∀ i ∈ is, i < k) :
    results (some c) ids probs k pos is = .ok (is.map fun i => (best i, name (best i), pr i)) := by
  induction is with
  | nil => rfl
  | cons i is ih =>
    obtain ⟨h1, h2, h3, h4⟩ := h i (his i (by simp))
    unfold results
    rw [h1, h2]
    simp only
    rw [tokenName_value c m hm _ _ h3, if_pos h4, Eval.res_ok, ih (fun j hj => his j (by simp [hj]))]
    rfl

/-- C66 (partial: prompts with at least as many bytes as tokens, names of at most 256 bytes): the program
prints, in descending order of probability, the `k` tokens that are most probable at the position of the
mask given the hidden states of the last layer, with their names and probabilities. -/
theorem C66_best_tokens_partial (A : Arith α) (ge : α → α → Prop) (hA : ArgsortSpec A ge) (g : Gg)
    (c : Ctx) (am : ModelI) (hm : c.model = some am) (m : EModel α) (lm : LmWeights α) (hhead : HeadOK m lm)
    (hvoc : am.vocabCount = m.vocabCount) (text toks : List Nat)
    (ht : am.tokenize text = .ok (true, toks)) (hc : am.clsId ≠ INVALID) (hs : am.sepId ≠ INVALID)
    (hlen : toks.length + 2 ≤ text.length) (pos : Nat)
    (hpos : (am.clsId :: toks ++ [am.sepId])[pos]? = some am.maskId)
    (huniq : ∀ q : Nat, (am.clsId :: toks ++ [am.sepId])[q]? = some am.maskId → q = pos)
    (V P S : Nat) (hf : Fits m V P S (am.clsId :: toks ++ [am.sepId]))
    (hmax : toks.length + 2 ≤ m.hp.maxTokens) (hseg : 0 < m.hp.segments)
    (hr : RowsExist m V P (am.clsId :: toks ++ [am.sepId])) (hl : 1 ≤ m.hp.nLayers)
    (name : Nat → List Nat)
    (hname : ∀ v, v < m.vocabCount → am.idToToken v = .ok (name v) ∧ (name v).length ≤ 256)
    (k : Nat) (hk0 : 0 < k) (hk : k ≤ m.vocabCount) (dflt : α) (junkI : Nat → Nat) (junk : Nat → α) :
    ∃ best : Nat → Nat,
      let tokens := am.clsId :: toks ++ [am.sepId]
      let p := fun v => refProbs A m lm (expected A m m.hp.nLayers 0 tokens (tokens.map fun _ => 0)) dflt v pos
      fillMask A g (some c) (some ⟨some m⟩) dflt k text junkI junk =
        .ok (0, (List.range k).map fun i => (best i, name (best i), p (best i))) ∧
      (∀ i, i < k → best i < m.vocabCount) ∧
      (∀ i j, i < k → j < k → best i = best j → i = j) ∧
      (∀ i j, i ≤ j → j < k → ge (p (best i)) (p (best j))) ∧
      (∀ v, v < m.vocabCount → (∀ i, i < k → best i ≠ v) → ∀ i, i < k → ge (p (best i)) (p v)) := by
  have hn : (am.clsId :: toks ++ [am.sepId]).length = toks.length + 2 := by simp
  generalize htok : am.clsId :: toks ++ [am.sepId] = tokens at *
  have ha : Accepted m tokens (tokens.map fun _ => 0) 0 :=
    ⟨by omega, by simp, by intro s hs; simp at hs; omega, by omega⟩
  have hpl : pos < tokens.length := by
    rw [List.getElem?_eq_some_iff] at hpos
    exact hpos.1
  have hel : (expected A m m.hp.nLayers 0 tokens (tokens.map fun _ => 0)).length = m.hp.hidden * tokens.length := by
    simp [expected, flatten, outRows]
  have hdry := C43_dry A g m hhead.hidden (expected A m m.hp.nLayers 0 tokens (tokens.map fun _ => 0)) dflt
    tokens.length hel k 0
  rw [if_neg (by omega), show min (k : Int).toNat m.vocabCount = k by omega] at hdry
  obtain ⟨o, ids, probs, h1, h2, h3, h4, h5⟩ := C44_topk_partial A ge hA g m lm hhead
    (expected A m m.hp.nLayers 0 tokens (tokens.map fun _ => 0)) dflt tokens.length (by omega) hel k hk0 hk
    ((List.range (k * tokens.length)).map junkI) ((List.range (k * tokens.length)).map junk) (k * tokens.length)
    (by simp [Nat.mul_comm]) (by simp [Nat.mul_comm])
  obtain ⟨best, b1, b2, b3, b4⟩ := h5 pos hpl
  refine ⟨best, ?_, fun i hi => (b1 i hi).2.1, b2, b3, b4⟩
  unfold fillMask
  have hv : bertsVocabSize (some c) = m.vocabCount := by
    simp [bertsVocabSize, idOr, getModel, hm, hvoc]
  have hmask : bertsMaskId (some c) = am.maskId := by
    simp [bertsMaskId, idOr, getModel, hm]
  rw [hv, if_neg (by omega), C59_reads_partial c am hm text toks ht hc hs hlen, htok, Eval.res_ok]
  simp only
  rw [hmask, (C59_mask am.maskId tokens pos).2 ⟨hpos, huniq⟩]
  simp only
  rw [hiddenOf_value A g m V P S tokens hf ha (by omega) hr hl, Eval.res_ok]
  simp only
  have hlm : lmOf A g (some ⟨some m⟩) (expected A m m.hp.nLayers 0 tokens (tokens.map fun _ => 0))
      (m.hp.hidden * tokens.length) dflt k junkI junk = .ok (some (ids, probs)) := by
    unfold lmOf
    rw [if_pos (by omega), List.take_of_length_le (by omega)]
    simp only [bertsEvalLm, Option.bind_some, hdry, Eval.res_ok, if_true, Option.getD_some, h1, h2, h3, h4]
  rw [hlm, Eval.res_ok]
  simp only
  rw [results_value c am hm ids probs k pos best _ name ?_ (List.range k) (by simp)]
  · rfl
  · intro i hi
    obtain ⟨e1, e2, e3⟩ := b1 i hi
    rw [Nat.mul_comm k pos]
    exact ⟨e1, e3, hname _ e2⟩

/-- A tokenizer for the example: every text is one mask. -/
def tinyTok : ModelI :=
  ⟨0, 1, 1, 2, 0, 0, 2, 3, fun v => .ok [97 + v], fun _ => .ok 0, fun _ => .ok (true, [1])⟩

/-- The hypotheses of `C66_best_tokens_partial` can be met. -/
example : ∃ r, fillMask tinyA tinyG (some ⟨.bert, some tinyTok⟩) (some ⟨some (tiny true 4)⟩) 0 2 [60, 60, 60]
    (fun _ => 7) (fun _ => 7) = .ok (0, r) := by
  obtain ⟨best, h, _⟩ := C66_best_tokens_partial tinyA _ tiny_argsort tinyG ⟨.bert, some tinyTok⟩ tinyTok rfl
    (tiny true 4) tinyLm (tiny_head true 4) rfl [60, 60, 60] [1] rfl (by decide) (by decide) (by decide) 1 rfl
    (by intro q hq
        match q, hq with
        | 0, h => exact absurd h (by decide)
        | 1, _ => rfl
        | 2, h => exact absurd h (by decide)
        | q + 3, h => simp at h) 3 4 2 (tiny_fits _ _ _ (by decide) (by decide)) (by decide) (by decide)
    (by refine ⟨by decide, ?_⟩
        intro t ht
        match t, ht with
        | 0, _ => decide
        | 1, _ => decide
        | 2, _ => decide) (by decide) (fun v => [97 + v]) (fun v _ => ⟨rfl, by simp⟩) 2 (by decide) (by decide) 0
    (fun _ => 7) (fun _ => 7)
  exact ⟨_, h⟩

/-- C66 fails for a token with a name of more than 256 bytes: `erase` throws. -/
theorem C66_long_name_counterexample (c : Ctx) (m : ModelI) (hm : c.model = some m) (id : Nat) (token : List Nat)
    (ht : m.idToToken id = .ok token) (h : 256 < token.length) : tokenName (some c) id = .abort := by
  rw [tokenName_value c m hm id token ht, if_neg (by omega)]

/-! ## C67: the number of results -/

/-- C67, exactly: which `k` arguments are accepted, rejected with a message, or stop the program. -/
theorem C67_k (s : List Nat) :
    (parseK s = .abort ↔ stoi s = none) ∧
    (parseK s = .ok none ↔ ∃ k, stoi s = some k ∧ k ≤ 0) ∧
    (∀ k, parseK s = .ok (some k) ↔ stoi s = some k ∧ 0 < k) := by
  unfold parseK
  cases h : stoi s with
  | none => simp
  | some k =>
    simp only [Option.some.injEq]
    by_cases hk : k ≤ 0
    · rw [if_pos hk]
      refine ⟨by simp, by simp [hk], ?_⟩
      intro k'
      constructor
      · intro h; cases h
      · rintro ⟨rfl, h⟩; omega
    · rw [if_neg hk]
      refine ⟨by simp, ?_, ?_⟩
      · constructor
        · intro h; cases h
        · rintro ⟨_, rfl, h⟩; omega
      · intro k'
        constructor
        · intro h; cases h; exact ⟨rfl, by omega⟩
        · rintro ⟨rfl, _⟩; rfl

theorem stoi_number (s : List Nat) (v : Int) (h : Number s v) :
    stoi s = if -2 ^ 31 ≤ v ∧ v < 2 ^ 31 then some v else none := by
  cases h with
  | nonneg _ v hd =>
    obtain ⟨hne, hall⟩ := digits_isDigit hd
    cases s with
    | nil => exact absurd rfl hne
    | cons a t =>
      have ha : 48 ≤ a ∧ a ≤ 57 := by simpa [isDigit] using hall a (by simp)
      have hsp : isSpaceC a = false := by
        simp only [isSpaceC, Bool.or_eq_false_iff, Bool.and_eq_false_iff, decide_eq_false_iff_not, beq_eq_false_iff_ne]
        omega
      unfold stoi
      simp only [List.dropWhile_cons, hsp, Bool.false_eq_true, if_false]
      have : stoiDigits false (a :: t) = if -2 ^ 31 ≤ (v : Int) ∧ (v : Int) < 2 ^ 31 then some (v : Int) else none := by
        unfold stoiDigits
        rw [(takeWhile_all hall).1, digits_val hd]
        simp only [List.isEmpty_cons, Bool.false_eq_true, if_false]
        by_cases hv : v < 2 ^ 31
        · rw [if_pos hv, if_pos (by omega)]
        · rw [if_neg hv, if_neg (by omega)]
      split
      · rename_i e; simp only [List.cons.injEq] at e; omega
      · rename_i e; simp only [List.cons.injEq] at e; omega
      · exact this
  | neg ds v hd =>
    obtain ⟨hne, hall⟩ := digits_isDigit hd
    unfold stoi
    have : isSpaceC 45 = false := by decide
    simp only [List.dropWhile_cons, this, Bool.false_eq_true, if_false]
    unfold stoiDigits
    rw [(takeWhile_all hall).1, digits_val hd]
    have he : ds.isEmpty = false := by cases ds <;> simp_all
    simp only [he, Bool.false_eq_true, if_false, if_true]
    by_cases hv : v ≤ 2 ^ 31
    · rw [if_pos hv, if_pos (by omega)]
    · rw [if_neg hv, if_neg (by omega)]

theorem blank_iff (c : Nat) : Blank c ↔ isSpaceC c = true := by
  simp only [Blank, List.mem_cons, List.not_mem_nil, or_false, isSpaceC, Bool.or_eq_true, Bool.and_eq_true,
    decide_eq_true_eq, beq_iff_eq]
  omega

theorem dropWhile_append {p : Nat → Bool} (ws t : List Nat) (h : ∀ c ∈ ws, p c = true)
    (ht : ∀ d t', t = d :: t' → p d = false) : (ws ++ t).dropWhile p = t := by
  induction ws with
  | nil =>
    cases t with
    | nil => rfl
    | cons d t' => simp [List.dropWhile_cons, ht d t' rfl]
  | cons c ws ih =>
    rw [List.cons_append, List.dropWhile_cons, if_pos (h c (by simp)), ih (fun c hc => h c (by simp [hc]))]

theorem takeWhile_append {p : Nat → Bool} (ds rest : List Nat) (h : ∀ c ∈ ds, p c = true)
    (ht : ∀ d t', rest = d :: t' → p d = false) : (ds ++ rest).takeWhile p = ds := by
  induction ds with
  | nil =>
    cases rest with
    | nil => rfl
    | cons d t' => simp [List.takeWhile_cons, ht d t' rfl]
  | cons c ds ih =>
    rw [List.cons_append, List.takeWhile_cons, if_pos (h c (by simp)), ih (fun c hc => h c (by simp [hc]))]

theorem isDigit_iff (d : Nat) : isDigit d = true ↔ 48 ≤ d ∧ d ≤ 57 := by simp [isDigit]

theorem stoiDigits_iff (neg : Bool) (t : List Nat) (k : Int) :
    stoiDigits neg t = some k ↔ -2 ^ 31 ≤ k ∧ k < 2 ^ 31 ∧ ∃ ds rest v, t = ds ++ rest ∧ Digits ds v ∧
      k = (if neg then -(v : Int) else v) ∧ ∀ d t', rest = d :: t' → ¬ (48 ≤ d ∧ d ≤ 57) := by
  constructor
  · intro h
    have hd : ∀ d t', t.dropWhile isDigit = d :: t' → ¬ (48 ≤ d ∧ d ≤ 57) := by
      intro d t' h hc
      have := List.head?_dropWhile_not isDigit t
      rw [h] at this
      simp only [List.head?_cons] at this
      have h2 := (isDigit_iff d).2 hc
      rw [h2] at this
      cases this
    have ht : t = t.takeWhile isDigit ++ t.dropWhile isDigit := (List.takeWhile_append_dropWhile).symm
    have hall : ∀ d ∈ t.takeWhile isDigit, isDigit d = true := fun d hd => by
      have := List.all_takeWhile (p := isDigit) (l := t)
      exact List.all_eq_true.1 this d hd
    unfold stoiDigits at h
    split at h
    · cases h
    · rename_i hne
      have hD := digits_of _ (t.takeWhile isDigit) rfl (by simpa using hne) hall
      cases neg with
      | true =>
        simp only [if_true] at h
        split at h
        · cases h
          exact ⟨by omega, by omega, _, _, _, ht, hD, rfl, hd⟩
        · cases h
      | false =>
        simp only [Bool.false_eq_true, if_false] at h
        split at h
        · cases h
          exact ⟨by omega, by omega, _, _, _, ht, hD, rfl, hd⟩
        · cases h
  · rintro ⟨h1, h2, ds, rest, v, rfl, hD, hk, hr⟩
    obtain ⟨hne, hall⟩ := digits_isDigit hD
    have ht : (ds ++ rest).takeWhile isDigit = ds := takeWhile_append ds rest hall (by
      intro d t' h
      cases hi : isDigit d with
      | false => rfl
      | true => exact absurd ((isDigit_iff d).1 hi) (hr d t' h))
    unfold stoiDigits
    rw [ht, digits_val hD, if_neg (by simpa using hne)]
    cases neg with
    | true =>
      simp only [if_true] at hk ⊢
      subst hk
      rw [if_pos (by omega)]
    | false =>
      simp only [Bool.false_eq_true, if_false] at hk ⊢
      subst hk
      rw [if_pos (by omega)]

theorem stoi_iff (s : List Nat) (k : Int) :
    stoi s = some k ↔ -2 ^ 31 ≤ k ∧ k < 2 ^ 31 ∧ BeginsWith s k := by
  constructor
  · intro h
    have hs : s = s.takeWhile isSpaceC ++ s.dropWhile isSpaceC := (List.takeWhile_append_dropWhile).symm
    have hws : ∀ c ∈ s.takeWhile isSpaceC, Blank c := fun c hc => by
      have := List.all_takeWhile (p := isSpaceC) (l := s)
      exact (blank_iff c).2 (List.all_eq_true.1 this c hc)
    unfold stoi at h
    split at h
    · rename_i t ht
      obtain ⟨h1, h2, ds, rest, v, rfl, hD, hk, hr⟩ := (stoiDigits_iff _ _ _).1 h
      refine ⟨h1, h2, _, 45 :: ds, rest, ?_, hws, ?_, hr⟩
      · rw [ht] at hs
        rw [List.append_assoc]
        exact hs
      · simp only [if_true] at hk
        subst hk
        exact .minus _ _ hD
    · rename_i t ht
      obtain ⟨h1, h2, ds, rest, v, rfl, hD, hk, hr⟩ := (stoiDigits_iff _ _ _).1 h
      refine ⟨h1, h2, _, 43 :: ds, rest, ?_, hws, ?_, hr⟩
      · rw [ht] at hs
        rw [List.append_assoc]
        exact hs
      · simp only [Bool.false_eq_true, if_false] at hk
        subst hk
        exact .plus _ _ hD
    · obtain ⟨h1, h2, ds, rest, v, ht, hD, hk, hr⟩ := (stoiDigits_iff _ _ _).1 h
      refine ⟨h1, h2, _, ds, rest, ?_, hws, ?_, hr⟩
      · rw [List.append_assoc, ← ht]
        exact hs
      · simp only [Bool.false_eq_true, if_false] at hk
        subst hk
        exact .plain _ _ hD
  · rintro ⟨h1, h2, ws, n, rest, rfl, hws, hn, hr⟩
    have hws' : ∀ c ∈ ws, isSpaceC c = true := fun c hc => (blank_iff c).1 (hws c hc)
    have key : ∀ d t, n ++ rest = d :: t → isSpaceC d = false → (ws ++ n ++ rest).dropWhile isSpaceC = d :: t := by
      intro d t h hd
      rw [List.append_assoc, h]
      exact dropWhile_append ws _ hws' (by intro d' t' h'; cases h'; exact hd)
    unfold stoi
    cases hn with
    | plain _ v hD =>
      obtain ⟨hne, hall⟩ := digits_isDigit hD
      cases n with
      | nil => exact absurd rfl hne
      | cons a t =>
        have ha := (isDigit_iff a).1 (hall a (by simp))
        have hsp : isSpaceC a = false := by
          simp only [isSpaceC, Bool.or_eq_false_iff, Bool.and_eq_false_iff, decide_eq_false_iff_not, beq_eq_false_iff_ne]
          omega
        rw [key a (t ++ rest) rfl hsp]
        have hfin : stoiDigits false (a :: (t ++ rest)) = some (v : Int) :=
          (stoiDigits_iff _ _ _).2 ⟨h1, h2, a :: t, rest, v, rfl, hD, rfl, hr⟩
        split
        · rename_i e; simp only [List.cons.injEq] at e; omega
        · rename_i e; simp only [List.cons.injEq] at e; omega
        · exact hfin
    | plus ds v hD =>
      rw [key 43 (ds ++ rest) rfl (by decide)]
      exact (stoiDigits_iff _ _ _).2 ⟨h1, h2, ds, rest, v, rfl, hD, rfl, hr⟩
    | minus ds v hD =>
      rw [key 45 (ds ++ rest) rfl (by decide)]
      exact (stoiDigits_iff _ _ _).2 ⟨h1, h2, ds, rest, v, rfl, hD, rfl, hr⟩

/-- C67, exactly: the arguments that are accepted begin, after white space, with a positive number that fits `int`, with
an optional sign and anything behind it; those rejected with a message begin with another number that fits; all others
stop the program. -/
theorem C67_exact (s : List Nat) :
    (∀ k, parseK s = .ok (some k) ↔ 0 < k ∧ k < 2 ^ 31 ∧ BeginsWith s k) ∧
    (parseK s = .ok none ↔ ∃ k, -2 ^ 31 ≤ k ∧ k ≤ 0 ∧ BeginsWith s k) ∧
    (parseK s = .abort ↔ ∀ k, -2 ^ 31 ≤ k → k < 2 ^ 31 → ¬ BeginsWith s k) := by
  obtain ⟨h1, h2, h3⟩ := C67_k s
  refine ⟨?_, ?_, ?_⟩
  · intro k
    rw [h3, stoi_iff]
    constructor
    · rintro ⟨⟨_, a, b⟩, c⟩; exact ⟨c, a, b⟩
    · rintro ⟨c, a, b⟩; exact ⟨⟨by omega, a, b⟩, c⟩
  · rw [h2]
    constructor
    · rintro ⟨k, h, hk⟩
      rw [stoi_iff] at h
      exact ⟨k, h.1, hk, h.2.2⟩
    · rintro ⟨k, a, b, c⟩
      exact ⟨k, (stoi_iff s k).2 ⟨a, by omega, c⟩, b⟩
  · rw [h1]
    constructor
    · intro h k a b c
      rw [(stoi_iff s k).2 ⟨a, b, c⟩] at h
      cases h
    · intro h
      cases hs : stoi s with
      | none => rfl
      | some k =>
        obtain ⟨a, b, c⟩ := (stoi_iff s k).1 hs
        exact absurd c (h k a b)

/-- Tabs and a plus sign are accepted. -/
example : parseK (ascii "\t +7 tokens") = .ok (some 7) :=
  ((C67_exact _).1 7).2 ⟨by decide, by decide, ascii "\t ", ascii "+7", ascii " tokens", by decide +kernel,
    by unfold Blank; decide +kernel, .plus (ascii "7") 7 (by
      have h : Digits (decimal 7) 7 := decimal_digits 7
      rwa [show decimal 7 = ascii "7" by decide +kernel] at h), by
      intro d t h
      have : d = 32 := by
        have h' : ascii " tokens" = 32 :: ascii "tokens" := by decide +kernel
        rw [h'] at h
        exact (List.cons.inj h).1.symm
      omega⟩

/-- C67 (partial: whole numbers that fit `int`): the program goes on iff the number is positive, and
rejects it with status 1 otherwise. -/
theorem C67_numbers_partial (s : List Nat) (v : Int) (h : Number s v) (hr : -2 ^ 31 ≤ v ∧ v < 2 ^ 31) :
    parseK s = if 0 < v then .ok (some v) else .ok none := by
  unfold parseK
  rw [stoi_number s v h, if_pos hr]
  simp only
  by_cases hv : 0 < v
  · rw [if_neg (by omega), if_pos hv]
  · rw [if_pos (by omega), if_neg hv]

/-- C67 fails: the program is terminated by an exception for numbers outside `int`... -/
theorem C67_range_counterexample (s : List Nat) (v : Int) (h : Number s v) (hr : ¬ (-2 ^ 31 ≤ v ∧ v < 2 ^ 31)) :
    parseK s = .abort := by
  unfold parseK
  rw [stoi_number s v h, if_neg hr]

/-- ... and for words, while numbers followed by other text are accepted. -/
theorem C67_text_counterexample : parseK (ascii "five") = .abort ∧ parseK [] = .abort ∧
    parseK (ascii "5 or so") = .ok (some 5) := by decide +kernel

example : Number (ascii "12") 12 := .nonneg _ 12 (.snoc [49] 1 2 (.one 1 (by decide)) (by decide))

/-! ## C68: exit status of the quantizer -/

/-- C68 fails: the program reports success (status 0) whatever `berts_model_quantize` returns. -/
theorem C68_status_counterexample (model type out : List Nat) (t : Nat) (ht : parseFtype type = .ok (some t))
    (quantize : List Nat → List Nat → Nat → Res Bool) (b : Bool) (hq : quantize model out t = .ok b) :
    quantMain [model, type, out] quantize = .ok (0, some (model, out, t)) := by
  unfold quantMain
  have h0 : type.length ≠ 0 := by
    intro h
    have := List.length_eq_zero_iff.1 h
    subst this
    rw [(C58_ub_iff []).2 (.inr (.inl rfl))] at ht
    cases ht
  simp only [if_neg h0, ht, Eval.res_ok, hq]
  cases b <;> rfl

/-- C68 (partial: usage errors): wrong usage is reported with status 1 and no file is touched. -/
theorem C68_usage_partial (args : List (List Nat)) (quantize : List Nat → List Nat → Nat → Res Bool)
    (h : args.length ≠ 3 ∨ (∃ model out, args = [model, [], out]) ∨
      ∃ model type out, args = [model, type, out] ∧ parseFtype type = .ok none) :
    quantMain args quantize = .ok (1, none) := by
  rcases h with h | ⟨model, out, rfl⟩ | ⟨model, type, out, rfl, hp⟩
  · unfold quantMain
    split
    · simp at h
    · rfl
  · rfl
  · unfold quantMain
    simp only [hp, Eval.res_ok]
    split <;> rfl

example : quantMain [[97], ascii "q8_0", [98]] (fun _ _ _ => .ok false) = .ok (0, some ([97], [98], 8)) := by
  decide +kernel

end Berts.Props
