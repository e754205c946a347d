import Verif.Model.RobertaLog
import Verif.Proofs.LoadLog
import Verif.Props.BertLog
import Verif.Props.Roberta
import Verif.Spec.RobertaLog

/-! # Lemmas about RoBERTa's tokenizer with messages -/

namespace Berts.Roberta

open Berts.Unicode Berts.Vocab Berts.Bpe Berts.Log Berts.Format Berts.Spec Berts.Props
open Berts.Load (LogM lift say sayF sayWhen Says says_pure says_lift says_say says_sayF bind_not_ok textArg_text
  numArg_text render_lits render_last vformat_parts lits)
open Berts.Bert (runLines ok_bind' bind_assoc')

/-! ## A calculus -/

/-- `f` has the outcome `r` and writes lines for the levels DEBUG and INFO only, of which `E` holds. -/
def Notes {α : Type} (f : LogM α) (r : Res α) (E : α → List (Int × List Nat) → Prop) : Prop :=
  ∃ ls, Says f r ls ∧ (∀ l ∈ ls, l.1 ≤ 1) ∧ ∀ a, r = .ok a → E a ls

variable {α β : Type}

theorem Notes.pure {a : α} {E : α → List (Int × List Nat) → Prop} (h : E a []) : Notes (Pure.pure a) (.ok a) E :=
  ⟨[], says_pure a, by simp, by intro b hb; cases Res.ok.inj hb; exact h⟩

theorem Notes.lift {r : Res α} {E : α → List (Int × List Nat) → Prop} (h : ∀ a, r = .ok a → E a []) :
    Notes (Load.lift r) r E :=
  ⟨[], says_lift r, by simp, h⟩

theorem Notes.bind {m : LogM α} {r : Res α} {E0 : α → List (Int × List Nat) → Prop} {k : α → LogM β} {q : α → Res β}
    {E : β → List (Int × List Nat) → Prop} (h : Notes m r E0)
    (hk : ∀ a ls, r = .ok a → E0 a ls → Notes (k a) (q a) fun b ls' => E b (ls ++ ls')) :
    Notes (m >>= k) (r.bind q) E := by
  obtain ⟨ls, hs, hl, he⟩ := h
  by_cases hr : ∀ a, r ≠ .ok a
  · exact ⟨ls, hs.stop hr k q, hl, fun b hb => absurd hb (bind_not_ok hr q b)⟩
  · have ⟨a, ha⟩ : ∃ a, r = .ok a := Classical.byContradiction fun hn => hr fun a ha => hn ⟨a, ha⟩
    subst ha
    obtain ⟨ls', hs', hl', he'⟩ := hk a ls rfl (he a rfl)
    rw [ok_bind']
    refine ⟨ls ++ ls', hs.then hs', ?_, he'⟩
    intro l h
    rcases List.mem_append.mp h with h | h
    · exact hl l h
    · exact hl' l h

theorem Notes.lift_bind {r : Res α} {k : α → LogM β} {q : α → Res β} {E : β → List (Int × List Nat) → Prop}
    (hk : ∀ a, r = .ok a → Notes (k a) (q a) E) : Notes (Load.lift r >>= k) (r.bind q) E :=
  (Notes.lift (E := fun _ ls => ls = []) fun _ _ => rfl).bind fun a ls ha hl => by subst hl; exact hk a ha

theorem Notes.after {m : LogM α} {a : α} {ls : List (Int × List Nat)} {k : α → LogM β} {r : Res β}
    {E : β → List (Int × List Nat) → Prop} (hm : Says m (.ok a) ls) (hl : ∀ l ∈ ls, l.1 ≤ 1)
    (hk : Notes (k a) r fun b ls' => E b (ls ++ ls')) : Notes (m >>= k) r E := by
  obtain ⟨ls', hs', hl', he'⟩ := hk
  refine ⟨ls ++ ls', hm.then hs', ?_, he'⟩
  intro l h
  rcases List.mem_append.mp h with h | h
  · exact hl l h
  · exact hl' l h

theorem Notes.mono {f : LogM α} {r : Res α} {E E' : α → List (Int × List Nat) → Prop} (h : Notes f r E)
    (hE : ∀ a ls, r = .ok a → E a ls → E' a ls) : Notes f r E' := by
  obtain ⟨ls, hs, hl, he⟩ := h
  exact ⟨ls, hs, hl, fun a ha => hE a ls ha (he a ha)⟩

/-- Only lines for the level DEBUG; without `%` if `C`. -/
def Debug (C : Prop) (ls : List (Int × List Nat)) : Prop := ∀ l ∈ ls, l.1 = 0 ∧ (C → 37 ∉ l.2)

theorem debug_nil {C : Prop} : Debug C [] := by intro l hl; cases hl

theorem Debug.append {C : Prop} {a b : List (Int × List Nat)} (ha : Debug C a) (hb : Debug C b) : Debug C (a ++ b) := by
  intro l hl
  rcases List.mem_append.mp hl with h | h
  · exact ha l h
  · exact hb l h

theorem debug_one {C : Prop} {m : List Nat} (h : C → 37 ∉ m) : Debug C [line 0 m] := by
  intro x hx
  rw [List.mem_singleton] at hx
  subst hx
  exact ⟨rfl, h⟩

theorem Debug.low {C : Prop} {a : List (Int × List Nat)} (h : Debug C a) : ∀ l ∈ a, l.1 ≤ 1 := by
  intro l hl
  rw [(h l hl).1]
  decide

theorem says_debug {f : List Nat} {args : List Arg} {m : List Nat} (h : vformat f args = some m) :
    Says (sayF .debug f args) (.ok ()) [line 0 m] := says_sayF h

theorem says_error {f : List Nat} {args : List Arg} {m : List Nat} (h : vformat f args = some m) :
    Says (sayF .error f args) (.ok ()) [line 1 m] := says_sayF h

/-! ## No percent sign -/

theorem utf8_pct {cs : List Nat} (h : 37 ∉ cs) : 37 ∉ utf8Encode cs := by
  intro hm
  unfold utf8Encode at hm
  rw [List.mem_flatMap] at hm
  obtain ⟨c, hc, hm⟩ := hm
  have := utf8Of_low hm (by decide)
  subst this
  exact h hc

theorem utf16_pct {cs : List Nat} (h : 37 ∉ cs) : 37 ∉ utf16Encode cs := by
  intro hm
  unfold utf16Encode at hm
  rw [List.mem_flatMap] at hm
  obtain ⟨c, hc, hm⟩ := hm
  unfold utf16Of at hm
  split at hm
  · rw [List.mem_singleton] at hm; subst hm; exact h hc
  · simp only [List.mem_cons, List.not_mem_nil, or_false] at hm; omega

theorem eachCp_pct {skip : Bool} {us : List Nat} (h : 37 ∉ us) (sur : Nat) :
    37 ∉ (eachCpFrom skip sur us).map (·.c) := by
  induction us generalizing sur with
  | nil =>
    unfold eachCpFrom
    split <;> (try split) <;> simp
  | cons u us ih =>
    rw [List.mem_cons, not_or] at h
    rw [eachCpFrom, List.map_append, List.mem_append, not_or]
    refine ⟨?_, ih h.2 _⟩
    have hu : u ≠ 37 := fun h' => h.1 h'.symm
    have h3 : ∀ x ∈ (eachCpStep skip sur u).2, x.c ≠ 37 := by
      intro x hx
      unfold eachCpStep Cp.ofUnit at hx
      split at hx
      · split at hx
        · split at hx
          · simp at hx
          · rw [List.mem_singleton] at hx; subst hx; simp
        · rw [List.mem_singleton] at hx
          subst hx
          show (sur - 0xd800) * 0x400 + (u - 0xdc00) + 0x10000 ≠ 37
          omega
      · have hpre : ∀ x ∈ (if sur ≠ 0 then (if skip then [] else [(⟨0xfffd, sur, 0⟩ : Cp)]) else []), x.c ≠ 37 := by
          intro x hx
          split at hx
          · split at hx
            · simp at hx
            · rw [List.mem_singleton] at hx; subst hx; simp
          · simp at hx
        simp only at hx
        split at hx
        · exact hpre x hx
        · rcases List.mem_append.mp hx with hx | hx
          · exact hpre x hx
          · rw [List.mem_singleton] at hx; subst hx; exact hu
    intro hm
    obtain ⟨x, hx, hc⟩ := List.mem_map.mp hm
    exact h3 x hx hc

theorem codePoints_pct {us : List Nat} (h : 37 ∉ us) : 37 ∉ toCodePoints us := eachCp_pct h 0

theorem decode_pct {bs cs : List Nat} (h : utf8Decode bs = some cs) (hb : 37 ∉ bs) : 37 ∉ cs := by
  have e := (utf8Encode_decode bs cs h)
  intro hc
  apply hb
  rw [← e.1]
  unfold utf8Encode
  rw [List.mem_flatMap]
  exact ⟨37, hc, by decide⟩

theorem encodeUnits_text (l : List Nat) : encodeUnits l = .ok (unitText l) := by
  obtain ⟨w, h⟩ := Bert.good_encode (Bert.good_ofUnits l)
  unfold encodeUnits
  rw [h]
  rfl

theorem encodeBytes_pct {signed : Bool} {bs us : List Nat} (h : encodeBytes signed bs = .ok us) (hb : 37 ∉ bs) :
    37 ∉ us := by
  induction bs generalizing us with
  | nil => cases Res.ok.inj h; simp
  | cons c bs ih =>
    rw [List.mem_cons, not_or] at hb
    rw [encodeBytes] at h
    obtain ⟨u, h1, h⟩ := bind_eq_ok h
    obtain ⟨us', h2, h⟩ := bind_eq_ok h
    cases Res.ok.inj h
    rw [List.mem_cons, not_or]
    refine ⟨?_, ih h2 hb.2⟩
    rintro rfl
    unfold encodeByte at h1
    split at h1
    · cases h1
    · split at h1
      · cases h1
      · rename_i u hu
        cases Res.ok.inj h1
        by_cases hc : c < 256
        · have : ∀ c < 256, byteEncoder[c]? = some 37 → c = 37 := by decide +kernel
          exact hb.1 (this c hc hu).symm
        · rw [List.getElem?_eq_none (by rw [byteEncoder_length]; omega)] at hu
          cases hu

theorem splitLoop_mem (text : List Nat) (ms : List (Nat × Nat)) (cur added : Nat) (out : List (List Nat))
    (hout : ∀ p ∈ out, ∀ x ∈ p, x ∈ text) : ∀ p ∈ (Unicode.splitLoop text cur added out ms).1, ∀ x ∈ p, x ∈ text := by
  have hpiece : ∀ i n x, x ∈ (text.drop i).take n → x ∈ text := fun i n x hx =>
    List.mem_of_mem_drop (List.mem_of_mem_take hx)
  induction ms generalizing cur added out with
  | nil =>
    unfold Unicode.splitLoop
    split
    · intro p hp
      rcases List.mem_append.mp hp with hp | hp
      · exact hout p hp
      · rw [List.mem_singleton] at hp; subst hp; exact hpiece _ _
    · exact hout
  | cons m ms ih =>
    obtain ⟨s, e⟩ := m
    rw [Unicode.splitLoop]
    split
    all_goals
      rename_i out' added' heq
      apply ih
      intro p hp
      rcases List.mem_append.mp hp with hp | hp
      · split at heq
        all_goals
          injection heq with h1 h2
          subst h1
        · rcases List.mem_append.mp hp with hp | hp
          · exact hout p hp
          · rw [List.mem_singleton] at hp; subst hp; exact hpiece _ _
        · exact hout p hp
      · rw [List.mem_singleton] at hp; subst hp; exact hpiece _ _

theorem regexSplit_mem (text : List Nat) (ms : List (Nat × Nat)) :
    ∀ p ∈ (regexSplit text ms []).1, ∀ x ∈ p, x ∈ text := by
  unfold regexSplit
  split
  · simp
  · exact splitLoop_mem text ms 0 0 [] (by simp)

theorem flush_mem {tmp : List Nat} {out : List (Bool × List Nat)} {P : List Nat → Prop} (ht : P tmp)
    (ho : ∀ p ∈ out, P p.2) : ∀ p ∈ flush tmp out, P p.2 := by
  unfold flush
  split
  · intro p hp
    rcases List.mem_append.mp hp with hp | hp
    · exact ho p hp
    · rw [List.mem_singleton] at hp; subst hp; exact ht
  · exact ho

theorem pieces_mem {keeps : List (List Nat)} {fuel : Nat} {rest tmp : List Nat} {out pieces : List (Bool × List Nat)}
    (h : splitLoop keeps fuel rest tmp out = .ok pieces) (text : List Nat) (hr : ∀ x ∈ rest, x ∈ text)
    (ht : ∀ x ∈ tmp, x ∈ text) (ho : ∀ p ∈ out, ∀ x ∈ p.2, x ∈ text) : ∀ p ∈ pieces, ∀ x ∈ p.2, x ∈ text := by
  fun_induction splitLoop keeps fuel rest tmp out with
  | case1 => cases Res.ok.inj h; exact flush_mem (P := fun l => ∀ x ∈ l, x ∈ text) ht ho
  | case2 => cases h
  | case3 tmp out fuel c rest keep hk ih =>
    refine ih h (fun x hx => hr x (List.mem_of_mem_drop hx)) (by simp) ?_
    intro p hp
    rcases List.mem_append.mp hp with hp | hp
    · exact flush_mem (P := fun l => ∀ x ∈ l, x ∈ text) ht ho p hp
    · rw [List.mem_singleton] at hp
      subst hp
      intro x hx
      have := List.find?_some hk
      rw [List.isPrefixOf_iff_prefix] at this
      exact hr x (this.subset hx)
  | case4 tmp out fuel c rest hk ih =>
    refine ih h (fun x hx => hr x (by simp [hx])) ?_ ho
    intro x hx
    rcases List.mem_append.mp hx with hx | hx
    · exact ht x hx
    · rw [List.mem_singleton] at hx; subst hx; exact hr x (by simp)

/-- What stripping before the mask token gives. -/
theorem strip_good (ws : Nat → Bool) {bytes : List Nat} {u : UImpl} (h : (UImpl.ofUtf8 bytes).rstrip ws = .ok u) :
    ∃ cs, utf8Decode bytes = some cs ∧ Bert.Good u (utf16Encode (stripEnd ws cs)) ∧ ∀ c ∈ cs, IsScalar c := by
  cases hd : utf8Decode bytes with
  | none =>
    unfold UImpl.ofUtf8 UImpl.rstrip UImpl.codePointsOf UImpl.readUnits at h
    rw [hd] at h
    cases h
  | some cs =>
    obtain ⟨rfl, hs⟩ := utf8Encode_decode bytes cs hd
    refine ⟨cs, rfl, ?_, hs⟩
    obtain ⟨v, h1, h2⟩ := C06_rstrip ws (C07_utf8_round_trip cs hs).1 (utf16_units cs hs)
    rw [h1] at h
    cases Res.ok.inj h
    have : toCodePoints (utf16Encode cs) = cs := toCodePoints_encode cs hs false
    rw [this] at h2
    refine ⟨h2, ?_⟩
    unfold UImpl.rstrip at h1
    obtain ⟨x, hx, h1⟩ := bind_eq_ok h1
    have h1 : UImpl.ofUtf32 _ = u := Res.ok.inj h1
    rw [← h1]
    unfold UImpl.ofUtf32
    split
    · rfl
    · rename_i hn
      rw [← h1] at h2
      unfold UImpl.ofUtf32 at h2
      rw [if_neg hn] at h2
      cases h2.1

theorem subtextUnits_pct {ws : Nat → Bool} {bm : Bool} {bytes us : List Nat} (h : subtextUnits ws bm bytes = .ok us)
    (hb : 37 ∉ bytes) : 37 ∉ us := by
  cases bm with
  | true =>
    simp only [subtextUnits, if_true] at h
    obtain ⟨u, h1, h2⟩ := bind_eq_ok h
    obtain ⟨cs, hd, hg, _⟩ := strip_good ws h1
    rw [readUnits_rep hg.1] at h2
    cases Res.ok.inj h2
    exact utf16_pct fun hm => decode_pct hd hb ((stripEnd_sub ws cs).subset hm)
  | false =>
    simp only [subtextUnits, Bool.false_eq_true, if_false] at h
    cases hd : utf8Decode bytes with
    | none =>
      unfold UImpl.ofUtf8 UImpl.readUnits at h
      rw [hd] at h
      cases h
    | some cs =>
      obtain ⟨rfl, hs⟩ := utf8Encode_decode bytes cs hd
      rw [ofUtf8_units cs hs] at h
      cases Res.ok.inj h
      exact utf16_pct (decode_pct hd hb)

/-! ## Byte pair encoding -/

theorem fmt_merge (a b c : Nat) :
    vformat (bytes! "  * merge ({}, {}) -> {}") [numArg a, numArg b, numArg c] =
    some (bytes! "  * merge (" ++ decimal a ++ bytes! ", " ++ decimal b ++ bytes! ") -> " ++ decimal c) := by
  rw [vformat_parts (ps := lits (bytes! "  * merge (") ++ .field 0 [] :: (lits (bytes! ", ") ++ .field 1 [] ::
    (lits (bytes! ") -> ") ++ [.field 2 []]))) _ (by decide +kernel)]
  simp only [render_lits, render, List.getElem?_cons_zero, List.getElem?_cons_succ, numArg_text, Option.map_some,
    List.append_assoc, List.append_nil]

/-- The line about a merge of two symbols into a third. -/
def mergeLine (m : Nat × Nat × Nat) : Int × List Nat :=
  line 0 (bytes! "  * merge (" ++ decimal m.1 ++ bytes! ", " ++ decimal m.2.1 ++ bytes! ") -> " ++ decimal m.2.2)

/-- The merge done by an iteration. -/
def merged (c : Cfg) (s : Bpe.St) (e : Entry) : List (Nat × Nat × Nat) :=
  if 0 < c.dropout ∧ c.draw s.pops < c.dropout then []
  else
    match s.syms[e.index]? with
    | none => []
    | some sym =>
      if sym.len = 0 then []
      else
        match sym.next with
        | none => []
        | some nextPos =>
          match s.syms[nextPos]? with
          | none => []
          | some right =>
            match find c.merge (sym.id, right.id) with
            | none => []
            | some (_, newId) => if newId ≠ e.newId then [] else [(sym.id, right.id, e.newId)]

theorem iterationL_says (c : Cfg) (s : Bpe.St) (e : Entry) (q : List Entry) :
    Says (iterationL c s e q) (iteration c s e q) ((merged c s e).map mergeLine) := by
  unfold iterationL iteration merged
  by_cases hd : 0 < c.dropout ∧ c.draw s.pops < c.dropout
  · simp only [if_pos hd]
    exact says_pure _
  · simp only [if_neg hd]
    cases h1 : s.syms[e.index]? with
    | none => exact says_lift _
    | some sym =>
      simp only
      by_cases hl : sym.len = 0
      · simp only [if_pos hl]
        exact says_pure _
      · simp only [if_neg hl]
        cases h2 : sym.next with
        | none => exact says_pure _
        | some nextPos =>
          simp only
          cases h3 : s.syms[nextPos]? with
          | none => exact says_lift _
          | some right =>
            simp only
            cases h4 : find c.merge (sym.id, right.id) with
            | none => exact says_pure _
            | some p =>
              obtain ⟨rank, newId⟩ := p
              simp only
              by_cases hn : newId ≠ e.newId
              · simp only [if_pos hn]
                exact says_pure _
              · simp only [if_neg hn]
                refine (says_debug (fmt_merge sym.id right.id e.newId)).then ?_
                cases hm : doMerge c.merge s.syms e.index nextPos e.newId sym right with
                | ok r => exact (says_lift (.ok r)).then (says_pure _)
                | ub => exact (says_lift .ub).stop (by simp) _ (fun _ => .ub)
                | abort => exact (says_lift .abort).stop (by simp) _ (fun _ => .ub)
                | hang => exact (says_lift .hang).stop (by simp) _ (fun _ => .ub)

/-- The merges of a run of the main loop. -/
def merges (c : Cfg) : Nat → Bpe.St → List (Nat × Nat × Nat)
  | fuel, s =>
    if s.q = [] then []
    else
      match fuel with
      | 0 => []
      | fuel + 1 =>
        match s.q[c.pick s.pops s.q]? with
        | none => []
        | some e =>
          merged c s e ++
            (match iteration c s e (s.q.eraseIdx (c.pick s.pops s.q)) with
              | .ok s => merges c fuel s
              | _ => [])

theorem mainLoopL_says (c : Cfg) (fuel : Nat) (s : Bpe.St) :
    Says (mainLoopL c fuel s) (mainLoop c fuel s) ((merges c fuel s).map mergeLine) := by
  induction fuel generalizing s with
  | zero =>
    unfold mainLoopL mainLoop merges
    split
    · exact says_pure _
    · exact says_lift _
  | succ fuel ih =>
    unfold mainLoopL mainLoop merges
    by_cases hq : s.q = []
    · simp only [if_pos hq]; exact says_pure _
    · simp only [if_neg hq]
      cases he : s.q[c.pick s.pops s.q]? with
      | none => exact says_lift _
      | some e =>
        simp only [List.map_append]
        have hi := iterationL_says c s e (s.q.eraseIdx (c.pick s.pops s.q))
        cases hr : iteration c s e (s.q.eraseIdx (c.pick s.pops s.q)) with
        | ok s' => rw [hr] at hi; exact hi.then (ih s')
        | ub => rw [hr] at hi; simpa using hi.stop (by simp) _ (mainLoop c fuel)
        | abort => rw [hr] at hi; simpa using hi.stop (by simp) _ (mainLoop c fuel)
        | hang => rw [hr] at hi; simpa using hi.stop (by simp) _ (mainLoop c fuel)

theorem decimals_pct (syms : List Sym) : 37 ∉ idText syms := by
  unfold idText
  rw [List.mem_cons, List.mem_append, not_or, not_or]
  refine ⟨by decide, fun h => ?_, by decide⟩
  have h := (List.dropLast_sublist _).subset h
  obtain ⟨x, _, hx⟩ := List.mem_flatMap.mp h
  rcases List.mem_append.mp hx with hx | hx
  · exact decimal_no_percent _ hx
  · simp at hx

theorem fmt_ids (t : List Nat) :
    vformat (bytes! "  id = {}") [textArg t] = some (bytes! "  id = " ++ t) := by
  rw [vformat_parts (ps := lits (bytes! "  id = ") ++ [.field 0 []]) _ (by decide +kernel)]
  simp only [render_lits, render, List.getElem?_cons_zero, textArg_text, Option.map_some, List.append_nil]

theorem fmt_text (t : List Nat) :
    vformat (bytes! "  text = \"{}\"") [textArg t] = some (bytes! "  text = \"" ++ t ++ bytes! "\"") := by
  rw [vformat_parts (ps := lits (bytes! "  text = \"") ++ .field 0 [] :: lits (bytes! "\"")) _ (by decide +kernel)]
  simp only [render_lits, render_last, render, List.getElem?_cons_zero, textArg_text, Option.map_some, List.append_nil,
    List.append_assoc]

/-- The lines of a run of byte pair encoding on a text that is not in the cache. -/
def runOf (b : Bpe) (v : Bpe.Env) (text : Str) : List (Int × List Nat) :=
  line 0 (bytes! "  id = " ++ idText (initialSymbols b text)) ::
    (merges ⟨b.merge, b.dropout, v.draw, v.pick⟩ v.fuel
      ⟨initialSymbols b text, initQueue b.merge 0 (initialSymbols b text), [], 0⟩).map mergeLine

/-- A sequence whose second part writes nothing. -/
theorem says_bind {m : LogM α} {r : Res α} {ls : List (Int × List Nat)} (h : Says m r ls) {k : α → LogM β}
    {q : α → Res β} (hk : ∀ a, Says (k a) (q a) []) : Says (m >>= k) (r.bind q) ls := by
  cases r with
  | ok a => exact (h.then (hk a)).congr rfl (by simp)
  | ub => exact h.stop (by simp) k q
  | abort => exact h.stop (by simp) k q
  | hang => exact h.stop (by simp) k q

theorem tokensOfL_says (b : Bpe) (v : Bpe.Env) (text : Str) :
    Says (tokensOfL b v text) (Bpe.tokensOf b v text) (runOf b v text) := by
  unfold tokensOfL Bpe.tokensOf mergeAllL mergeAll runOf
  have h1 := (says_debug (fmt_ids (idText (initialSymbols b text)))).when (l := 0) (by simp [line])
  exact says_bind (h1.then (says_bind (mainLoopL_says _ _ _) fun s => says_pure _)) fun r => says_pure _

/-- The lines at the start of byte pair encoding. -/
def startOf (text : Str) : List (Int × List Nat) :=
  [line 0 (bytes! "start BPE tokenization"), line 0 (bytes! "  text = \"" ++ unitText text ++ bytes! "\"")]

theorem start_says (text : Str) :
    Says (sayWhen 0 do
      say .debug (bytes! "start BPE tokenization")
      let t ← Load.lift (encodeUnits text)
      sayF .debug (bytes! "  text = \"{}\"") [textArg t]) (.ok ()) (startOf text) := by
  refine Says.when ?_ (by simp [startOf, line])
  rw [encodeUnits_text]
  exact (says_say .debug _).then ((says_lift (.ok (unitText text))).then
    (k := fun t => sayF .debug (bytes! "  text = \"{}\"") [textArg t]) (says_debug (fmt_text _)))

/-- A text is in the cache. -/
def cached (b : Bpe) (text : Str) : Option (List (Str × List Str)) → Option (List Str)
  | some m => if b.dropout = 0 then find m text else none
  | none => none

/-- The lines of byte pair encoding. -/
def bpeOf (b : Bpe) (v : Bpe.Env) (text : Str) (cache : Option (List (Str × List Str))) : List (Int × List Nat) :=
  startOf text ++
    if text = [] then []
    else
      match cached b text cache with
      | some _ => []
      | none => runOf b v text ++
        (match Bpe.tokensOf b v text with | .ok _ => [line 0 (bytes! "finish BPE tokenization")] | _ => [])

theorem bpeL_says (b : Bpe) (v : Bpe.Env) (text : Str) (result : List Str)
    (cache : Option (List (Str × List Str))) :
    Says (Bpe.tokenizeL b v text result cache) (Bpe.tokenize b v text result cache) (bpeOf b v text cache) := by
  unfold Bpe.tokenizeL Bpe.tokenize bpeOf
  refine (start_says text).then (k := fun _ => _) ?_
  by_cases ht : text = []
  · simp only [if_pos ht]
    exact says_pure _
  · simp only [if_neg ht]
    change Says (match cached b text cache with | some c => _ | none => _)
      (match cached b text cache with | some c => _ | none => _) _
    cases cached b text cache with
    | some c => exact says_pure _
    | none =>
      simp only
      have h := tokensOfL_says b v text
      cases hr : Bpe.tokensOf b v text with
      | ok toks =>
        rw [hr] at h
        rw [ok_bind']
        refine h.then ((says_say .debug (bytes! "finish BPE tokenization")).then (ls' := []) ?_)
        cases cache with
        | none => exact says_pure _
        | some m =>
          simp only
          split
          · exact says_pure _
          · exact says_pure _
      | ub => rw [hr] at h; exact (h.stop (by simp) _ (fun _ => .ub)).congr rfl (by simp)
      | abort => rw [hr] at h; exact (h.stop (by simp) _ (fun _ => .ub)).congr rfl (by simp)
      | hang => rw [hr] at h; exact (h.stop (by simp) _ (fun _ => .ub)).congr rfl (by simp)

theorem runOf_debug (C : Prop) (b : Bpe) (v : Bpe.Env) (text : Str) : Debug C (runOf b v text) := by
  intro l hl
  unfold runOf at hl
  rcases List.mem_cons.mp hl with rfl | hl
  · refine ⟨rfl, fun _ => ?_⟩
    simp only [line, List.mem_append, not_or]
    exact ⟨by decide, decimals_pct _⟩
  · obtain ⟨m, _, rfl⟩ := List.mem_map.mp hl
    refine ⟨rfl, fun _ => ?_⟩
    simp only [mergeLine, line, List.mem_append, not_or]
    exact ⟨⟨⟨⟨⟨by decide, decimal_no_percent _⟩, by decide⟩, decimal_no_percent _⟩, by decide⟩, decimal_no_percent _⟩

theorem bpeOf_debug (C : Prop) (b : Bpe) (v : Bpe.Env) (text : Str) (cache : Option (List (Str × List Str)))
    (h : C → 37 ∉ text) : Debug C (bpeOf b v text cache) := by
  unfold bpeOf
  refine Debug.append ?_ ?_
  · unfold startOf
    refine Debug.append (a := [_]) (b := [_]) (debug_one fun _ => by decide) (debug_one fun hC => ?_)
    simp only [List.mem_append, not_or]
    exact ⟨⟨by decide, unitText_no_percent _ (h hC)⟩, by decide⟩
  · split
    · exact debug_nil
    · split
      · exact debug_nil
      · refine (runOf_debug C b v text).append ?_
        split
        · exact debug_one fun _ => by decide
        · exact debug_nil

theorem bpeLoopL_notes (C : Prop) (e : Env) (b : Bpe) (ss : List Str) (hC : C → ∀ s ∈ ss, 37 ∉ s) (toks : List Str)
    (cache : Cache) :
    Notes (bpeLoopL e b ss toks cache) (bpeLoop e b ss toks cache) fun _ ls => Debug C ls := by
  induction ss generalizing toks cache with
  | nil => exact Notes.pure debug_nil
  | cons s ss ih =>
    unfold bpeLoopL bpeLoop
    refine Notes.lift_bind fun bytes hb => Notes.lift_bind fun us hu => ?_
    rw [encodeUnits_text] at hb
    cases Res.ok.inj hb
    have hd : Debug C (bpeOf b e.bpe us (some cache)) := bpeOf_debug C b e.bpe us _ fun hc =>
      encodeBytes_pct hu (unitText_no_percent _ (hC hc s (by simp)))
    refine Notes.bind (E0 := fun _ ls => Debug C ls) ⟨_, bpeL_says b e.bpe us toks (some cache), hd.low, fun _ _ => hd⟩ ?_
    intro r ls _ h1
    exact (ih (fun hc s hs => hC hc s (by simp [hs])) r.1 (r.2.getD [])).mono fun _ ls' _ h2 => h1.append h2

/-! ## The pieces -/

/-- What has been written when `o` is the outcome: on success only lines for the level DEBUG, on failure two more lines
about a token without id. -/
def Story (C : Prop) (v : VocabT) (ws : Nat → Bool) (o : Option (List Nat)) (ls : List (Int × List Nat)) : Prop :=
  match o with
  | some _ => Debug C ls
  | none => ∃ ds t ms, ls = ds ++ ms ∧ Debug C ds ∧ Complains ws t ms ∧ v.tokenToId t = INVALID

theorem Story.after {C : Prop} {v : VocabT} {ws : Nat → Bool} {o : Option (List Nat)} {ds ls : List (Int × List Nat)}
    (hd : Debug C ds) (h : Story C v ws o ls) : Story C v ws o (ds ++ ls) := by
  cases o with
  | some ids => exact Debug.append hd h
  | none =>
    obtain ⟨ds', t, ms, rfl, h1, h2, h3⟩ := h
    exact ⟨ds ++ ds', t, ms, by simp, hd.append h1, h2, h3⟩

theorem fmt_noToken (t : List Nat) :
    vformat (bytes! "token {} is not found") [textArg t] = some (bytes! "token " ++ t ++ bytes! " is not found") :=
  Load.fmt_notFound t

theorem fmt_failed (t : List Nat) :
    vformat (bytes! "failed to tokenize: {}") [textArg t] = some (bytes! "failed to tokenize: " ++ t) := by
  rw [vformat_parts (ps := lits (bytes! "failed to tokenize: ") ++ [.field 0 []]) _ (by decide +kernel)]
  simp only [render_lits, render, List.getElem?_cons_zero, textArg_text, Option.map_some, List.append_nil]

theorem fmt_unknown (t : List Nat) :
    vformat (bytes! "unknown special token: \"{}\"") [textArg t] =
      some (bytes! "unknown special token: \"" ++ t ++ bytes! "\"") := by
  rw [vformat_parts (ps := lits (bytes! "unknown special token: \"") ++ .field 0 [] :: lits (bytes! "\"")) _
    (by decide +kernel)]
  simp only [render_lits, render_last, render, List.getElem?_cons_zero, textArg_text, Option.map_some,
    List.append_assoc]

theorem fmt_special (t : List Nat) (n : Nat) :
    vformat (bytes! "special token: {} ({})") [textArg t, numArg n] =
      some (bytes! "special token: " ++ t ++ bytes! " (" ++ decimal n ++ bytes! ")") := by
  rw [vformat_parts (ps := lits (bytes! "special token: ") ++ .field 0 [] :: (lits (bytes! " (") ++ .field 1 [] ::
    lits (bytes! ")"))) _ (by decide +kernel)]
  simp only [render_lits, render_last, render, List.getElem?_cons_zero, List.getElem?_cons_succ, textArg_text,
    numArg_text, Option.map_some, List.append_assoc]

theorem fmt_subtext (t x : List Nat) :
    vformat (bytes! "    \"{}\" {}") [textArg t, textArg x] =
      some (bytes! "    \"" ++ t ++ bytes! "\" " ++ x) := by
  rw [vformat_parts (ps := lits (bytes! "    \"") ++ .field 0 [] :: (lits (bytes! "\" ") ++ [.field 1 []])) _
    (by decide +kernel)]
  simp only [render_lits, render, List.getElem?_cons_zero, List.getElem?_cons_succ, textArg_text,
    Option.map_some, List.append_assoc, List.append_nil]

theorem tokenToIdL_says (v : VocabT) (t : List Nat) :
    Says (tokenToIdL v t) (.ok (v.tokenToId t))
      (if v.tokenToId t = INVALID then [line 1 (bytes! "token " ++ t ++ bytes! " is not found")] else []) := by
  unfold tokenToIdL
  by_cases h : v.tokenToId t = INVALID
  · simp only [if_pos h]
    exact (says_error (fmt_noToken t)).then (ls' := []) (says_pure _)
  · simp only [if_neg h]
    exact says_pure _

/-- Encoding the units of an object twice. -/
theorem encode_twice (t : Str) : ∃ u u', (UImpl.ofUnits t).encode = .ok (unitText t, u) ∧
    u.encode = .ok (unitText t, u') := by
  obtain ⟨u, h⟩ := Bert.good_encode (Bert.good_ofUnits t)
  refine ⟨u, ?_⟩
  rw [h]
  suffices hu : ∃ u', u.encode = .ok (unitText t, u') from let ⟨u', h'⟩ := hu; ⟨u', rfl, h'⟩
  by_cases ht : t = []
  · subst ht
    unfold UImpl.encode at h
    cases Res.ok.inj h
    exact ⟨_, rfl⟩
  · have hr := (Bert.good_ofUnits t).1
    unfold UImpl.encode at h
    rw [hr.2, if_neg ht] at h
    simp only [show (UImpl.ofUnits t).e = .zero from rfl, readUnits_rep hr, Res.bind_ok, Res.pure_eq] at h
    split at h
    · injection h with h
      injection h with h1 h2
      rw [← h2]
      exact Bert.good_encode ⟨⟨hr.1, by rw [if_neg ht]⟩, rfl⟩
    · injection h with h
      injection h with h1 h2
      rw [← h2, ← h1]
      unfold UImpl.encode
      simp only
      exact ⟨_, rfl⟩

theorem idLoopL_notes (C : Prop) (v : VocabT) (ws : Nat → Bool) (ts : List Str) (result : List Nat) :
    Notes (idLoopL v ts result) (idLoop v ts result) fun o ls => Story C v ws o ls := by
  induction ts generalizing result with
  | nil => exact Notes.pure debug_nil
  | cons t ts ih =>
    obtain ⟨u, u', h1, h2⟩ := encode_twice t
    unfold idLoopL idLoop
    rw [h1, encodeUnits_text, ok_bind']
    refine Notes.after (says_lift _) (by simp) ?_
    refine Notes.after (tokenToIdL_says v (unitText t)) (by split <;> simp [line]) ?_
    by_cases hi : v.tokenToId (unitText t) = INVALID
    · simp only [if_pos hi, h2]
      refine Notes.after (says_lift _) (by simp) ?_
      refine Notes.after (says_error (fmt_failed (unitText t))) (by simp [line]) ?_
      exact Notes.pure ⟨[], unitText t, _, rfl, debug_nil, .plain, hi⟩
    · simp only [if_neg hi]
      exact ih _

theorem plainPieceL_notes (C : Prop) (e : Env) (r : RVocab) (units : List Nat) (cache : Cache) (result : List Nat)
    (hC : C → 37 ∉ units) :
    Notes (plainPieceL e r units cache result) (plainPiece e r units cache result)
      fun p ls => Story C r.v e.ws p.1 ls := by
  unfold plainPieceL plainPiece
  refine (bpeLoopL_notes C e r.bpe _ ?_ [] cache).bind fun p ls _ h1 => ?_
  · intro hc s hs h37
    exact hC hc (regexSplit_mem units (e.matches_ units) s hs 37 h37)
  · refine (idLoopL_notes C r.v e.ws p.1 result).bind fun o ls' _ h2 => ?_
    exact Notes.pure (by simpa using h2.after h1)

theorem text_utf16 {cs : List Nat} (h : ∀ c ∈ cs, IsScalar c) : unitText (utf16Encode cs) = utf8Encode cs := by
  unfold unitText
  rw [decodeUnits_encode cs h, if_neg (by simp)]
  congr 1
  induction cs with
  | nil => rfl
  | cons c cs ih => simpa using ih fun x hx => h x (by simp [hx])

/-- The string object of a special piece can be shown. -/
theorem special_shown (ws : Nat → Bool) (bm : Bool) {bytes : List Nat} {u : UImpl}
    (h : (if bm then (UImpl.ofUtf8 bytes).rstrip ws else Res.ok (UImpl.ofUtf8 bytes)) = .ok u) :
    ∃ u', u.encode = .ok (shownSpecial ws bm bytes, u') := by
  unfold shownSpecial
  cases bm with
  | true =>
    simp only [if_true] at h
    obtain ⟨cs, hd, hg, hs⟩ := strip_good ws h
    obtain ⟨u', hu⟩ := Bert.good_encode hg
    rw [text_utf16 fun c hc => hs c ((stripEnd_sub ws cs).subset hc)] at hu
    rw [hd]
    exact ⟨u', hu⟩
  | false =>
    simp only [Bool.false_eq_true, if_false] at h
    cases Res.ok.inj h
    cases hd : utf8Decode bytes with
    | none =>
      unfold UImpl.ofUtf8 UImpl.encode
      rw [hd]
      exact ⟨_, rfl⟩
    | some cs =>
      have hs := (utf8Encode_decode bytes cs hd).2
      have hg : Bert.Good (UImpl.ofUtf8 bytes) (utf16Encode cs) := by
        unfold UImpl.ofUtf8
        rw [hd]
        exact ⟨rep_e _ (rep_allocFill _ _), rfl⟩
      obtain ⟨u', hu⟩ := Bert.good_encode hg
      rw [text_utf16 hs] at hu
      exact ⟨u', by simpa using hu⟩

theorem shownSpecial_pct {ws : Nat → Bool} {bm : Bool} {t : List Nat} (h : 37 ∉ t) : 37 ∉ shownSpecial ws bm t := by
  unfold shownSpecial
  split
  · simp
  · rename_i cs hd
    refine utf8_pct fun hm => decode_pct hd h ?_
    split at hm
    · exact (stripEnd_sub ws cs).subset hm
    · exact hm

theorem specialPieceL_notes (C : Prop) (ws : Nat → Bool) (v : VocabT) (bm : Bool) (bytes result : List Nat)
    (hC : C → 37 ∉ bytes) :
    Notes (specialPieceL ws v bm bytes result) (specialPiece ws v bm bytes result) fun o ls => Story C v ws o ls := by
  have key : ∀ u, (if bm then (UImpl.ofUtf8 bytes).rstrip ws else Res.ok (UImpl.ofUtf8 bytes)) = .ok u →
      Notes (do
        let id ← tokenToIdL v bytes
        if id = INVALID then
          let t ← Load.lift u.encode
          sayF .error (bytes! "unknown special token: \"{}\"") [textArg t.1]
          Pure.pure none
        else
          sayWhen 0 do
            let t ← Load.lift u.encode
            sayF .debug (bytes! "special token: {} ({})") [textArg t.1, numArg id]
          Pure.pure (some (result ++ [id])))
        (if v.tokenToId bytes = INVALID then Res.ok none else Res.ok (some (result ++ [v.tokenToId bytes])))
        fun o ls => Story C v ws o ls := by
    intro u hu
    obtain ⟨u', he⟩ := special_shown ws bm hu
    refine Notes.after (tokenToIdL_says v bytes) (by split <;> simp [line]) ?_
    rw [he]
    by_cases hi : v.tokenToId bytes = INVALID
    · simp only [if_pos hi]
      refine Notes.after (says_lift _) (by simp) ?_
      refine Notes.after (says_error (fmt_unknown _)) (by simp [line]) ?_
      exact Notes.pure ⟨[], bytes, _, rfl, debug_nil, .special bm, hi⟩
    · simp only [if_neg hi]
      have hs : Says (sayWhen 0 do
            let t ← Load.lift (Res.ok (shownSpecial ws bm bytes, u'))
            sayF .debug (bytes! "special token: {} ({})") [textArg t.1, numArg (v.tokenToId bytes)]) (.ok ())
          [line 0 (bytes! "special token: " ++ shownSpecial ws bm bytes ++ bytes! " (" ++
            decimal (v.tokenToId bytes) ++ bytes! ")")] :=
        Says.when ((says_lift (Res.ok (shownSpecial ws bm bytes, u'))).then
          (k := fun t => sayF .debug (bytes! "special token: {} ({})") [textArg t.1, numArg (v.tokenToId bytes)])
          (says_debug (fmt_special _ _))) (by simp [line])
      refine Notes.after hs (by simp [line]) ?_
      refine Notes.pure ?_
      refine debug_one fun hc => ?_
      simp only [List.mem_append, not_or]
      exact ⟨⟨⟨⟨by decide, shownSpecial_pct (hC hc)⟩, by decide⟩, decimal_no_percent _⟩, by decide⟩
  unfold specialPieceL specialPiece
  cases bm with
  | false =>
    simp only [Bool.false_eq_true, if_false, ok_bind']
    exact Notes.after (says_lift _) (by simp) (key _ rfl)
  | true =>
    simp only [if_true, subtextUnits, bind_assoc']
    refine Notes.lift_bind fun u hu => ?_
    obtain ⟨cs, _, hg, _⟩ := strip_good ws hu
    rw [readUnits_rep hg.1, ok_bind']
    exact key u hu

theorem pieceLoopL_notes (C : Prop) (e : Env) (r : RVocab) (mask : List Nat) (ps : List (Bool × List Nat))
    (cache : Cache) (result : List Nat) (hC : C → ∀ p ∈ ps, 37 ∉ p.2) :
    Notes (pieceLoopL e r mask ps cache result) (pieceLoop e r mask ps cache result)
      fun o ls => Story C r.v e.ws o ls := by
  induction ps generalizing cache result with
  | nil => exact Notes.pure debug_nil
  | cons p ps ih =>
    have ih := fun cache result => ih cache result fun hc p hp => hC hc p (by simp [hp])
    obtain ⟨sp, s⟩ := p
    have hs : C → 37 ∉ s := fun hc => hC hc (sp, s) (by simp)
    cases sp with
    | true =>
      unfold pieceLoopL pieceLoop
      refine (specialPieceL_notes C e.ws r.v (nextIsMask mask ps) s result hs).bind fun o ls _ h1 => ?_
      cases o with
      | none => exact Notes.pure (by simpa using h1)
      | some ids => exact (ih cache ids).mono fun _ _ _ h2 => h2.after h1
    | false =>
      unfold pieceLoopL pieceLoop
      refine Notes.lift_bind fun units hu => ?_
      refine (plainPieceL_notes C e r units cache result fun hc => subtextUnits_pct hu (hs hc)).bind fun p ls _ h1 => ?_
      obtain ⟨o, cache'⟩ := p
      cases o with
      | none => exact Notes.pure (by simpa using h1)
      | some ids => exact (ih cache' ids).mono fun _ _ _ h2 => h2.after h1

/-! ## The call -/

/-- The lines about an id. -/
def idLines (v : VocabT) (id : Nat) : List (Int × List Nat) := specialLines v.idToTok.length [id]

theorem idToTokenL_notes (v : VocabT) (id : Nat) :
    Notes (idToTokenL v id) (idToToken v id) fun _ ls => ls = idLines v id := by
  unfold idToTokenL idLines specialLines
  by_cases h : v.idToTok.length ≤ id
  · simp only [if_pos h]
    refine Notes.after (says_error (Load.fmt_noId id v.idToTok.length)) (by simp [line]) ?_
    exact Notes.lift fun _ _ => by simp [h]
  · simp only [if_neg h]
    exact Notes.lift fun _ _ => by simp [h]

theorem idLines_cons (v : VocabT) (i : Nat) (is : List Nat) :
    specialLines v.idToTok.length (i :: is) = idLines v i ++ specialLines v.idToTok.length is := by
  unfold idLines specialLines
  by_cases h : v.idToTok.length ≤ i <;> simp [h]

theorem specialTokensL_notes (v : VocabT) (sp : Special) :
    Notes (specialTokensL v sp) (specialTokens v sp) fun _ ls =>
      ls = specialLines v.idToTok.length [sp.bos, sp.eos, sp.cls, sp.mask, sp.pad, sp.sep, sp.unk] := by
  unfold specialTokensL specialTokens
  refine (idToTokenL_notes v sp.bos).bind fun _ _ _ h1 => ?_
  refine (idToTokenL_notes v sp.eos).bind fun _ _ _ h2 => ?_
  refine (idToTokenL_notes v sp.cls).bind fun _ _ _ h3 => ?_
  refine (idToTokenL_notes v sp.mask).bind fun _ _ _ h4 => ?_
  refine (idToTokenL_notes v sp.pad).bind fun _ _ _ h5 => ?_
  refine (idToTokenL_notes v sp.sep).bind fun _ _ _ h6 => ?_
  refine (idToTokenL_notes v sp.unk).bind fun _ _ _ h7 => ?_
  refine Notes.pure ?_
  subst h1 h2 h3 h4 h5 h6 h7
  simp only [idLines_cons, List.append_nil]
  simp [specialLines]

theorem subtextsL_says (C : Prop) (ps : List (Bool × List Nat)) (hC : C → ∀ p ∈ ps, 37 ∉ p.2) :
    ∃ ls, Says (subtextsL ps) (.ok ()) ls ∧ Debug C ls := by
  induction ps with
  | nil => exact ⟨[], says_pure (), debug_nil⟩
  | cons p ps ih =>
    obtain ⟨sp, s⟩ := p
    obtain ⟨ls, h1, h2⟩ := ih fun hc p hp => hC hc p (by simp [hp])
    refine ⟨_, (says_debug (fmt_subtext s (if sp then bytes! "*" else []))).then h1, ?_⟩
    refine Debug.append (debug_one fun hc => ?_) h2
    simp only [List.mem_append, not_or]
    refine ⟨⟨⟨by decide, hC hc (sp, s) (by simp)⟩, by decide⟩, ?_⟩
    cases sp <;> decide

/-- What a call has written: the lines for the level INFO and above are `start` and, on failure, the two lines about a
token without id; if `C`, all but these two are without `%`. -/
def Tale (C : Prop) (v : VocabT) (ws : Nat → Bool) (start : List (Int × List Nat)) (o : Option (List Nat))
    (ls : List (Int × List Nat)) : Prop :=
  ∃ ds ms, ls = ds ++ ms ∧ ds.filter (fun l => 1 ≤ l.1) = start ∧ (C → ∀ l ∈ ds, 37 ∉ l.2) ∧
    match o with
    | some _ => ms = []
    | none => ∃ t, Complains ws t ms ∧ v.tokenToId t = INVALID

theorem Debug.silent {C : Prop} {ls : List (Int × List Nat)} (h : Debug C ls) : ls.filter (fun l => 1 ≤ l.1) = [] := by
  rw [List.filter_eq_nil_iff]
  intro l hl
  rw [(h l hl).1]
  decide

theorem specialLines_all (n : Nat) (is : List Nat) : (specialLines n is).filter (fun l => 1 ≤ l.1) = specialLines n is := by
  rw [List.filter_eq_self]
  intro l hl
  obtain ⟨i, _, rfl⟩ := List.mem_map.mp hl
  rfl

theorem specialLines_pct (n : Nat) (is : List Nat) : ∀ l ∈ specialLines n is, 37 ∉ l.2 := by
  intro l hl
  obtain ⟨i, _, rfl⟩ := List.mem_map.mp hl
  simp only [line, List.mem_append, not_or]
  exact ⟨⟨⟨⟨by decide, decimal_no_percent _⟩, by decide⟩, decimal_no_percent _⟩, by decide⟩

theorem tokenizeWithL_notes (e : Env) (r : RVocab) (keeps : List (List Nat)) (text result : List Nat) :
    Notes (tokenizeWithL e r keeps text result) (tokenizeWith e r keeps text result)
      fun o ls => Tale (37 ∉ text) r.v e.ws
        (line 1 (bytes! "tokenization start") :: specialLines r.v.idToTok.length [r.special.mask]) o ls := by
  unfold tokenizeWithL tokenizeWith
  refine Notes.after (says_say .info _) (by simp [line, Sev.val]) ?_
  refine Notes.lift_bind fun pieces hp => ?_
  have hC : 37 ∉ text → ∀ p ∈ pieces, 37 ∉ p.2 := fun ht p hm h37 =>
    ht (pieces_mem hp text (fun _ h => h) (by simp) (by simp) p hm 37 h37)
  obtain ⟨ss, hs, hd⟩ := subtextsL_says (37 ∉ text) pieces hC
  have hd : Debug (37 ∉ text) (line 0 (bytes! "  subtexts:") :: ss) :=
    Debug.append (a := [_]) (debug_one fun _ => by decide) hd
  have hs : Says (sayWhen 0 do
      say .debug (bytes! "  subtexts:")
      subtextsL pieces) (.ok ()) (line 0 (bytes! "  subtexts:") :: ss) :=
    Says.when ((says_say .debug _).then hs) (fun l hl => by rw [(hd l hl).1]; decide)
  refine Notes.after hs hd.low ?_
  refine (idToTokenL_notes r.v r.special.mask).bind fun mask ls _ hls => ?_
  subst hls
  have hp := pieceLoopL_notes (37 ∉ text) e r mask pieces [] result hC
  have hb : ∀ x : Res (Option (List Nat)), x = x.bind fun o => .ok o := by intro x; cases x <;> rfl
  rw [hb (pieceLoop e r mask pieces [] result)]
  have pre : ∀ ds : List (Int × List Nat), Debug (37 ∉ text) ds →
      (([line 1 (bytes! "tokenization start")] ++ (line 0 (bytes! "  subtexts:") :: ss)) ++ idLines r.v r.special.mask
        ++ ds).filter (fun l => 1 ≤ l.1) =
      line 1 (bytes! "tokenization start") :: specialLines r.v.idToTok.length [r.special.mask] := by
    intro ds h
    rw [List.filter_append, List.filter_append, List.filter_append, hd.silent, h.silent]
    unfold idLines
    rw [specialLines_all]
    simp [line]
  have pct : ∀ ds : List (Int × List Nat), Debug (37 ∉ text) ds → 37 ∉ text → ∀ l ∈
      (([line 1 (bytes! "tokenization start")] ++ (line 0 (bytes! "  subtexts:") :: ss)) ++ idLines r.v r.special.mask
        ++ ds), 37 ∉ l.2 := by
    intro ds h ht l hl
    simp only [List.mem_append, List.mem_singleton] at hl
    rcases hl with ((rfl | hl) | hl) | hl
    · decide
    · exact (hd l hl).2 ht
    · exact specialLines_pct _ _ l hl
    · exact (h l hl).2 ht
  refine hp.bind fun o ls _ h => ?_
  cases o with
  | none =>
    obtain ⟨ds, t, ms, rfl, h1, h2, h3⟩ := h
    refine Notes.pure ⟨_, ms, ?_, pre ds h1, pct ds h1, t, h2, h3⟩
    simp only [List.append_assoc, List.append_nil]
    rfl
  | some ids =>
    refine Notes.after (says_say .debug _) (by simp [line, Sev.val]) ?_
    have h : Debug (37 ∉ text) (ls ++ [line Sev.debug.val (bytes! "finish tokenization")]) :=
      Debug.append h (debug_one (m := bytes! "finish tokenization") fun _ => by decide)
    refine Notes.pure ⟨_, [], ?_, pre _ h, pct _ h, rfl⟩
    simp only [List.append_assoc, List.append_nil]
    rfl

theorem tokenizeL_notes (e : Env) (r : RVocab) (setOrder : List (List Nat) → List (List Nat)) (text : List Nat) :
    Notes (tokenizeL e r setOrder text) (tokenize e r setOrder text)
      fun o ls => Tale (37 ∉ text) r.v e.ws (startLines r.v.idToTok.length r.special) o ls := by
  unfold tokenizeL tokenize
  refine (specialTokensL_notes r.v r.special).bind fun sps ls _ hls => ?_
  subst hls
  refine (tokenizeWithL_notes e r (setOrder sps) text []).mono ?_
  rintro o ls' _ ⟨ds, ms, rfl, h1, h2, h3⟩
  refine ⟨specialLines _ _ ++ ds, ms, (List.append_assoc _ _ _).symm, ?_, ?_, h3⟩
  · rw [List.filter_append, specialLines_all, h1]
    rfl
  · intro hc l hl
    rcases List.mem_append.mp hl with hl | hl
    · exact specialLines_pct _ _ l hl
    · exact h2 hc l hl

end Berts.Roberta
