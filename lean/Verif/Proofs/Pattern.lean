import Verif.Spec.Pattern
import Verif.Spec.Roberta
import Verif.Proofs.RobertaTok

/-! # Proofs: the regular expression of the RoBERTa tokenizer -/

namespace Berts.Pattern

open Berts.Unicode Berts.Spec

/-! ## Any expression -/

theorem reps_suffix (f : List Nat → List (List Nat)) (hf : ∀ s, ∀ s' ∈ f s, s' <:+ s) (n : Nat) :
    ∀ s, ∀ s' ∈ reps f n s, s' <:+ s := by
  induction n with
  | zero => intro s s' h; cases h
  | succ n ih =>
    intro s s' h
    simp only [reps, List.mem_flatMap, List.mem_append, List.mem_singleton] at h
    obtain ⟨t, h1, h2 | h2⟩ := h
    · exact (ih t s' h2).trans (hf s t h1)
    · exact h2 ▸ hf s t h1

theorem run_suffix (cl : Classes) (r : Rx) : ∀ s, ∀ s' ∈ r.run cl s, s' <:+ s := by
  induction r with
  | nil => intro s s' h; simp [Rx.run] at h; exact h ▸ List.suffix_refl _
  | one neg items =>
    intro s s' h
    cases s with
    | nil => cases h
    | cons c s =>
      simp only [Rx.run] at h
      split at h
      · simp at h; exact h ▸ List.suffix_cons c s
      · cases h
  | seq a b iha ihb =>
    intro s s' h
    simp only [Rx.run, List.mem_flatMap] at h
    obtain ⟨t, h1, h2⟩ := h
    exact (ihb t s' h2).trans (iha s t h1)
  | alt a b iha ihb =>
    intro s s' h
    simp only [Rx.run, List.mem_append] at h
    exact h.elim (iha s s') (ihb s s')
  | opt a iha =>
    intro s s' h
    simp only [Rx.run, List.mem_append, List.mem_singleton] at h
    rcases h with h | h
    · exact iha s s' h
    · exact h ▸ List.suffix_refl _
  | plus a iha => intro s s' h; exact reps_suffix _ iha _ s s' h
  | notAhead a iha =>
    intro s s' h
    simp only [Rx.run] at h
    split at h
    · simp at h; exact h ▸ List.suffix_refl _
    · cases h

theorem head_mem {α : Type} {l : List α} {a : α} (h : l.head? = some a) : a ∈ l := by
  cases l with
  | nil => cases h
  | cons b l => cases h; simp

/-- The matches are in order and inside the text. -/
theorem findAll_ordered (cl : Classes) (r : Rx) (N : Nat) : ∀ (n pos : Nat) (s : List Nat),
    pos + s.length = N → Matches N pos (findAll cl r n pos s) := by
  intro n
  induction n with
  | zero => intro pos s h; simp only [findAll, Matches]; omega
  | succ n ih =>
    intro pos s h
    have weak : ∀ ms p, Matches N (p + 1) ms → Matches N p ms := by
      intro ms p hm
      cases ms with
      | nil => simp only [Matches] at hm ⊢; omega
      | cons m ms => obtain ⟨a, b, c⟩ := hm; exact ⟨by omega, b, c⟩
    have step : ∀ u : List Nat, pos + u.length = N →
        Matches N pos (match u with | [] => [] | _ :: t => findAll cl r n (pos + 1) t) := by
      intro u hu
      cases u with
      | nil => simp only [Matches]; simpa using Nat.le_of_eq hu
      | cons c t =>
        simp only [List.length_cons] at hu
        exact weak _ _ (ih (pos + 1) t (by omega))
    unfold findAll
    split
    · rename_i s' hs'
      split
      · have := (run_suffix cl r s s' (head_mem hs')).length_le
        exact ⟨Nat.le_refl _, by omega, ih _ s' (by omega)⟩
      · exact ⟨Nat.le_refl _, Nat.le_refl _, step s h⟩
    · exact step s h

theorem offset_le (cs : List (Nat × Nat)) {i j : Nat} (h : i ≤ j) : offset cs i ≤ offset cs j := by
  unfold offset
  have : cs.take j = cs.take i ++ (cs.take j).drop i := by
    have e : cs.take i = (cs.take j).take i := by rw [List.take_take, Nat.min_eq_left h]
    rw [e, List.take_append_drop]
  rw [this]
  simp

theorem chars_sum (units : List Nat) : ((chars units).map (·.2)).sum = units.length := by
  fun_induction chars units <;> simp_all <;> omega

theorem offset_end (units : List Nat) : offset (chars units) (chars units).length = units.length := by
  unfold offset
  rw [List.take_length, chars_sum]

theorem matchesOf_ordered (cl : Classes) (r : Rx) (units : List Nat) :
    Matches units.length 0 (matchesOf cl r units) := by
  have h := findAll_ordered cl r (chars units).length ((chars units).length + 1) 0 ((chars units).map (·.1))
    (by simp)
  have gen : ∀ ms pos, Matches (chars units).length pos ms → Matches units.length (offset (chars units) pos)
      (ms.map fun m => (offset (chars units) m.1, offset (chars units) m.2)) := by
    intro ms
    induction ms with
    | nil =>
      intro pos hm
      simp only [Matches, List.map_nil] at hm ⊢
      rw [← offset_end]
      exact offset_le _ hm
    | cons m ms ih =>
      intro pos hm
      obtain ⟨a, b, c⟩ := hm
      exact ⟨offset_le _ a, offset_le _ b, ih _ c⟩
  exact gen _ 0 h

/-- Number of units of a character. -/
def width (c : Nat) : Nat := if c < 0x10000 then 1 else 2

theorem chars_encode (cs : List Nat) (h : ∀ c ∈ cs, IsScalar c) :
    chars (utf16Encode cs) = cs.map fun c => (c, width c) := by
  induction cs with
  | nil => rfl
  | cons c cs ih =>
    have ih := ih (fun d hd => h d (by simp [hd]))
    have hc := h c (by simp)
    have e : utf16Encode (c :: cs) = utf16Of c ++ utf16Encode cs := by simp [utf16Encode]
    rw [e, List.map_cons, ← ih]
    unfold IsScalar at hc
    unfold utf16Of width
    split
    · rename_i h1
      generalize utf16Encode cs = us
      cases us with
      | nil => simp [chars]
      | cons u us =>
        simp only [List.singleton_append, chars]
        rw [if_neg (by omega)]
    · rename_i h1
      simp only [List.cons_append, List.nil_append, chars]
      rw [if_pos (by omega)]
      have : 65536 + (55296 + (c - 65536) / 1024 - 55296) * 1024 + (56320 + (c - 65536) % 1024 - 56320) = c := by
        omega
      rw [this]

theorem offset_encode (cs : List Nat) (h : ∀ c ∈ cs, IsScalar c) (i : Nat) :
    offset (chars (utf16Encode cs)) i = (utf16Encode (cs.take i)).length := by
  unfold offset
  rw [← chars_sum (utf16Encode (cs.take i)), chars_encode cs h,
    chars_encode (cs.take i) (fun c hc => h c (List.mem_of_mem_take hc))]
  simp [List.map_take]

theorem matchesOf_contract (cl : Classes) (r : Rx) : RegexContract (matchesOf cl r) := by
  refine ⟨matchesOf_ordered cl r, fun cs hcs m hm => ?_⟩
  simp only [matchesOf, List.mem_map] at hm
  obtain ⟨q, _, rfl⟩ := hm
  exact ⟨⟨cs.take q.1, cs.drop q.1, (List.take_append_drop _ _).symm, offset_encode cs hcs _⟩,
    ⟨cs.take q.2, cs.drop q.2, (List.take_append_drop _ _).symm, offset_encode cs hcs _⟩⟩

/-! ## The expression of GPT-2 -/

/-- A string of characters. -/
def lits : List Nat → Rx
  | [] => .nil
  | c :: w => .seq (.one false [.lit c]) (lits w)

/-- At most one space, then a run. -/
def leadRun (neg : Bool) (items : List Item) : Rx :=
  .seq (.opt (.one false [.lit 32])) (.seq (.plus (.one neg items)) .nil)

def blankRun : Rx := .seq (.plus (.one false [.space])) .nil

def blankRunBefore : Rx :=
  .seq (.plus (.one false [.space])) (.seq (.notAhead (.seq (.one false [.nonSpace]) .nil)) .nil)

/-- The alternatives after the contractions. -/
def gpt2Tail : Rx :=
  .alt (leadRun false [.letter]) (.alt (leadRun false [.number])
    (.alt (leadRun true [.space, .letter, .number]) (.alt blankRunBefore blankRun)))

def gpt2 : Rx := contractions.foldr (fun w r => .alt (lits w) r) gpt2Tail

theorem parse_gpt2 : parse (gpt2Text.toList.map Char.toNat) = some gpt2 := by decide +kernel

theorem lits_run (cl : Classes) (w : List Nat) : ∀ s, (lits w).run cl s =
    if w <+: s then [s.drop w.length] else [] := by
  induction w with
  | nil => intro s; simp [lits, Rx.run]
  | cons c w ih =>
    intro s
    cases s with
    | nil => simp [lits, Rx.run]
    | cons d s =>
      simp only [lits, Rx.run, List.any_cons, List.any_nil, Item.has, Bool.or_false, bne_iff_ne, ne_eq,
        Bool.not_eq_false, beq_iff_eq, List.cons_prefix_cons, List.length_cons, List.drop_succ_cons]
      by_cases h : d = c
      · subst h; simp [ih]
      · rw [if_neg h, if_neg (by rintro ⟨h1, _⟩; exact h h1.symm)]; rfl

theorem alts_run (cl : Classes) (ws : List (List Nat)) (r : Rx) (s : List Nat) :
    (ws.foldr (fun w r => .alt (lits w) r) r).run cl s =
      ws.flatMap (fun w => if w <+: s then [s.drop w.length] else []) ++ r.run cl s := by
  induction ws with
  | nil => rfl
  | cons w ws ih => simp only [List.foldr_cons, Rx.run, ih, lits_run, List.flatMap_cons, List.append_assoc]

/-- What is left after a run of characters, the longest run first. -/
def runs (p : Nat → Bool) : List Nat → List (List Nat)
  | [] => []
  | c :: s => if p c then runs p s ++ [s] else []

/-- The characters of a set. -/
def setOf (cl : Classes) (neg : Bool) (items : List Item) (c : Nat) : Bool := (items.any (Item.has cl c)) != neg

theorem reps_runs (cl : Classes) (neg : Bool) (items : List Item) : ∀ (n : Nat) (s : List Nat), s.length ≤ n →
    reps ((Rx.one neg items).run cl) n s = runs (setOf cl neg items) s := by
  intro n
  induction n with
  | zero => intro s h; cases s with
    | nil => rfl
    | cons c s => simp at h
  | succ n ih =>
    intro s h
    cases s with
    | nil => rfl
    | cons c s =>
      have := ih s (by simpa using h)
      simp only [reps, runs, Rx.run]
      by_cases hh : (items.any (Item.has cl c) != neg) = true
      · rw [if_pos hh, if_pos (show setOf cl neg items c = true from hh)]
        simp only [List.flatMap_cons, List.flatMap_nil, List.append_nil, this]
      · rw [if_neg hh, if_neg (show ¬ setOf cl neg items c = true from hh)]
        rfl

theorem runs_head (p : Nat → Bool) : ∀ (body rest : List Nat), body ≠ [] → (∀ c ∈ body, p c = true) →
    NotStart p rest → (runs p (body ++ rest)).head? = some rest := by
  intro body
  induction body with
  | nil => intro rest h; exact absurd rfl h
  | cons c body ih =>
    intro rest _ hb hr
    simp only [List.cons_append, runs, hb c (by simp), if_true]
    cases body with
    | nil =>
      cases rest with
      | nil => rfl
      | cons d rest =>
        rw [List.nil_append, runs, hr d rest rfl]
        rfl
    | cons d body =>
      rw [List.head?_append, ih rest (by simp) (fun c hc => hb c (by simp [hc])) hr]
      rfl

theorem runs_none (p : Nat → Bool) (s : List Nat) (h : NotStart p s) : runs p s = [] := by
  cases s with
  | nil => rfl
  | cons c s => rw [runs, h c s rfl]; rfl

theorem leadRun_run (cl : Classes) (neg : Bool) (items : List Item) (s : List Nat) :
    (leadRun neg items).run cl s =
      (match s with
      | c :: t => if c = 32 then runs (setOf cl neg items) t else []
      | [] => []) ++ runs (setOf cl neg items) s := by
  have h1 : ∀ u, (Rx.seq (.plus (.one neg items)) .nil).run cl u = runs (setOf cl neg items) u := by
    intro u
    simp only [Rx.run, reps_runs cl neg items _ u (Nat.le_refl _)]
    simp
  have h2 : (leadRun neg items).run cl s = ((Rx.opt (.one false [.lit 32])).run cl s).flatMap
      ((Rx.seq (.plus (.one neg items)) .nil).run cl) := rfl
  rw [h2]
  cases s with
  | nil => simp [Rx.run]; rfl
  | cons c t =>
    simp only [Rx.run, List.any_cons, List.any_nil, Item.has, Bool.or_false, bne_iff_ne, ne_eq,
      Bool.not_eq_false, beq_iff_eq]
    split
    · simp only [List.flatMap_append, List.flatMap_cons, List.flatMap_nil, List.append_nil]
      rw [← h1, ← h1]; rfl
    · simp only [List.nil_append, List.flatMap_cons, List.flatMap_nil, List.append_nil]
      rw [← h1]; rfl

theorem leadRun_none (cl : Classes) (neg : Bool) (items : List Item) (s : List Nat)
    (h1 : NotStart (setOf cl neg items) s) (h2 : ∀ t, s = 32 :: t → NotStart (setOf cl neg items) t) :
    (leadRun neg items).run cl s = [] := by
  rw [leadRun_run, runs_none _ s h1]
  cases s with
  | nil => rfl
  | cons c t =>
    simp only [List.append_nil]
    split
    · rename_i h; subst h; exact runs_none _ t (h2 t rfl)
    · rfl

theorem leadRun_head (cl : Classes) (neg : Bool) (items : List Item) (lead body rest : List Nat)
    (h32 : setOf cl neg items 32 = false) (hl : lead = [] ∨ lead = [32]) (hb : body ≠ [])
    (hp : ∀ c ∈ body, setOf cl neg items c = true) (hr : NotStart (setOf cl neg items) rest) :
    ((leadRun neg items).run cl (lead ++ body ++ rest)).head? = some rest := by
  have h := runs_head _ body rest hb hp hr
  rw [leadRun_run]
  rcases hl with rfl | rfl
  · cases body with
    | nil => exact absurd rfl hb
    | cons c body =>
      have hc : c ≠ 32 := by
        rintro rfl
        rw [hp 32 (by simp)] at h32
        cases h32
      simp only [List.nil_append, List.cons_append, if_neg hc] at h ⊢
      exact h
  · simp only [List.cons_append, List.nil_append, if_true]
    rw [List.head?_append, h]
    rfl

/-- The characters of the three classes. -/
theorem setOf_letter (cl : Classes) : setOf cl false [.letter] = cl.letter := by
  funext c; simp [setOf, Item.has]

theorem setOf_number (cl : Classes) : setOf cl false [.number] = cl.number := by
  funext c; simp [setOf, Item.has]

theorem setOf_space (cl : Classes) : setOf cl false [.space] = cl.space := by
  funext c; simp [setOf, Item.has]

theorem setOf_other (cl : Classes) : setOf cl true [.space, .letter, .number] = other cl := by
  funext c
  simp only [setOf, Item.has, List.any_cons, List.any_nil, other]
  cases cl.letter c <;> cases cl.number c <;> cases cl.space c <;> rfl

theorem blankRun_run (cl : Classes) (s : List Nat) : blankRun.run cl s = runs cl.space s := by
  simp only [blankRun, Rx.run, reps_runs cl _ _ _ s (Nat.le_refl _), setOf_space]
  simp

/-- The rest unless it starts with a character that is not blank. -/
def unlessWord (p : Nat → Bool) (r : List Nat) : List (List Nat) :=
  match r with
  | c :: _ => if p c then [r] else []
  | [] => [r]

theorem before_run (cl : Classes) (s : List Nat) :
    blankRunBefore.run cl s = (runs cl.space s).flatMap (unlessWord cl.space) := by
  simp only [blankRunBefore, Rx.run, reps_runs cl _ _ _ s (Nat.le_refl _), setOf_space]
  congr 1
  funext r
  cases r with
  | nil => simp [Rx.run, unlessWord]
  | cons c r => cases hc : cl.space c <;> simp [Rx.run, unlessWord, Item.has, hc]

theorem before_last (p : Nat → Bool) : ∀ w, w ≠ [] → (∀ c ∈ w, p c = true) →
    ((runs p w).flatMap (unlessWord p)).head? = some [] := by
  intro w
  induction w with
  | nil => intro h; exact absurd rfl h
  | cons c w ih =>
    intro _ hp
    simp only [runs, hp c (by simp), if_true, List.flatMap_append, List.head?_append]
    cases w with
    | nil => rfl
    | cons d w =>
      rw [ih (by simp) (fun c hc => hp c (by simp [hc]))]
      rfl

theorem before_blanks (p : Nat → Bool) (c : Nat) (rest : List Nat) (hc : p c = true) (hr : rest ≠ [])
    (hn : NotStart p rest) : ∀ w, w ≠ [] → (∀ c ∈ w, p c = true) →
    ((runs p (w ++ c :: rest)).flatMap (unlessWord p)).head? = some (c :: rest) := by
  have h0 : (runs p (c :: rest)).flatMap (unlessWord p) = [] := by
    rw [runs, hc, runs_none p rest hn]
    cases rest with
    | nil => exact absurd rfl hr
    | cons d rest => simp [unlessWord, hn d rest rfl]
  intro w
  induction w with
  | nil => intro h; exact absurd rfl h
  | cons d w ih =>
    intro _ hp
    simp only [List.cons_append, runs, hp d (by simp), if_true, List.flatMap_append, List.head?_append]
    cases w with
    | nil =>
      rw [List.nil_append, h0]
      simp [unlessWord, hc]
    | cons e w =>
      rw [ih (by simp) (fun c hc => hp c (by simp [hc]))]
      rfl

theorem before_blank (p : Nat → Bool) (c : Nat) (rest : List Nat) (hc : p c = true) (hr : rest ≠ [])
    (hn : NotStart p rest) : (runs p (c :: rest)).flatMap (unlessWord p) = [] := by
  rw [runs, hc, runs_none p rest hn]
  cases rest with
  | nil => exact absurd rfl hr
  | cons d rest => simp [unlessWord, hn d rest rfl]

/-! ## One word -/

theorem tail_run (cl : Classes) (s : List Nat) (h : ∀ w ∈ contractions, ¬ w <+: s) :
    gpt2.run cl s = (leadRun false [.letter]).run cl s ++ ((leadRun false [.number]).run cl s ++
      ((leadRun true [.space, .letter, .number]).run cl s ++ (blankRunBefore.run cl s ++ blankRun.run cl s))) := by
  unfold gpt2
  rw [alts_run, List.flatMap_eq_nil_iff.2 (fun w hw => if_neg (h w hw))]
  rfl

theorem contraction_start {w s : List Nat} (hw : w ∈ contractions) (h : w <+: s) : ∃ t, s = 39 :: t := by
  have : ∀ w ∈ contractions, w.head? = some 39 := by decide
  have := this w hw
  cases w with
  | nil => cases this
  | cons c w =>
    cases this
    obtain ⟨t, rfl⟩ := h
    exact ⟨_, rfl⟩

theorem blank_nothing (cl : Classes) (h : ClassesOk cl) (c : Nat) (hc : cl.space c = true) :
    cl.letter c = false ∧ cl.number c = false ∧ other cl c = false := by
  have h1 := h.letter_space c
  have h2 := h.number_space c
  cases hl : cl.letter c with
  | true => rw [h1 hl] at hc; cases hc
  | false =>
    cases hm : cl.number c with
    | true => rw [h2 hm] at hc; cases hc
    | false => exact ⟨rfl, rfl, by simp [other, hc]⟩

/-- A text that starts with blanks: none of the other alternatives matches. -/
theorem blank_tail (cl : Classes) (h : ClassesOk cl) (c : Nat) (t : List Nat) (hc : cl.space c = true)
    (ht : c = 32 → ∀ d u, t = d :: u → cl.space d = true) :
    gpt2.run cl (c :: t) = (runs cl.space (c :: t)).flatMap (unlessWord cl.space) ++ runs cl.space (c :: t) := by
  have key : ∀ p : Nat → Bool, (∀ d, cl.space d = true → p d = false) → NotStart p (c :: t) ∧
      ∀ u, c :: t = 32 :: u → NotStart p u := by
    intro p hp
    refine ⟨fun d u e => by cases e; exact hp c hc, fun u e d v e' => ?_⟩
    cases e
    exact hp d (ht rfl d v e')
  rw [tail_run cl _ (fun w hw hp => by
    obtain ⟨u, e⟩ := contraction_start hw hp
    cases e
    rw [h.apostrophe.2.2] at hc
    cases hc)]
  obtain ⟨k1, k2⟩ := key cl.letter fun d hd => (blank_nothing cl h d hd).1
  obtain ⟨k3, k4⟩ := key cl.number fun d hd => (blank_nothing cl h d hd).2.1
  obtain ⟨k5, k6⟩ := key (other cl) fun d hd => (blank_nothing cl h d hd).2.2
  rw [leadRun_none cl false [.letter] _ (by rwa [setOf_letter]) (by rwa [setOf_letter]),
    leadRun_none cl false [.number] _ (by rwa [setOf_number]) (by rwa [setOf_number]),
    leadRun_none cl true _ _ (by rwa [setOf_other]) (by rwa [setOf_other]), before_run, blankRun_run]
  rfl

/-- The expression matches the first word. -/
theorem word_run (cl : Classes) (h : ClassesOk cl) {s w rest : List Nat} (hw : Word cl s w rest) :
    (gpt2.run cl s).head? = some rest := by
  cases hw with
  | contraction w rest hw =>
    unfold gpt2
    rw [alts_run]
    have : ∀ w ∈ contractions, (contractions.flatMap fun v => if v <+: w ++ rest then [(w ++ rest).drop v.length]
        else []).head? = some rest := by
      intro w hw
      simp only [contractions, List.map_cons, List.map_nil, List.mem_cons, List.not_mem_nil, or_false] at hw
      rcases hw with rfl | rfl | rfl | rfl | rfl | rfl | rfl <;>
        simp [contractions, List.cons_prefix_cons]
    rw [List.head?_append, this w hw]
    rfl
  | run p lead body rest hp hl hb hbody hr hno =>
    rw [tail_run cl _ hno]
    have h32 := blank_nothing cl h 32 h.space
    -- a class that has no character in common with the word
    have none : ∀ q : Nat → Bool, (∀ c, p c = true → q c = false) → q 32 = false →
        NotStart q (lead ++ body ++ rest) ∧ ∀ t, lead ++ body ++ rest = 32 :: t → NotStart q t := by
      intro q hq hq32
      cases body with
      | nil => exact absurd rfl hb
      | cons b body =>
        have hpb := hbody b (by simp)
        rcases hl with rfl | rfl
        · refine ⟨fun c t e => by cases e; exact hq b hpb, fun t e => ?_⟩
          cases e
          exfalso
          rcases hp with rfl | rfl | rfl
          · rw [h32.1] at hpb; cases hpb
          · rw [h32.2.1] at hpb; cases hpb
          · rw [h32.2.2] at hpb; cases hpb
        · refine ⟨fun c t e => by cases e; exact hq32, fun t e c u e' => ?_⟩
          cases e
          cases e'
          exact hq b hpb
    have hL : p = cl.letter ∨ (leadRun false [.letter]).run cl (lead ++ body ++ rest) = [] := by
      rcases hp with rfl | rfl | rfl
      · exact .inl rfl
      · obtain ⟨a, b⟩ := none cl.letter (fun c hc => by
          cases hcl : cl.letter c with
          | false => rfl
          | true => rw [h.letter_number c hcl] at hc; cases hc) h32.1
        exact .inr (leadRun_none cl _ _ _ (by rwa [setOf_letter]) (by rwa [setOf_letter]))
      · obtain ⟨a, b⟩ := none cl.letter (fun c hc => by simp [other] at hc; exact hc.1.1) h32.1
        exact .inr (leadRun_none cl _ _ _ (by rwa [setOf_letter]) (by rwa [setOf_letter]))
    rcases hL with rfl | hL
    · rw [List.head?_append, leadRun_head cl false [.letter] lead body rest (by rw [setOf_letter]; exact h32.1) hl hb
        (by rwa [setOf_letter]) (by rwa [setOf_letter])]
      rfl
    rw [hL, List.nil_append]
    have hN : p = cl.number ∨ (leadRun false [.number]).run cl (lead ++ body ++ rest) = [] := by
      rcases hp with rfl | rfl | rfl
      · obtain ⟨a, b⟩ := none cl.number h.letter_number h32.2.1
        exact .inr (leadRun_none cl _ _ _ (by rwa [setOf_number]) (by rwa [setOf_number]))
      · exact .inl rfl
      · obtain ⟨a, b⟩ := none cl.number (fun c hc => by simp [other] at hc; exact hc.1.2) h32.2.1
        exact .inr (leadRun_none cl _ _ _ (by rwa [setOf_number]) (by rwa [setOf_number]))
    rcases hN with rfl | hN
    · rw [List.head?_append, leadRun_head cl false [.number] lead body rest (by rw [setOf_number]; exact h32.2.1) hl hb
        (by rwa [setOf_number]) (by rwa [setOf_number])]
      rfl
    rw [hN, List.nil_append]
    have hO : p = other cl := by
      rcases hp with rfl | rfl | rfl
      · exfalso
        have := leadRun_head cl false [.letter] lead body rest (by rw [setOf_letter]; exact h32.1) hl hb
          (by rwa [setOf_letter]) (by rwa [setOf_letter])
        rw [hL] at this
        cases this
      · exfalso
        have := leadRun_head cl false [.number] lead body rest (by rw [setOf_number]; exact h32.2.1) hl hb
          (by rwa [setOf_number]) (by rwa [setOf_number])
        rw [hN] at this
        cases this
      · rfl
    subst hO
    rw [List.head?_append, leadRun_head cl true [.space, .letter, .number] lead body rest
      (by rw [setOf_other]; exact h32.2.2) hl hb (by rwa [setOf_other]) (by rwa [setOf_other])]
    rfl
  | last _ hne hs =>
    cases s with
    | nil => exact absurd rfl hne
    | cons c t =>
      rw [blank_tail cl h c t (hs c (by simp)) (fun _ d u e => hs d (by simp [e])), List.head?_append,
        before_last _ _ hne hs]
      rfl
  | blanks w c rest hne hs hc hr hn =>
    have hb := before_blanks cl.space c rest hc hr hn w hne hs
    cases w with
    | nil => exact absurd rfl hne
    | cons d t =>
      rw [List.cons_append] at hb ⊢
      rw [blank_tail cl h d _ (hs d (by simp)) (fun _ e u he => by
        cases t with
        | nil => cases he; exact hc
        | cons _ t => cases he; exact hs e (by simp)), List.head?_append, hb]
      rfl
  | blank c rest hc h32 hr hn =>
    rw [blank_tail cl h c rest hc (fun e => absurd e h32), before_blank _ _ _ hc hr hn, List.nil_append]
    exact runs_head _ [c] rest (by simp) (by simpa using hc) hn

theorem word_unique (cl : Classes) (h : ClassesOk cl) {s w rest w' rest' : List Nat} (h1 : Word cl s w rest)
    (h2 : Word cl s w' rest') : rest = rest' :=
  Option.some.inj ((word_run cl h h1).symm.trans (word_run cl h h2))

theorem word_split {cl : Classes} {s w rest : List Nat} (h : Word cl s w rest) : s = w ++ rest ∧ w ≠ [] := by
  cases h with
  | contraction w rest hw =>
    refine ⟨rfl, ?_⟩
    rintro rfl
    revert hw
    decide
  | run p lead body rest hp hl hb hbody hr hno => exact ⟨rfl, by simp [hb]⟩
  | last w hne hs => exact ⟨by simp, hne⟩
  | blanks w c rest hne hs hc hr hn => exact ⟨rfl, hne⟩
  | blank c rest hc h32 hr hn => exact ⟨rfl, by simp⟩

/-- A text is a run of characters of a class followed by something else. -/
theorem span_class (p : Nat → Bool) (s : List Nat) : ∃ body rest, s = body ++ rest ∧ (∀ c ∈ body, p c = true) ∧
    NotStart p rest ∧ (∀ c t, s = c :: t → p c = true → body ≠ []) := by
  induction s with
  | nil => exact ⟨[], [], rfl, by simp, (fun c t e => nomatch e), (fun c t e => nomatch e)⟩
  | cons c s ih =>
    cases hc : p c with
    | false =>
      exact ⟨[], c :: s, rfl, by simp, fun d t e => by cases e; exact hc,
        fun d t e h => by cases e; rw [hc] at h; cases h⟩
    | true =>
      obtain ⟨body, rest, e, h1, h2, _⟩ := ih
      refine ⟨c :: body, rest, by rw [e]; rfl, ?_, h2, fun _ _ _ _ => by simp⟩
      intro d hd
      rcases List.mem_cons.mp hd with rfl | hd
      · exact hc
      · exact h1 d hd

/-- Every text that is not empty has a first word. -/
theorem word_total (cl : Classes) (s : List Nat) (hs : s ≠ []) : ∃ w rest, Word cl s w rest := by
  by_cases hcon : ∃ w ∈ contractions, w <+: s
  · obtain ⟨w, hw, t, rfl⟩ := hcon
    exact ⟨w, t, .contraction w t hw⟩
  have hno : ∀ w ∈ contractions, ¬ w <+: s := fun w hw hp => hcon ⟨w, hw, hp⟩
  -- a run without a space before it
  have plain : ∀ p : Nat → Bool, p = cl.letter ∨ p = cl.number ∨ p = other cl → ∀ c t, s = c :: t → p c = true →
      ∃ w rest, Word cl s w rest := by
    intro p hp c t e hc
    obtain ⟨body, rest, e1, h1, h2, h3⟩ := span_class p s
    have := Word.run (cl := cl) p [] body rest hp (.inl rfl) (h3 c t e hc) h1 h2 (by rw [List.nil_append, ← e1]; exact hno)
    rw [List.nil_append, ← e1] at this
    exact ⟨_, _, this⟩
  have led : ∀ p : Nat → Bool, p = cl.letter ∨ p = cl.number ∨ p = other cl → ∀ c t, s = 32 :: c :: t → p c = true →
      ∃ w rest, Word cl s w rest := by
    intro p hp c t e hc
    obtain ⟨body, rest, e1, h1, h2, h3⟩ := span_class p (c :: t)
    have e2 : s = [32] ++ body ++ rest := by rw [e, e1]; simp
    have := Word.run (cl := cl) p [32] body rest hp (.inr rfl) (h3 c t rfl hc) h1 h2 (by rw [← e2]; exact hno)
    rw [← e2] at this
    exact ⟨_, _, this⟩
  have cases4 : ∀ c, cl.space c = true ∨ ∃ p : Nat → Bool, (p = cl.letter ∨ p = cl.number ∨ p = other cl) ∧ p c = true := by
    intro c
    cases h1 : cl.space c with
    | true => exact .inl rfl
    | false =>
      refine .inr ?_
      cases h2 : cl.letter c with
      | true => exact ⟨_, .inl rfl, h2⟩
      | false =>
        cases h3 : cl.number c with
        | true => exact ⟨_, .inr (.inl rfl), h3⟩
        | false => exact ⟨_, .inr (.inr rfl), by simp [other, h1, h2, h3]⟩
  cases s with
  | nil => exact absurd rfl hs
  | cons c t =>
    rcases cases4 c with hc | ⟨p, hp, hc⟩
    · obtain ⟨body, rest, e1, h1, h2, h3⟩ := span_class cl.space (c :: t)
      have hb := h3 c t rfl hc
      by_cases hr : rest = []
      · subst hr
        rw [e1, List.append_nil]
        exact ⟨_, _, .last body hb h1⟩
      · rcases List.eq_nil_or_concat body with hb' | ⟨init, l, rfl⟩
        · exact absurd hb' hb
        · rw [List.concat_eq_append] at *
          by_cases hi : init = []
          · subst hi
            simp only [List.nil_append, List.cons_append] at e1
            cases e1
            cases t with
            | nil => exact absurd rfl hr
            | cons d u =>
              by_cases h32 : c = 32
              · subst h32
                rcases cases4 d with hd | ⟨p, hp, hd⟩
                · rw [h2 d u rfl] at hd; cases hd
                · exact led p hp d u rfl hd
              · exact ⟨_, _, .blank c (d :: u) hc h32 hr h2⟩
          · rw [e1, List.append_assoc, List.singleton_append]
            exact ⟨_, _, .blanks init l rest hi (fun x hx => h1 x (by simp [hx])) (h1 l (by simp)) hr h2⟩
    · exact plain p hp c t rfl hc

theorem words_total (cl : Classes) : ∀ (n : Nat) (s : List Nat), s.length ≤ n → ∃ ws, Words cl s ws := by
  intro n
  induction n with
  | zero => intro s h; cases s with
    | nil => exact ⟨[], .nil⟩
    | cons c s => simp at h
  | succ n ih =>
    intro s h
    by_cases hs : s = []
    · subst hs; exact ⟨[], .nil⟩
    · obtain ⟨w, rest, hw⟩ := word_total cl s hs
      obtain ⟨e, hne⟩ := word_split hw
      have : rest.length ≤ n := by
        have := congrArg List.length e
        have : 0 < w.length := List.length_pos_iff.mpr hne
        rw [List.length_append] at *
        omega
      obtain ⟨ws, hws⟩ := ih rest this
      exact ⟨w :: ws, .cons s w rest ws hw hws⟩

theorem words_flatten {cl : Classes} {s : List Nat} {ws : List (List Nat)} (h : Words cl s ws) :
    ws.flatten = s ∧ ∀ w ∈ ws, w ≠ [] := by
  induction h with
  | nil => exact ⟨rfl, by simp⟩
  | cons text w rest ws hw _ ih =>
    obtain ⟨e, hne⟩ := word_split hw
    refine ⟨by rw [List.flatten_cons, ih.1, e], ?_⟩
    intro v hv
    rcases List.mem_cons.mp hv with rfl | hv
    · exact hne
    · exact ih.2 v hv

theorem words_unique {cl : Classes} (hcl : ClassesOk cl) {s : List Nat} {ws ws' : List (List Nat)}
    (h : Words cl s ws) : Words cl s ws' → ws = ws' := by
  induction h generalizing ws' with
  | nil =>
    intro h'
    cases h' with
    | nil => rfl
    | cons _ w rest ws hw _ =>
      obtain ⟨e, hne⟩ := word_split hw
      exact absurd (List.append_eq_nil_iff.mp e.symm).1 hne
  | cons text w rest ws hw _ ih =>
    intro h'
    cases h' with
    | nil =>
      obtain ⟨e, hne⟩ := word_split hw
      exact absurd (List.append_eq_nil_iff.mp e.symm).1 hne
    | cons _ w' rest' ws' hw' hr' =>
      have er := word_unique cl hcl hw hw'
      subst er
      have ew : w = w' := List.append_cancel_right ((word_split hw).1.symm.trans (word_split hw').1)
      rw [ew, ih hr']

/-- The positions of consecutive words. -/
def spans : Nat → List (List Nat) → List (Nat × Nat)
  | _, [] => []
  | pos, w :: ws => (pos, pos + w.length) :: spans (pos + w.length) ws

theorem findAll_words {cl : Classes} (hcl : ClassesOk cl) {s : List Nat} {ws : List (List Nat)}
    (h : Words cl s ws) : ∀ (n pos : Nat), s.length < n → findAll cl gpt2 n pos s = spans pos ws := by
  induction h with
  | nil =>
    intro n pos hn
    cases n with
    | zero => omega
    | succ n =>
      have : gpt2.run cl [] = [] := rfl
      simp [findAll, this, spans]
  | cons text w rest ws hw _ ih =>
    intro n pos hn
    cases n with
    | zero => omega
    | succ n =>
      obtain ⟨e, hne⟩ := word_split hw
      have hl := congrArg List.length e
      have : 0 < w.length := List.length_pos_iff.mpr hne
      rw [List.length_append] at hl
      unfold findAll
      rw [word_run cl hcl hw]
      simp only
      rw [if_pos (by omega), show text.length - rest.length = w.length by omega, spans, ih n _ (by omega)]

/-! ## The pieces of `split` -/

theorem utf16_append (a b : List Nat) : utf16Encode (a ++ b) = utf16Encode a ++ utf16Encode b := by
  simp [utf16Encode]

theorem cutAt_spans (f : Nat → Nat) (ws : List (List Nat)) : ∀ (pre : List Nat),
    (∀ i, f i = (utf16Encode ((pre ++ ws.flatten).take i)).length) →
    cutAt (utf16Encode (pre ++ ws.flatten)) (utf16Encode pre).length
      ((spans pre.length ws).map fun m => (f m.1, f m.2)) = ws.map utf16Encode := by
  induction ws with
  | nil =>
    intro pre _
    simp [spans, cutAt, gap]
  | cons w ws ih =>
    intro pre hf
    have h1 : f pre.length = (utf16Encode pre).length := by rw [hf]; simp
    have h2 : f (pre.length + w.length) = (utf16Encode (pre ++ w)).length := by
      rw [hf, List.flatten_cons, ← List.append_assoc,
        List.take_append_of_le_length (by simp), List.take_of_length_le (by simp)]
    have ih := ih (pre ++ w) (by intro i; rw [hf, List.flatten_cons, List.append_assoc])
    simp only [spans, List.map_cons, cutAt, h1, h2]
    rw [List.length_append, List.append_assoc, ← List.flatten_cons] at ih
    rw [ih]
    have h3 : gap (utf16Encode (pre ++ (w :: ws).flatten)) (utf16Encode pre).length (utf16Encode pre).length = [] := by
      simp [gap]
    have h4 : ((utf16Encode (pre ++ (w :: ws).flatten)).take (utf16Encode (pre ++ w)).length).drop
        (utf16Encode pre).length = utf16Encode w := by
      rw [List.flatten_cons, ← List.append_assoc, utf16_append (pre ++ w), List.take_left, utf16_append pre w,
        List.drop_left]
    rw [h3, h4]
    rfl

theorem cutAt_gpt2 {cl : Classes} (hcl : ClassesOk cl) {cs : List Nat} (hcs : ∀ c ∈ cs, IsScalar c)
    {ws : List (List Nat)} (h : Words cl cs ws) :
    cutAt (utf16Encode cs) 0 (gpt2Matches cl (utf16Encode cs)) = ws.map utf16Encode := by
  have e : (chars (utf16Encode cs)).map (·.1) = cs := by
    rw [chars_encode cs hcs, List.map_map]
    exact List.map_id' cs
  have el : (chars (utf16Encode cs)).length = cs.length := by rw [chars_encode cs hcs, List.length_map]
  unfold gpt2Matches
  rw [parse_gpt2]
  simp only [matchesOf, e, el]
  rw [findAll_words hcl h _ 0 (by omega)]
  have hfl := (words_flatten h).1
  have := cutAt_spans (offset (chars (utf16Encode cs))) ws [] (by
    intro i; rw [List.nil_append, hfl]; exact offset_encode cs hcs i)
  rw [List.nil_append, hfl] at this
  exact this

theorem gpt2_contract (cl : Classes) : RegexContract (gpt2Matches cl) := by
  have : gpt2Matches cl = matchesOf cl gpt2 := by
    funext units
    unfold gpt2Matches
    rw [parse_gpt2]
  rw [this]
  exact matchesOf_contract cl gpt2

end Berts.Pattern
