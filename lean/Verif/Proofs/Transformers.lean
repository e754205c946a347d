import Verif.Proofs.Bert
import Verif.Proofs.BpeStrings
import Verif.Spec.Transformers

/-! # The BERT tokenizer against the reference: lemmas -/

namespace Berts.Bert

open Berts.Unicode Berts.Trie Berts.Vocab Berts.Spec Berts.CharClass
open Berts.Spec.Py (Ucd Agree SpacesOk)

variable {ct : Nat → CharType} {nfc nfd lower : List Nat → List Nat} {d : Ucd}

/-! ## Character classes -/

theorem zs_iff (h : ∀ c, d.cat c = Py.letters (ct c)) (c : Nat) :
    d.cat c = ascii "Zs" ↔ ct c = .spaceSeparator := by
  rw [h, show ascii "Zs" = [90, 115] from by decide]
  cases ct c <;> decide

theorem majorC_iff (h : ∀ c, d.cat c = Py.letters (ct c)) (c : Nat) :
    Py.Major d c 67 ↔ isPrint ct c = false := by
  unfold Py.Major isPrint
  rw [h]
  cases ct c <;> decide

theorem majorP_iff (h : ∀ c, d.cat c = Py.letters (ct c)) (c : Nat) :
    Py.Major d c 80 ↔ catP (ct c) = true := by
  unfold Py.Major
  rw [h]
  cases ct c <;> decide

theorem mn_iff (h : ∀ c, d.cat c = Py.letters (ct c)) (c : Nat) :
    d.cat c = ascii "Mn" ↔ isCategory (ct c) (ascii "Mn") = true := by
  rw [h, show ascii "Mn" = [77, 110] from by decide]
  cases ct c <;> decide

theorem white_iff (h : ∀ c, d.cat c = Py.letters (ct c)) (c : Nat) :
    Blank (icuOf ct nfc nfd lower) c ↔ Py.White d c := by
  unfold Blank Py.White
  rw [zs_iff h]
  simp only [icuOf, isWhitespace, Bool.or_eq_true, beq_iff_eq, List.mem_cons, List.not_mem_nil, or_false]
  constructor
  · rintro (h | h | h)
    · exact .inl h
    · exact .inl (.inr (.inl h))
    · exact .inr h
  · rintro (h | h)
    · exact .inl h
    · exact .inr (.inr h)

theorem control_iff (h : ∀ c, d.cat c = Py.letters (ct c)) (h32 : d.cat 32 = ascii "Zs") (c : Nat) :
    Control (icuOf ct nfc nfd lower) c ↔ Py.Control d c := by
  unfold Control Py.Control
  rw [majorC_iff h]
  simp only [icuOf, List.mem_cons, List.not_mem_nil, or_false, not_or]
  constructor
  · rintro ⟨⟨_, h1, h2, h3⟩, h4⟩
    exact ⟨⟨h1, h2, h3⟩, h4⟩
  · rintro ⟨⟨h1, h2, h3⟩, h4⟩
    refine ⟨⟨?_, h1, h2, h3⟩, h4⟩
    rintro rfl
    have := (zs_iff h 32).mp h32
    simp [isPrint, this] at h4

theorem punctuation_iff (h : ∀ c, d.cat c = Py.letters (ct c)) (c : Nat) :
    Punct (icuOf ct nfc nfd lower) c ↔ Py.Punctuation d c := by
  unfold Punct Py.Punctuation
  rw [majorP_iff h]
  simp only [icuOf]
  constructor
  · rintro (h | h)
    · omega
    · exact .inr (.inr (.inr (.inr h)))
  · rintro (h | h | h | h | h)
    · exact .inl (by omega)
    · exact .inl (by omega)
    · exact .inl (by omega)
    · exact .inl (by omega)
    · exact .inr h

theorem kept_iff (h : ∀ c, d.cat c = Py.letters (ct c)) (h32 : d.cat 32 = ascii "Zs") (c : Nat) :
    Kept (icuOf ct nfc nfd lower) c ↔ ¬ (c = 0 ∨ c = 0xFFFD ∨ Py.Control d c) := by
  unfold Kept
  rw [control_iff h h32]
  simp only [not_or]

/-! ## Cleaning -/

theorem not_ideograph_32 : ¬ Ideograph 32 := by decide

theorem clean_cons (c : Nat) (cs : List Nat) : Py.clean d (c :: cs) =
    (if c = 0 ∨ c = 0xFFFD ∨ Py.Control d c then [] else [if Py.White d c then 32 else c]) ++ Py.clean d cs := by
  unfold Py.clean
  rw [List.filter_cons]
  split
  · rename_i h
    rw [if_neg (of_decide_eq_true h)]
    rfl
  · rename_i h
    rw [if_pos (Classical.byContradiction fun x => h (decide_eq_true x))]
    rfl

theorem prep_cons (b : Bool) (c : Nat) (cs : List Nat) : Py.prep d b (c :: cs) =
    (if c = 0 ∨ c = 0xFFFD ∨ Py.Control d c then []
     else if Py.White d c then [32]
     else if b = true ∧ Ideograph c then [32, c, 32] else [c]) ++ Py.prep d b cs := by
  unfold Py.prep
  cases b with
  | false =>
    simp only [Bool.false_eq_true, if_false, false_and]
    rw [clean_cons]
    split
    · rfl
    · split <;> rfl
  | true =>
    simp only [if_true, true_and, Py.chinese]
    rw [clean_cons, List.flatMap_append]
    split
    · rfl
    · split
      · simp [not_ideograph_32]
      · simp

theorem cleaned_eq (h : ∀ c, d.cat c = Py.letters (ct c)) (h32 : d.cat 32 = ascii "Zs") (cond : TokInfo)
    (hb : BasicMode cond) (cs : List Nat) :
    cs.flatMap (fun c => cleanCp (icuOf ct nfc nfd lower) cond (cpOf c)) =
      (Py.prep d cond.addCjk cs).map cpOf := by
  have e32 : Cp.ofUnit 32 = cpOf 32 := rfl
  induction cs with
  | nil => unfold Py.prep Py.chinese Py.clean; split <;> rfl
  | cons c cs ih =>
    rw [List.flatMap_cons, ih, prep_cons, List.map_append]
    congr 1
    by_cases hk : Kept (icuOf ct nfc nfd lower) c
    · rw [if_neg ((kept_iff h h32 c).mp hk)]
      by_cases hw : Blank (icuOf ct nfc nfd lower) c
      · rw [cleanCp_blank _ cond hb.2.2.2 c hk hw, if_pos ((white_iff h c).mp hw)]
        rfl
      · rw [cleanCp_solid _ cond c ⟨hk, hw⟩, if_neg (fun x => hw ((white_iff h c).mpr x)), e32]
        by_cases hi : Ideograph c ∧ cond.addCjk = true
        · rw [if_pos hi, if_pos hi.symm]; rfl
        · rw [if_neg hi, if_neg (fun x => hi x.symm)]; rfl
    · rw [cleanCp_removed _ cond hb c hk, if_pos]
      · rfl
      · exact Classical.byContradiction fun x => hk ((kept_iff h h32 c).mpr x)

theorem prep_mem (b : Bool) (cs : List Nat) : ∀ c ∈ Py.prep d b cs, c = 32 ∨
    (c ∈ cs ∧ ¬ (c = 0 ∨ c = 0xFFFD ∨ Py.Control d c) ∧ ¬ Py.White d c) := by
  induction cs with
  | nil => unfold Py.prep Py.chinese Py.clean; split <;> simp
  | cons a cs ih =>
    rw [prep_cons]
    intro c hc
    rcases List.mem_append.mp hc with hc | hc
    · by_cases h1 : a = 0 ∨ a = 0xFFFD ∨ Py.Control d a
      · rw [if_pos h1] at hc; cases hc
      · rw [if_neg h1] at hc
        by_cases h2 : Py.White d a
        · rw [if_pos h2] at hc
          simp at hc; exact .inl hc
        · rw [if_neg h2] at hc
          split at hc
          · simp at hc
            rcases hc with hc | hc
            · exact .inl hc
            · rcases hc with rfl | hc
              · exact .inr ⟨by simp, h1, h2⟩
              · exact .inl hc
          · simp at hc; subst hc; exact .inr ⟨by simp, h1, h2⟩
    · rcases ih c hc with h | ⟨h1, h2⟩
      · exact .inl h
      · exact .inr ⟨by simp [h1], h2⟩

/-! ## Words -/

theorem splitLoop_words32 (cur xs : List Nat) (hx : ∀ c ∈ xs, IsScalar c) :
    Bert.splitLoop (utf16Encode cur) (xs.map cpOf) = (wordsFrom (fun c => decide (c = 32)) cur xs).map utf16Encode := by
  induction xs generalizing cur with
  | nil =>
    simp only [List.map_nil, Bert.splitLoop, wordsFrom, utf16Encode_eq_nil]
    by_cases h : cur = [] <;> simp [h]
  | cons c cs ih =>
    have ih := fun cur => ih cur (fun x hx' => hx x (by simp [hx']))
    rw [List.map_cons, Bert.splitLoop, cpOf_c]
    simp only [wordsFrom]
    by_cases hsep : c = 32
    · have := ih []
      rw [show utf16Encode [] = [] from rfl] at this
      rw [if_pos hsep, if_pos (show decide (c = 32) = true by simpa using hsep), this]
      simp only [utf16Encode_eq_nil]
      by_cases h : cur = [] <;> simp [h]
    · rw [if_neg hsep, if_neg (show ¬ decide (c = 32) = true by simpa using hsep), pushUnits_cpOf c (hx c (by simp))]
      have e : utf16Encode cur ++ utf16Of c = utf16Encode (cur ++ [c]) := by simp [utf16Encode]
      rw [e, ih]

theorem wordsFrom_congr {p q : Nat → Bool} (cs cur : List Nat) (h : ∀ c ∈ cs, p c = q c) :
    wordsFrom p cur cs = wordsFrom q cur cs := by
  induction cs generalizing cur with
  | nil => rfl
  | cons c cs ih =>
    have ih := fun cur => ih cur (fun x hx => h x (by simp [hx]))
    simp only [wordsFrom]
    rw [h c (by simp), ih, ih]

theorem wordsFrom_mem (p : Nat → Bool) (cs cur : List Nat) (hcur : ∀ c ∈ cur, p c = false) :
    ∀ w ∈ wordsFrom p cur cs, w ≠ [] ∧ ∀ c ∈ w, p c = false ∧ (c ∈ cur ∨ c ∈ cs) := by
  induction cs generalizing cur with
  | nil =>
    intro w hw
    simp only [wordsFrom, List.mem_filter, List.mem_singleton, decide_eq_true_eq] at hw
    obtain ⟨rfl, hn⟩ := hw
    exact ⟨hn, fun c hc => ⟨hcur c hc, .inl hc⟩⟩
  | cons a cs ih =>
    intro w hw
    simp only [wordsFrom] at hw
    split at hw
    · rcases List.mem_append.mp hw with hm | hw
      · simp only [List.mem_filter, List.mem_singleton, decide_eq_true_eq] at hm
        obtain ⟨rfl, hn⟩ := hm
        exact ⟨hn, fun c hc => ⟨hcur c hc, .inl hc⟩⟩
      · have := ih [] (by simp) w hw
        refine ⟨this.1, fun c hc => ?_⟩
        have := this.2 c hc
        simp at this
        exact ⟨this.1, .inr (by simp [this.2])⟩
    · rename_i ha
      have := ih (cur ++ [a]) (by
        intro c hc
        rcases List.mem_append.mp hc with h | h
        · exact hcur c h
        · simp at h; subst h; simpa using ha) w hw
      refine ⟨this.1, fun c hc => ?_⟩
      have := this.2 c hc
      refine ⟨this.1, ?_⟩
      rcases this.2 with h | h
      · rcases List.mem_append.mp h with h | h
        · exact .inl h
        · simp at h; exact .inr (by simp [h])
      · exact .inr (by simp [h])

/-- Words without separators are read one after the other. -/
theorem wordsFrom_word (p : Nat → Bool) (w cur cs : List Nat) (hw : ∀ c ∈ w, p c = false) :
    wordsFrom p cur (w ++ cs) = wordsFrom p (cur ++ w) cs := by
  induction w generalizing cur with
  | nil => simp
  | cons a w ih =>
    rw [List.cons_append]
    simp only [wordsFrom]
    rw [hw a (by simp), if_neg (by simp), ih _ (fun c hc => hw c (by simp [hc]))]
    simp

theorem split_join (ws : List (List Nat)) (h : ∀ w ∈ ws, w ≠ [] ∧ ∀ c ∈ w, c ∉ Py.spaces) :
    Py.split (Py.join ws) = ws := by
  unfold Py.split
  induction ws with
  | nil => rfl
  | cons w ws ih =>
    have hw := h w (by simp)
    have ih := ih (fun x hx => h x (by simp [hx]))
    have hp : ∀ c ∈ w, decide (c ∈ Py.spaces) = false := fun c hc => by simpa using hw.2 c hc
    cases ws with
    | nil =>
      unfold Py.join
      have := wordsFrom_word (fun c => decide (c ∈ Py.spaces)) w [] [] hp
      rw [List.append_nil] at this
      rw [this]
      simp [wordsFrom, hw.1]
    | cons v ws =>
      rw [Py.join, wordsFrom_word _ _ _ _ hp, wordsFrom, if_pos (by decide), ih]
      · simp [hw.1]
      · simp

/-! ## Punctuation -/

theorem puncLoop_py (h : ∀ c, d.cat c = Py.letters (ct c)) (cs : List Nat) (out : List (List Nat)) :
    Py.puncLoop d true out cs = out ++ Bert.puncLoop (icuOf ct nfc nfd lower) [] cs ∧
    ∀ t, t ≠ [] → Py.puncLoop d false (out ++ [t]) cs = out ++ Bert.puncLoop (icuOf ct nfc nfd lower) t cs := by
  induction cs generalizing out with
  | nil =>
    refine ⟨by simp [Py.puncLoop, Bert.puncLoop], fun t ht => ?_⟩
    simp [Py.puncLoop, Bert.puncLoop, ht]
  | cons c cs ih =>
    have hp : isPunct (icuOf ct nfc nfd lower).catP c = true ↔ Py.Punctuation d c := by
      rw [isPunct_iff, punctuation_iff h]
    by_cases hc : Py.Punctuation d c
    · refine ⟨?_, fun t ht => ?_⟩
      · rw [Py.puncLoop, if_pos hc, (ih _).1, Bert.puncLoop, if_pos (hp.mpr hc)]
        simp
      · rw [Py.puncLoop, if_pos hc, (ih _).1, Bert.puncLoop, if_pos (hp.mpr hc), if_neg ht]
        simp
    · have hn : ¬ isPunct (icuOf ct nfc nfd lower).catP c = true := fun x => hc (hp.mp x)
      refine ⟨?_, fun t ht => ?_⟩
      · rw [Py.puncLoop, if_neg hc, if_pos rfl, (ih out).2 [c] (by simp), Bert.puncLoop, if_neg hn]
        simp
      · rw [Py.puncLoop, if_neg hc, if_neg (by simp), Bert.puncLoop, if_neg hn, ← (ih out).2 _ (by simp)]
        congr 1
        simp

theorem puncLoop_ne_nil (u : Icu) (temp cs : List Nat) : ∀ p ∈ Bert.puncLoop u temp cs, p ≠ [] := by
  induction cs generalizing temp with
  | nil =>
    intro p hp
    simp only [Bert.puncLoop] at hp
    split at hp
    · cases hp
    · rename_i h; simp at hp; subst hp; exact h
  | cons c cs ih =>
    intro p hp
    simp only [Bert.puncLoop] at hp
    split at hp
    · rcases List.mem_append.mp hp with hp | hp
      · split at hp
        · cases hp
        · rename_i h; simp at hp; subst hp; exact h
      · rcases List.mem_cons.mp hp with rfl | hp
        · simp
        · exact ih _ p hp
    · exact ih _ p hp

/-! ## The whole of basic tokenization -/

theorem mem_never {never : List (List Nat)} (hn : ∀ s ∈ never, ∀ c ∈ s, IsScalar c) {w : List Nat}
    (hw : ∀ c ∈ w, IsScalar c) : utf16Encode w ∈ never.map utf16Encode ↔ w ∈ never := by
  constructor
  · intro h
    obtain ⟨s, h1, h2⟩ := List.mem_map.mp h
    have := Bpe.utf16Encode_inj (hn s h1) hw h2
    exact this ▸ h1
  · exact fun h => List.mem_map.mpr ⟨w, h, rfl⟩

theorem basicWord_py (ha : Agree ct nfc nfd d) {cond : TokInfo} (hs : cond.splitPunc = true)
    (hl : cond.lowerCase = false) {never : List (List Nat)} (hn : ∀ s ∈ never, ∀ c ∈ s, IsScalar c) {w : List Nat}
    (hw : ∀ c ∈ w, IsScalar c)
    (hstrip : cond.stripAcc = true → w ∉ never → d.nfc (Py.stripAccents d w) = Py.stripAccents d w ∧
      Py.stripAccents d w ∉ never) :
    basicWord (icuOf ct nfc nfd lower) cond (never.map utf16Encode) (utf16Encode w) =
      .ok ((Py.word d cond.stripAcc never w).map utf16Encode) := by
  unfold basicWord Py.word
  by_cases hk : w ∈ never
  · rw [if_pos ((mem_never hn hw).mpr hk), if_pos hk]
    rfl
  rw [if_neg (fun x => hk ((mem_never hn hw).mp x)), if_neg hk]
  cases hc : cond.stripAcc with
  | false =>
    simp only [lowerStep, stripStep, hl, hc, hs, Bool.false_eq_true, if_false, Res.bind,
      readUnits_rep (rep_ofUnits _), if_true, if_neg hk]
    rw [toCodePoints_encode w hw true, (puncLoop_py (nfc := nfc) (nfd := nfd) (lower := lower) ha.cat w []).1,
      List.nil_append]
    exact readAll_ofUtf32 _ (fun p hp c hc => hw c (puncLoop_mem _ w p hp c hc))
  | true =>
    obtain ⟨h1, h2⟩ := hstrip hc hk
    obtain ⟨e1, e2⟩ := ha.nfd w hw
    have hds : ∀ c ∈ Py.stripAccents d w, IsScalar c := fun c hc => e2 c (List.mem_filter.mp hc).1
    obtain ⟨r, h3, h4⟩ := stripAccents_rep (icuOf ct nfc nfd lower) (rep_ofUnits (utf16Encode w))
      (by
        show ∀ x ∈ nfd (utf16Encode w), _
        rw [e1]; exact utf16Encode_lt _ e2)
    have h5 : (icuOf ct nfc nfd lower).nfc (utf16Encode (((eachCp true ((icuOf ct nfc nfd lower).nfd (utf16Encode w))).map
        (·.c)).filter (fun c => !(icuOf ct nfc nfd lower).catMn c))) = utf16Encode (Py.stripAccents d w) := by
      show nfc (utf16Encode (((eachCp true (nfd (utf16Encode w))).map (·.c)).filter _)) = _
      rw [e1, toCodePoints_encode _ e2 true]
      have : (d.nfd w).filter (fun c => !(icuOf ct nfc nfd lower).catMn c) = Py.stripAccents d w := by
        unfold Py.stripAccents
        refine List.filter_congr fun c _ => ?_
        have := mn_iff ha.cat c
        simp only [icuOf]
        by_cases hx : isCategory (ct c) (ascii "Mn") = true
        · simp [hx, this.mpr hx]
        · have hy : d.cat c ≠ ascii "Mn" := fun y => hx (this.mp y)
          simp [hx, hy]
      rw [this, (ha.nfc _ hds).1, h1]
    rw [h5] at h4
    simp only [lowerStep, stripStep, hl, hc, hs, Bool.false_eq_true, if_false, Res.bind, h3,
      readUnits_rep h4, if_true, if_neg h2]
    rw [toCodePoints_encode _ hds true, (puncLoop_py (nfc := nfc) (nfd := nfd) (lower := lower) ha.cat _ []).1,
      List.nil_append]
    exact readAll_ofUtf32 _ (fun p hp c hc => hds c (puncLoop_mem _ _ p hp c hc))

theorem basicWords_py (ha : Agree ct nfc nfd d) {cond : TokInfo} (hs : cond.splitPunc = true)
    (hl : cond.lowerCase = false) {never : List (List Nat)} (hn : ∀ s ∈ never, ∀ c ∈ s, IsScalar c)
    (ws : List (List Nat)) (hw : ∀ w ∈ ws, ∀ c ∈ w, IsScalar c)
    (hstrip : cond.stripAcc = true → ∀ w ∈ ws, w ∉ never → d.nfc (Py.stripAccents d w) = Py.stripAccents d w ∧
      Py.stripAccents d w ∉ never) :
    basicWords (icuOf ct nfc nfd lower) cond (never.map utf16Encode) (ws.map utf16Encode) =
      .ok ((ws.flatMap (Py.word d cond.stripAcc never)).map utf16Encode) := by
  induction ws with
  | nil => rfl
  | cons w ws ih =>
    rw [List.map_cons, basicWords, basicWord_py ha hs hl hn (hw w (by simp)) (fun h => hstrip h w (by simp)),
      ih (fun x hx => hw x (by simp [hx])) (fun h x hx => hstrip h x (by simp [hx]))]
    simp [Res.bind_ok, Res.pure_eq]

/-- Words of a text: those the code finds. -/
theorem words_py (ha : Agree ct nfc nfd d) (hsp : SpacesOk d) {cond : TokInfo} (hb : BasicMode cond) (ds : List Nat)
    (hd : ∀ c ∈ ds, IsScalar c) (hline : ∀ c ∈ ds, c ≠ 0x2028 ∧ c ≠ 0x2029) :
    cleanAndSplit (icuOf ct nfc nfd lower) cond (utf16Encode ds) =
      (Py.split (Py.prep d cond.addCjk ds)).map utf16Encode ∧
    ∀ w ∈ Py.split (Py.prep d cond.addCjk ds), ∀ c ∈ w, IsScalar c := by
  have hps : ∀ c ∈ Py.prep d cond.addCjk ds, IsScalar c := by
    intro c hc
    rcases prep_mem _ _ c hc with rfl | h
    · decide
    · exact hd c h.1
  refine ⟨?_, ?_⟩
  · rw [cleanAndSplit_encode _ cond ds hd, cleaned_eq ha.cat hsp.blank cond hb]
    have := splitLoop_words32 [] (Py.prep d cond.addCjk ds) hps
    rw [show utf16Encode [] = [] from rfl] at this
    rw [this]
    unfold Py.split
    congr 1
    refine wordsFrom_congr _ _ fun c hc => ?_
    rcases prep_mem _ _ c hc with rfl | ⟨h1, h2, h3⟩
    · decide
    · have hne : c ≠ 32 := fun e => h3 (.inl (by simp [e]))
      have hns : c ∉ Py.spaces := by
        intro hs
        rcases hsp.rest c hs with h | h | h | h
        · exact h3 (.inr h)
        · by_cases h9 : c ∈ [9, 10, 13]
          · exact h3 (.inl (by simp at h9 ⊢; exact .inr h9))
          · exact h2 (.inr (.inr ⟨h9, h⟩))
        · exact (hline c h1).1 h
        · exact (hline c h1).2 h
      simp [hne, hns]
  · intro w hw c hc
    have := (wordsFrom_mem _ _ _ (by simp) w hw).2 c hc
    simp at this
    exact hps c this.2

theorem word_pieces (h : ∀ c, d.cat c = Py.letters (ct c)) (strip : Bool) (never : List (List Nat)) (w : List Nat)
    (hw : w ≠ [] ∧ ∀ c ∈ w, c ∉ Py.spaces) (hst : strip = true → w ∉ never → ∀ c ∈ Py.stripAccents d w, c ∉ Py.spaces)
    (hsn : strip = true → w ∉ never → Py.stripAccents d w ∉ never) :
    ∀ p ∈ Py.word d strip never w, p ≠ [] ∧ ∀ c ∈ p, c ∉ Py.spaces := by
  intro p hp
  unfold Py.word at hp
  by_cases hk : w ∈ never
  · rw [if_pos hk] at hp
    simp at hp; subst hp; exact hw
  rw [if_neg hk] at hp
  have key : ∀ v : List Nat, (∀ c ∈ v, c ∉ Py.spaces) → p ∈ Py.puncLoop d true [] v →
      p ≠ [] ∧ ∀ c ∈ p, c ∉ Py.spaces := by
    intro v hv hp
    rw [(puncLoop_py (nfc := id) (nfd := id) (lower := id) h v []).1, List.nil_append] at hp
    exact ⟨puncLoop_ne_nil _ _ _ p hp, fun c hc => hv c (puncLoop_mem _ _ p hp c hc)⟩
  cases strip with
  | false =>
    simp only [Bool.false_eq_true, if_false, if_neg hk] at hp
    exact key w hw.2 hp
  | true =>
    simp only [if_true, if_neg (hsn rfl hk)] at hp
    exact key _ (hst rfl hk) hp

theorem basic_py (ha : Agree ct nfc nfd d) (hsp : SpacesOk d) {cond : TokInfo}
    (hb : BasicMode cond) (hs : cond.splitPunc = true) (hl : cond.lowerCase = false) {never : List (List Nat)}
    (hn : ∀ s ∈ never, ∀ c ∈ s, IsScalar c) (cs : List Nat) (hcs : ∀ c ∈ cs, IsScalar c)
    (hline : ∀ c ∈ d.nfc cs, c ≠ 0x2028 ∧ c ≠ 0x2029)
    (hcomm : d.nfc (Py.prep d cond.addCjk cs) = Py.prep d cond.addCjk (d.nfc cs))
    (hstrip : cond.stripAcc = true → ∀ w ∈ Py.split (d.nfc (Py.prep d cond.addCjk cs)), w ∉ never →
      d.nfc (Py.stripAccents d w) = Py.stripAccents d w ∧ Py.stripAccents d w ∉ never ∧
      ∀ c ∈ Py.stripAccents d w, c ∉ Py.spaces) :
    basicTokenize (icuOf ct nfc nfd lower) cond (never.map utf16Encode) (utf8Encode cs) =
      .ok ((Py.basic d cond.addCjk cond.stripAcc never cs).map utf16Encode) := by
  rw [basicTokenize_text _ cond _ cs hcs]
  show basicWords _ cond _ (cleanAndSplit _ cond (nfc (utf16Encode cs))) = _
  obtain ⟨e1, e2⟩ := ha.nfc cs hcs
  obtain ⟨w1, w2⟩ := words_py (nfc := nfc) (nfd := nfd) (lower := lower) ha hsp hb (d.nfc cs) e2 hline
  rw [hcomm] at hstrip
  rw [e1, w1, basicWords_py ha hs hl hn _ w2 (fun h w hw hk => ⟨(hstrip h w hw hk).1, (hstrip h w hw hk).2.1⟩)]
  unfold Py.basic
  rw [hcomm, split_join]
  intro p hp
  obtain ⟨w, hw, hp⟩ := List.mem_flatMap.mp hp
  have := wordsFrom_mem _ _ _ (by simp) w hw
  refine word_pieces ha.cat _ _ w ⟨this.1, fun c hc => ?_⟩ (fun h hk => (hstrip h w hw hk).2.2)
    (fun h hk => (hstrip h w hw hk).2.1) p hp
  have := (this.2 c hc).1
  simpa using this

theorem basic_ne_nil {b strip : Bool} {never : List (List Nat)} {cs w : List Nat} (h : w ∈ Py.basic d b strip never cs) :
    w ≠ [] := (wordsFrom_mem _ _ _ (by simp) w h).1

theorem join_mem (ws : List (List Nat)) : ∀ c ∈ Py.join ws, c = 32 ∨ ∃ w ∈ ws, c ∈ w := by
  fun_induction Py.join ws with
  | case1 => simp
  | case2 w => intro c hc; exact .inr ⟨w, by simp, hc⟩
  | case3 w ws _ ih =>
    intro c hc
    rcases List.mem_append.mp hc with hc | hc
    · exact .inr ⟨w, by simp, hc⟩
    · rcases List.mem_cons.mp hc with rfl | hc
      · exact .inl rfl
      · rcases ih c hc with h | ⟨v, hv, h⟩
        · exact .inl h
        · exact .inr ⟨v, by simp [hv], h⟩

theorem basic_scalar (ha : Agree ct nfc nfd d) {b strip : Bool} {never : List (List Nat)}
    (hn : ∀ s ∈ never, ∀ c ∈ s, IsScalar c) {cs : List Nat} (hcs : ∀ c ∈ cs, IsScalar c) {w : List Nat}
    (h : w ∈ Py.basic d b strip never cs) : ∀ c ∈ w, IsScalar c := by
  have h32 : IsScalar 32 := by decide
  intro c hc
  have h := ((wordsFrom_mem _ _ _ (by simp) w h).2 c hc).2
  simp only [List.not_mem_nil, false_or] at h
  rcases join_mem _ c h with rfl | ⟨p, hp, hcp⟩
  · exact h32
  · obtain ⟨x, hx, hp⟩ := List.mem_flatMap.mp hp
    have hpre : ∀ c ∈ Py.prep d b cs, IsScalar c := by
      intro c hc
      rcases prep_mem b cs c hc with rfl | ⟨h, _⟩
      · exact h32
      · exact hcs c h
    have hxs : ∀ c ∈ x, IsScalar c := by
      intro c hc
      have := ((wordsFrom_mem _ _ _ (by simp) x hx).2 c hc).2
      simp only [List.not_mem_nil, false_or] at this
      exact (ha.nfc _ hpre).2 c this
    unfold Py.word at hp
    split at hp
    · rename_i hm
      simp at hp
      subst hp
      exact hn p hm c hcp
    · simp only at hp
      generalize hy : (if strip = true then Py.stripAccents d x else x) = y at hp
      have hst : ∀ c ∈ y, IsScalar c := by
        intro c hc
        rw [← hy] at hc
        split at hc
        · exact (ha.nfd x hxs).2 c (List.mem_filter.mp hc).1
        · exact hxs c hc
      split at hp
      · rw [List.mem_singleton] at hp
        rw [hp] at hcp
        exact hst c hcp
      · rw [(puncLoop_py (nfc := id) (nfd := id) (lower := id) ha.cat _ []).1, List.nil_append] at hp
        exact hst c (puncLoop_mem _ _ p hp c hcp)

/-! ## WordPiece on code points and on 16-bit units -/

theorem utf16_head {x y : Nat} (hx : IsScalar x) (hy : IsScalar y) {s t : List Nat}
    (h : utf16Of x ++ s = utf16Of y ++ t) : x = y ∧ s = t := by
  unfold IsScalar at hx hy
  unfold utf16Of at h
  split at h <;> split at h <;> simp only [List.cons_append, List.nil_append, List.cons.injEq] at h
  · exact h
  · omega
  · omega
  · exact ⟨by omega, h.2.2⟩

theorem utf16_prefix {a b : List Nat} (ha : ∀ c ∈ a, IsScalar c) (hb : ∀ c ∈ b, IsScalar c) {s : List Nat}
    (h : utf16Encode b = utf16Encode a ++ s) : ∃ r, b = a ++ r ∧ s = utf16Encode r := by
  induction a generalizing b with
  | nil => exact ⟨b, rfl, by simpa [utf16Encode] using h.symm⟩
  | cons x a ih =>
    cases b with
    | nil =>
      have := utf16Of_ne_nil x
      simp [utf16Encode, this] at h
    | cons y b =>
      simp only [utf16Encode, List.flatMap_cons, List.append_assoc] at h
      obtain ⟨rfl, h'⟩ := utf16_head (hb y (by simp)) (ha x (by simp)) h
      obtain ⟨r, rfl, h2⟩ := ih (b := b) (fun c hc => ha c (by simp [hc])) (fun c hc => hb c (by simp [hc])) h'
      exact ⟨r, rfl, h2⟩

theorem lastIndex_units {V : List (List Nat)} (hV : ∀ v ∈ V, ∀ c ∈ v, IsScalar c) {s : List Nat}
    (hs : ∀ c ∈ s, IsScalar c) {i : Nat} (h : IsLastIndex V s i) :
    IsLastIndex (V.map utf16Encode) (utf16Encode s) i := by
  refine ⟨by rw [List.getElem?_map, h.1]; rfl, fun j hj => h.2 j ?_⟩
  rw [List.getElem?_map] at hj
  cases hv : V[j]? with
  | none => rw [hv] at hj; cases hj
  | some v =>
    rw [hv] at hj
    simp only [Option.map_some, Option.some.injEq] at hj
    rw [Bpe.utf16Encode_inj (hV v (List.mem_of_getElem? hv)) hs hj]

/-- An entry that starts (after `pfx`) with units of a text starts with characters of it. -/
theorem entry_units {V : List (List Nat)} (hV : ∀ v ∈ V, ∀ c ∈ v, IsScalar c) {pfx w q : List Nat}
    (hp : ∀ c ∈ pfx, IsScalar c) (hw : ∀ c ∈ w, IsScalar c) (hq : q <+: utf16Encode w)
    (hm : utf16Encode pfx ++ q ∈ V.map utf16Encode) :
    ∃ b, b <+: w ∧ q = utf16Encode b ∧ pfx ++ b ∈ V := by
  obtain ⟨v, h1, h2⟩ := List.mem_map.mp hm
  obtain ⟨b, rfl, rfl⟩ := utf16_prefix hp (hV v h1) h2
  obtain ⟨s, hs⟩ := hq
  obtain ⟨r, rfl, _⟩ := utf16_prefix (fun c hc => hV _ h1 c (List.mem_append_right _ hc)) hw hs.symm
  exact ⟨b, ⟨r, rfl⟩, rfl, h1⟩

theorem length_units {a b : List Nat} (h : a <+: b) : (utf16Encode a).length ≤ (utf16Encode b).length := by
  obtain ⟨r, rfl⟩ := h
  rw [utf16Encode_append]
  simp

theorem prefix_of_length {a b w : List Nat} (ha : a <+: w) (hb : b <+: w) (h : a.length ≤ b.length) : a <+: b :=
  List.prefix_of_prefix_length_le ha hb h

theorem pieces_units {V : List (List Nat)} (hV : ∀ v ∈ V, ∀ c ∈ v, IsScalar c) {pfx w ids left : List Nat}
    (h : Pieces V pfx w ids left) (hp : ∀ c ∈ pfx, IsScalar c) (hw : ∀ c ∈ w, IsScalar c) :
    Pieces (V.map utf16Encode) (utf16Encode pfx) (utf16Encode w) ids (utf16Encode left) := by
  induction h with
  | done pfx => exact Pieces.done _
  | stuck pfx rest h0 h1 =>
    refine Pieces.stuck _ _ (by rwa [ne_eq, utf16Encode_eq_nil]) fun q hq hq0 hm => ?_
    obtain ⟨b, b1, rfl, b3⟩ := entry_units hV hp hw hq hm
    exact h1 b b1 (by rwa [ne_eq, utf16Encode_eq_nil] at hq0) b3
  | step pfx p r id ids left h0 h1 h2 h3 ih =>
    have hpw : ∀ c ∈ p, IsScalar c := fun c hc => hw c (List.mem_append_left _ hc)
    have hrw : ∀ c ∈ r, IsScalar c := fun c hc => hw c (List.mem_append_right _ hc)
    rw [utf16Encode_append]
    refine Pieces.step _ _ _ _ _ _ (by rwa [ne_eq, utf16Encode_eq_nil]) ?_ ?_ (ih (by decide) hrw)
    · rw [← utf16Encode_append]
      exact lastIndex_units hV (fun c hc => (List.mem_append.mp hc).elim (hp c) (hpw c)) h1
    · intro q hq hq0 hm
      rw [← utf16Encode_append] at hq
      obtain ⟨b, b1, rfl, b3⟩ := entry_units hV hp hw hq hm
      have := h2 b b1 (by rwa [ne_eq, utf16Encode_eq_nil] at hq0) b3
      exact length_units (prefix_of_length b1 (List.prefix_append p r) this)

theorem refWord_units {V : List (List Nat)} (hV : ∀ v ∈ V, ∀ c ∈ v, IsScalar c) {unk : Nat} {w out : List Nat}
    (hw : ∀ c ∈ w, IsScalar c) (h : RefWord V unk w out) : RefWord (V.map utf16Encode) unk (utf16Encode w) out := by
  rcases h with h | ⟨ids, left, h1, h2, h3⟩
  · exact .inl (pieces_units hV h (by simp) hw)
  · exact .inr ⟨ids, _, pieces_units hV h1 (by simp) hw, by rwa [ne_eq, utf16Encode_eq_nil], h3⟩

theorem refWord_exists (V : List (List Nat)) (unk : Nat) (w : List Nat) : ∃ out, RefWord V unk w out := by
  obtain ⟨ids, left, h⟩ := pieces_exists V [] w
  by_cases hl : left = []
  · subst hl; exact ⟨ids, .inl h⟩
  · exact ⟨[unk], .inr ⟨ids, left, h, hl, rfl⟩⟩

theorem refWord_unique {V : List (List Nat)} {unk : Nat} {w out out' : List Nat} (h : RefWord V unk w out)
    (h' : RefWord V unk w out') : out = out' := by
  rcases h with h | ⟨ids, left, h1, h2, h3⟩ <;> rcases h' with h' | ⟨ids', left', h1', h2', h3'⟩
  · exact (pieces_unique h _ _ h').1.symm
  · exact absurd (pieces_unique h _ _ h1').2 h2'
  · exact absurd (pieces_unique h1 _ _ h').2.symm h2
  · rw [h3, h3']

/-- The reference on units is the reference on characters. -/
theorem refWord_iff {V : List (List Nat)} (hV : ∀ v ∈ V, ∀ c ∈ v, IsScalar c) {unk : Nat} {w out : List Nat}
    (hw : ∀ c ∈ w, IsScalar c) : RefWord (V.map utf16Encode) unk (utf16Encode w) out ↔ RefWord V unk w out := by
  refine ⟨fun h => ?_, refWord_units hV hw⟩
  obtain ⟨o, ho⟩ := refWord_exists V unk w
  rw [refWord_unique h (refWord_units hV hw ho)]
  exact ho

theorem tight_marker {V : List (List Nat)} {unk : Nat} (hunk : ∀ s, V[unk]? = some s → ¬ marker <+: s)
    {pfx w ids : List Nat} (h : TightPieces V pfx w ids) (hp : pfx = marker) : unk ∉ ids := by
  induction h with
  | done => simp
  | step pfx p r id ids h0 h1 h2 h3 ih =>
    subst hp
    intro hm
    rcases List.mem_cons.mp hm with rfl | hm
    · exact hunk _ h1.1 (List.prefix_append _ _)
    · exact ih rfl hm

theorem tight_last {V : List (List Nat)} {unk : Nat} (hunk : ∀ s, V[unk]? = some s → ¬ marker <+: s)
    {w ids : List Nat} (h : TightPieces V [] w ids) : ids.length ≤ 1 ∨ ids.getLast? ≠ some unk := by
  generalize hp : ([] : List Nat) = pfx at h
  cases h with
  | done => exact .inl (by simp)
  | step pfx p r id ids h0 h1 h2 h3 =>
    have := tight_marker hunk h3 rfl
    cases ids with
    | nil => exact .inl (by simp)
    | cons a ids =>
      refine .inr fun hl => this ?_
      rw [List.getLast?_cons_cons] at hl
      exact List.mem_of_getLast? hl

theorem tight_entry {V : List (List Nat)} {w : List Nat} {i : Nat} (hw : w ≠ []) (h : IsLastIndex V w i) :
    TightPieces V [] w [i] := by
  have := TightPieces.step (V := V) [] w [] i [] hw (by simpa using h)
    (fun q hq _ => by simpa using hq.length_le) (TightPieces.done _)
  simpa using this

theorem unitsOfUtf8_encode {cs : List Nat} (h : ∀ c ∈ cs, IsScalar c) : unitsOfUtf8 (utf8Encode cs) = utf16Encode cs := by
  unfold unitsOfUtf8
  rw [utf8Decode_encode cs h]

theorem units_vocab {V : List (List Nat)} (hV : ∀ v ∈ V, ∀ c ∈ v, IsScalar c) :
    (V.map utf8Encode).map unitsOfUtf8 = V.map utf16Encode := by
  rw [List.map_map]
  exact List.map_congr_left fun v hv => unitsOfUtf8_encode (hV v hv)

end Berts.Bert
