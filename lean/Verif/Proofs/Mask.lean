import Verif.Props.Bert

/-! # Helper lemmas: special tokens inside a BERT text -/

namespace Berts.Mask

open Berts.Spec Berts.Unicode Berts.Bert Berts.Trie Berts.Props

/-- The node at which the look-up stands after a list of words. -/
def wordsEnd (root cont : Node) (unk : Nat) : Node → List (List Nat) → Node
  | n, [] => n
  | n, w :: ws => wordsEnd root cont unk (wordLoop root cont unk w.length n w).2 ws

theorem wordsLoop_append (root cont : Node) (unk : Nat) (n : Node) (a b : List (List Nat)) :
    wordsLoop root cont unk n (a ++ b) =
      wordsLoop root cont unk n a ++ wordsLoop root cont unk (wordsEnd root cont unk n a) b := by
  induction a generalizing n with
  | nil => rfl
  | cons w ws ih =>
    simp only [List.cons_append, wordsLoop, wordsEnd, ih, List.append_assoc]

theorem getLast?_append_some {a b : List Nat} {x : Nat} (h : b.getLast? = some x) : (a ++ b).getLast? = some x := by
  rw [List.getLast?_append, h]; rfl

/-- After words that end with a found piece, the look-up stands at the root. -/
theorem wordsEnd_cases (root cont : Node) (unk : Nat) (n : Node) (ws : List (List Nat)) :
    wordsEnd root cont unk n ws = root ∨ (wordsLoop root cont unk n ws).getLast? = some unk ∨
      (wordsLoop root cont unk n ws = [] ∧ wordsEnd root cont unk n ws = n) := by
  induction ws generalizing n with
  | nil => exact .inr (.inr ⟨rfl, rfl⟩)
  | cons w ws ih =>
    by_cases hw : w = []
    · subst hw
      exact ih n
    · simp only [wordsEnd, wordsLoop]
      rcases ih (wordLoop root cont unk w.length n w).2 with h | h | ⟨h1, h2⟩
      · exact .inl h
      · exact .inr (.inl (getLast?_append_some h))
      · rcases wordLoop_root root cont unk w.length n w (Nat.le_refl _) hw with h3 | ⟨h3, _⟩
        · exact .inl (h2.trans h3)
        · rw [h1, List.append_nil]
          exact .inr (.inl h3)

theorem wordpiece_append (t : Node) (unk : Nat) (a b : List (List Nat)) (ia ib : List Nat)
    (ha : (wordpiece t unk a).getD [] = ia) (hb : (wordpiece t unk b).getD [] = ib)
    (h : ia.getLast? ≠ some unk) : (wordpiece t unk (a ++ b)).getD [] = ia ++ ib := by
  unfold wordpiece at *
  cases hc : findNode t hashes with
  | none =>
    rw [hc] at ha hb
    simp only [Option.getD_none] at ha hb ⊢
    rw [← ha, ← hb]; rfl
  | some cont =>
    simp only [hc, Option.getD_some] at ha hb ⊢
    rw [wordsLoop_append, ha]
    rcases wordsEnd_cases t cont unk t a with h1 | h1 | ⟨_, h1⟩
    · rw [h1, hb]
    · exact absurd (ha ▸ h1) h
    · rw [h1, hb]

theorem scan_nil {V : List (List Nat)} {unk : Nat} {pfx ids pfx' : List Nat} (h : Scan V unk pfx [] ids pfx') : ids = [] := by
  generalize hw : ([] : List Nat) = w at h
  cases h with
  | empty => rfl
  | fail _ _ g1 _ => exact absurd hw.symm g1
  | step _ p' q' r' _ _ _ g1 g2 =>
    have e := (List.append_eq_nil_iff.1 hw.symm).1
    subst e
    exact absurd (List.prefix_nil.1 g2) g1

theorem scan_marker {V : List (List Nat)} {unk m : Nat} {x : List Nat} (hm : V[m]? = some x) (hu : m ≠ unk)
    (hx : ¬ marker <+: x) {w ids pfx' : List Nat} (h : Scan V unk marker w ids pfx') : m ∈ ids → False := by
  generalize hpf : marker = pfx at h
  induction h with
  | empty pfx => intro h; cases h
  | fail pfx rest h1 h2 => exact fun h => hu (List.mem_singleton.1 h)
  | step pfx p q r id ids pfx' h1 h2 h3 h4 h5 h6 h7 ih =>
    intro h
    rw [List.mem_cons] at h
    rcases h with rfl | h
    · have := h3.1
      rw [hm] at this
      injection this with this
      exact hx (this ▸ hpf ▸ List.prefix_append _ _)
    · by_cases hr : r = []
      · subst hr
        rw [scan_nil h7] at h
        cases h
      · rw [if_neg hr] at ih
        exact ih rfl h

/-- One step of WordPiece finds an entry only at the beginning of a word, or after `##`. -/
theorem scan_mem {V : List (List Nat)} {unk m : Nat} {x : List Nat} (hm : V[m]? = some x) (hu : m ≠ unk)
    (hx : ¬ marker <+: x) {pfx w ids pfx' : List Nat} (hp : pfx = [] ∨ pfx = marker) (h : Scan V unk pfx w ids pfx') :
    (pfx' = [] ∨ pfx' = marker) ∧ (m ∈ ids → x <+: w ∧ x ≠ [] ∧ (w ∈ V → x = w)) := by
  induction h with
  | empty pfx => exact ⟨hp, fun h => by cases h⟩
  | fail pfx rest h1 h2 => exact ⟨hp, fun h => absurd (List.mem_singleton.1 h) hu⟩
  | step pfx p q r id ids pfx' h1 h2 h3 h4 h5 h6 h7 ih =>
    have hp' : (if r = [] then [] else marker) = [] ∨ (if r = [] then [] else marker) = marker := by
      split
      · exact .inl rfl
      · exact .inr rfl
    obtain ⟨i1, i2⟩ := ih hp'
    refine ⟨i1, fun h => ?_⟩
    rw [List.mem_cons] at h
    rcases h with rfl | h
    · have hx' : pfx ++ p = x := by
        have := h3.1
        rw [hm] at this
        injection this with this
        exact this.symm
      rcases hp with rfl | rfl
      · rw [List.nil_append] at hx'
        subst hx'
        have hpw : p <+: q ++ r := h2.trans (List.prefix_append _ _)
        refine ⟨hpw, h1, fun hw => ?_⟩
        have hne : q ++ r ≠ [] := fun e => h1 (List.prefix_nil.1 (e ▸ hpw))
        have := h4 (q ++ r) (List.prefix_refl _) hne hw
        exact hpw.eq_of_length_le this
      · exact absurd (hx' ▸ List.prefix_append _ _) hx
    · -- later steps look up after `##`, or there is nothing left
      exfalso
      by_cases hr : r = []
      · subst hr
        obtain ⟨j1, j2, _⟩ := i2 h
        exact j2 (List.prefix_nil.1 j1)
      · rw [if_neg hr] at h7
        clear ih i1 i2
        exact scan_marker hm hu hx h7 h

theorem scanAll_mem {V : List (List Nat)} {unk m : Nat} {x : List Nat} (hm : V[m]? = some x) (hu : m ≠ unk)
    (hx : ¬ marker <+: x) {pfx : List Nat} {ws : List (List Nat)} {out : List Nat} (hp : pfx = [] ∨ pfx = marker)
    (h : ScanAll V unk pfx ws out) : m ∈ out → ∃ w ∈ ws, x <+: w ∧ x ≠ [] ∧ (w ∈ V → x = w) := by
  induction h with
  | nil => intro h; cases h
  | cons pfx w ws ids pfx' out h1 _ ih =>
    obtain ⟨k1, k2⟩ := scan_mem hm hu hx hp h1
    intro h
    rw [List.mem_append] at h
    rcases h with h | h
    · exact ⟨w, by simp, k2 h⟩
    · obtain ⟨w', i1, i2⟩ := ih k1 h
      exact ⟨w', by simp [i1], i2⟩

/-- Where the words given to WordPiece come from. -/
theorem basicWords_mem (u : Icu) (cond : TokInfo) (keep : List (List Nat)) (ws out : List (List Nat))
    (h : basicWords u cond keep ws = .ok out) :
    ∀ w ∈ out, (w ∈ keep ∧ w ∈ ws) ∨ ∃ word ∈ ws, word ∉ keep ∧ ∃ r, basicWord u cond keep word = .ok r ∧ w ∈ r := by
  induction ws generalizing out with
  | nil =>
    simp only [basicWords] at h
    cases h
    intro w hw; cases hw
  | cons x ws ih =>
    simp only [basicWords] at h
    obtain ⟨r, h1, h⟩ := res_bind_ok h
    obtain ⟨rs, h2, h⟩ := res_bind_ok h
    have e : r ++ rs = out := by injection h
    subst e
    intro w hw
    rw [List.mem_append] at hw
    rcases hw with hw | hw
    · by_cases hk : x ∈ keep
      · simp only [basicWord, hk, if_true] at h1
        injection h1 with h1
        subst h1
        rw [List.mem_singleton] at hw
        subst hw
        exact .inl ⟨hk, by simp⟩
      · exact .inr ⟨x, by simp, hk, r, h1, hw⟩
    · rcases ih rs h2 w hw with ⟨i1, i2⟩ | ⟨word, i1, i2⟩
      · exact .inl ⟨i1, by simp [i2]⟩
      · exact .inr ⟨word, by simp [i1], i2⟩

/-- Words that are entries give one id each. -/
theorem wordsLoop_entries (V : List (List Nat)) (hV : V.length ≤ INVALID) (cont : Node) (unk : Nat)
    (ws : List (List Nat)) (h : ∀ w ∈ ws, w ≠ [] ∧ w ∈ V) :
    (wordsLoop (buildFrom Node.new 0 V) cont unk (buildFrom Node.new 0 V) ws).map (fun i => V[i]?) = ws.map some := by
  induction ws with
  | nil => rfl
  | cons w ws ih =>
    obtain ⟨h1, h2⟩ := h w (by simp)
    obtain ⟨i, hi⟩ := last_index_exists V w h2
    rw [wordsLoop, wordpiece_entry V hV cont unk w h1 i hi]
    simp only [List.singleton_append, List.map_cons, ih (fun x hx => h x (by simp [hx])), hi.1]

theorem utf16_ascii (x : List Nat) (h : ∀ c ∈ x, c < 0x80) : utf16Encode x = x := by
  unfold utf16Encode
  induction x with
  | nil => rfl
  | cons c cs ih =>
    have h1 : utf16Of c = [c] := by
      have := h c (by simp)
      simp [utf16Of]; omega
    rw [List.flatMap_cons, h1, ih (fun d hd => h d (by simp [hd]))]; rfl

/-- An ASCII unit of an encoded text is a character of the text. -/
theorem ascii_unit {c : Nat} (hc : c < 0x80) {cs : List Nat} (h : c ∈ utf16Encode cs) : c ∈ cs := by
  unfold utf16Encode at h
  rw [List.mem_flatMap] at h
  obtain ⟨d, h1, h2⟩ := h
  unfold utf16Of at h2
  split at h2
  · simp at h2; exact h2 ▸ h1
  · simp at h2
    omega

end Berts.Mask
