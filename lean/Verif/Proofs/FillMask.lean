import Verif.Props.Bert
import Verif.Props.Roberta

/-! # Helper lemmas: how many ids a text gets -/

namespace Berts.FillMask

open Berts.Spec Berts.Unicode

/-! ## RoBERTa -/

/-- Each id stands for at least one of the things spelled; an id of a long entry for at least three. -/
theorem spells_length {l : List (List Nat)} (hl : [] ∉ l) {ids cs : List Nat} (h : Spells l ids cs) :
    ids.length ≤ cs.length ∧
    ∀ m x, m ∈ ids → l[m]? = some x → 3 ≤ x.length → (∀ c ∈ x, c < 0x80) → ids.length + 2 ≤ cs.length := by
  obtain ⟨parts, h1, h2, rfl⟩ := h
  induction parts generalizing ids with
  | nil =>
    cases ids with
    | nil => simp
    | cons => simp at h2
  | cons p parts ih =>
    cases ids with
    | nil => simp at h2
    | cons i ids =>
      simp only [List.map_cons, List.cons.injEq] at h2
      obtain ⟨h2, h3⟩ := h2
      obtain ⟨i1, i2⟩ := ih (fun q hq => h1 q (List.mem_cons_of_mem _ hq)) h3
      have hp : p ≠ [] := by
        rintro rfl
        exact hl (List.mem_of_getElem? h2)
      have hpl : 0 < p.length := List.length_pos_iff.2 hp
      refine ⟨by simp only [List.flatten_cons, List.length_append, List.length_cons]; omega, ?_⟩
      intro m x hm hx hlen hasc
      rw [List.mem_cons] at hm
      rcases hm with rfl | hm
      · rw [hx] at h2
        injection h2 with h2
        have : p = x := by
          refine Props.utf8Encode_inj (h1 p (by simp)) (fun c hc => .inl (by have := hasc c hc; omega)) ?_
          rw [← h2, Roberta.utf8_ascii x hasc]
        subst this
        simp only [List.flatten_cons, List.length_append, List.length_cons]
        omega
      · have := i2 m x hm hx hlen hasc
        simp only [List.flatten_cons, List.length_append, List.length_cons]
        omega

theorem utf8Encode_stripEnd (ws : Nat → Bool) (cs : List Nat) :
    (utf8Encode (stripEnd ws cs)).length ≤ (utf8Encode cs).length := by
  have h : ∃ t, cs = stripEnd ws cs ++ t := by
    refine ⟨(cs.reverse.takeWhile ws).reverse, ?_⟩
    unfold stripEnd
    rw [← List.reverse_append, List.takeWhile_append_dropWhile, List.reverse_reverse]
  obtain ⟨t, h⟩ := h
  conv => rhs; rw [h, Roberta.utf8Encode_append]
  simp

theorem keptBytes_length (ws : Nat → Bool) (b : Bool) (s : List Nat) : (keptBytes ws b s).length ≤ s.length := by
  unfold keptBytes
  split
  · cases h : utf8Decode s with
    | none => simp [stripEnd, utf8Encode]
    | some cs =>
      rw [Option.getD_some]
      have h1 := utf8Encode_stripEnd ws cs
      rw [(utf8Encode_decode s cs h).1] at h1
      exact h1
  · exact Nat.le_refl _

theorem keptPieces_length (ws : Nat → Bool) (mask : List Nat) (ps : List (Bool × List Nat)) :
    ((keptPieces ws mask ps).map (·.2)).flatten.length ≤ (ps.map (·.2)).flatten.length := by
  induction ps with
  | nil => simp [keptPieces]
  | cons p ps ih =>
    obtain ⟨b, s⟩ := p
    cases b
    · simp only [keptPieces, List.map_cons, List.flatten_cons, List.length_append]
      have := keptBytes_length ws (ps.head?.any (fun p => p.1 && p.2 == mask)) s
      omega
    · simp only [keptPieces, List.map_cons, List.flatten_cons, List.length_append]
      omega

theorem pieceIds_length {l : List (List Nat)} (hl : [] ∉ l) (ps : List (Bool × List Nat)) {idss : List (List Nat)}
    (h : PieceIds l ps idss) :
    idss.flatten.length ≤ (ps.map (·.2)).flatten.length ∧
    ∀ m x, m ∈ idss.flatten → l[m]? = some x → 3 ≤ x.length → (∀ c ∈ x, c < 0x80) →
      idss.flatten.length + 2 ≤ (ps.map (·.2)).flatten.length := by
  induction ps generalizing idss with
  | nil =>
    have h : idss = [] := h
    subst h
    simp
  | cons p ps ih =>
    obtain ⟨b, s⟩ := p
    cases idss with
    | nil => exact absurd h (by cases b <;> exact id)
    | cons ids idss =>
      have key : (ids.length ≤ s.length ∧ ∀ m x, m ∈ ids → l[m]? = some x → 3 ≤ x.length → (∀ c ∈ x, c < 0x80) →
          ids.length + 2 ≤ s.length) ∧ PieceIds l ps idss := by
        cases b
        · obtain ⟨h1, h2⟩ : Spells l ids (byteChars s) ∧ PieceIds l ps idss := h
          have := spells_length hl h1
          simp only [byteChars, List.length_map] at this
          exact ⟨this, h2⟩
        · obtain ⟨⟨i, rfl, h1⟩, h2⟩ : (∃ i, ids = [i] ∧ l[i]? = some s) ∧ PieceIds l ps idss := h
          have hs : 0 < s.length := List.length_pos_iff.2 fun e => hl (e ▸ List.mem_of_getElem? h1)
          refine ⟨⟨hs, ?_⟩, h2⟩
          intro m x hm hx hlen _
          rw [List.mem_singleton] at hm
          subst hm
          rw [h1] at hx
          cases hx
          exact hlen
      obtain ⟨⟨k1, k2⟩, k3⟩ := key
      obtain ⟨i1, i2⟩ := ih k3
      simp only [List.map_cons, List.flatten_cons, List.length_append]
      refine ⟨by omega, ?_⟩
      intro m x hm hx hlen hasc
      rw [List.mem_append] at hm
      rcases hm with hm | hm
      · have := k2 m x hm hx hlen hasc
        omega
      · have := i2 m x hm hx hlen hasc
        omega

/-! ## BERT -/

/-- An entry found by WordPiece uses up at least its own length; the unknown token at least one unit. -/
theorem scan_length {V : List (List Nat)} {unk : Nat} {pfx w ids pfx' : List Nat} (hp : pfx = [] ∨ pfx = marker)
    (h : Scan V unk pfx w ids pfx') :
    ids.length ≤ w.length ∧ (pfx' = [] ∨ pfx' = marker) ∧
    ∀ m x, m ∈ ids → m ≠ unk → V[m]? = some x → 3 ≤ x.length → ¬ marker <+: x → ids.length + 2 ≤ w.length := by
  induction h with
  | empty pfx => simp [hp]
  | fail pfx rest h1 h2 =>
    have : 0 < rest.length := List.length_pos_iff.2 h1
    refine ⟨by simp; omega, hp, ?_⟩
    intro m x hm hne
    rw [List.mem_singleton] at hm
    exact absurd hm hne
  | step pfx p q r id ids pfx' h1 h2 h3 h4 h5 h6 h7 ih =>
    obtain ⟨i1, i2, i3⟩ := ih (by split <;> simp)
    have hpq := h2.length_le
    have hp0 : 0 < p.length := List.length_pos_iff.2 h1
    refine ⟨by simp; omega, i2, ?_⟩
    intro m x hm hne hx hlen hmk
    rw [List.mem_cons] at hm
    rcases hm with rfl | hm
    · have h3' := h3.1
      rw [hx] at h3'
      injection h3' with h3'
      rcases hp with rfl | rfl
      · subst h3'
        simp at hlen ⊢
        omega
      · exact absurd ⟨p, h3'.symm⟩ hmk
    · have := i3 m x hm hne hx hlen hmk
      simp
      omega

theorem scanAll_length {V : List (List Nat)} {unk : Nat} {pfx : List Nat} {ws : List (List Nat)} {out : List Nat}
    (hp : pfx = [] ∨ pfx = marker) (h : ScanAll V unk pfx ws out) :
    out.length ≤ ws.flatten.length ∧
    ∀ m x, m ∈ out → m ≠ unk → V[m]? = some x → 3 ≤ x.length → ¬ marker <+: x →
      out.length + 2 ≤ ws.flatten.length := by
  induction h with
  | nil pfx => simp
  | cons pfx w ws ids pfx' out h1 h2 ih =>
    obtain ⟨a1, a2, a3⟩ := scan_length hp h1
    obtain ⟨i1, i2⟩ := ih a2
    simp only [List.length_append, List.flatten_cons]
    refine ⟨by omega, ?_⟩
    intro m x hm hne hx hlen hmk
    rw [List.mem_append] at hm
    rcases hm with hm | hm
    · have := a3 m x hm hne hx hlen hmk
      omega
    · have := i2 m x hm hne hx hlen hmk
      omega

theorem flatten_filter_length {α : Type} (p : List α → Bool) (ws : List (List α)) :
    (ws.filter p).flatten.length ≤ ws.flatten.length := by
  induction ws with
  | nil => simp
  | cons w ws ih =>
    rw [List.filter_cons]
    split <;> simp only [List.flatten_cons, List.length_append] <;> omega

theorem utf16_filter_length (p : Nat → Bool) (cs : List Nat) :
    (utf16Encode (cs.filter p)).length ≤ (utf16Encode cs).length := by
  induction cs with
  | nil => simp
  | cons c cs ih =>
    rw [List.filter_cons]
    split <;> simp only [utf16Encode, List.flatMap_cons, List.length_append] at ih ⊢ <;> omega

end Berts.FillMask
