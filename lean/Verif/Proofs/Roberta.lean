import Verif.Model.Roberta
import Verif.Spec.Roberta
import Verif.Proofs.Vocab
import Verif.Props.Unicode
import Verif.Props.Bpe

/-! # Lemmas about the RoBERTa tokenizer -/

namespace Berts.Roberta

open Berts.Unicode Berts.Vocab Berts.Bpe Berts.Spec Berts.Props

/-! ## Byte table -/

theorem byteEncoder_spec : ∀ b, b < 256 → byteEncoder[b]? = some (byteChar b) := by decide +kernel

theorem byteEncoder_length : byteEncoder.length = 256 := by decide +kernel

theorem byteChar_lt : ∀ b, b < 256 → byteChar b < 0x144 := by decide +kernel

theorem byteChar_idx : ∀ b, b < 256 → byteEncoder.idxOf (byteChar b) = b := by decide +kernel

theorem byteChar_inj {a b : Nat} (ha : a < 256) (hb : b < 256) (h : byteChar a = byteChar b) :
    a = b := by
  rw [← byteChar_idx a ha, ← byteChar_idx b hb, h]

theorem byteChars_inj {a b : List Nat} (ha : Bytes a) (hb : Bytes b) (h : byteChars a = byteChars b) :
    a = b := by
  induction a generalizing b with
  | nil => cases b with
    | nil => rfl
    | cons _ _ => simp [byteChars] at h
  | cons x a ih => cases b with
    | nil => simp [byteChars] at h
    | cons y b =>
      simp only [byteChars, List.map_cons, List.cons.injEq] at h
      rw [byteChar_inj (ha x (by simp)) (hb y (by simp)) h.1,
        ih (fun z hz => ha z (by simp [hz])) (fun z hz => hb z (by simp [hz])) h.2]

theorem encodeByte_ok {signed : Bool} {b : Nat} (h : b < 256) (hs : signed = true → b < 0x80) :
    encodeByte signed b = .ok (byteChar b) := by
  unfold encodeByte
  rw [if_neg (by intro ⟨h1, h2⟩; have := hs h1; omega), byteEncoder_spec b h]

theorem encodeBytes_ok {signed : Bool} {bs : List Nat} (h : Bytes bs)
    (hs : signed = true → ∀ b ∈ bs, b < 0x80) : encodeBytes signed bs = .ok (byteChars bs) := by
  induction bs with
  | nil => rfl
  | cons b bs ih =>
    unfold encodeBytes
    rw [encodeByte_ok (h b (by simp)) (fun h => hs h b (by simp)),
      ih (fun z hz => h z (by simp [hz])) (fun h z hz => hs h z (by simp [hz]))]
    rfl

theorem utf16_small (l : List Nat) (h : ∀ c ∈ l, c < 0x10000) : utf16Encode l = l := by
  induction l with
  | nil => rfl
  | cons c l ih =>
    have h0 := h c (by simp)
    have := ih (fun x hx => h x (by simp [hx]))
    simp only [utf16Encode, List.flatMap_cons] at this ⊢
    rw [this]
    simp [utf16Of, h0]

theorem byteChars_scalar {bs : List Nat} (h : Bytes bs) : ∀ c ∈ byteChars bs, IsScalar c := by
  intro c hc
  obtain ⟨b, hb, rfl⟩ := List.mem_map.mp hc
  have := byteChar_lt b (h b hb)
  left; omega

theorem byteChars_utf16 {bs : List Nat} (h : Bytes bs) : utf16Encode (byteChars bs) = byteChars bs := by
  apply utf16_small
  intro c hc
  obtain ⟨b, hb, rfl⟩ := List.mem_map.mp hc
  have := byteChar_lt b (h b hb)
  omega

theorem byteChars_cps {bs : List Nat} (h : Bytes bs) : toCodePoints (byteChars bs) = byteChars bs := by
  have := toCodePoints_encode (byteChars bs) (byteChars_scalar h) false
  rwa [byteChars_utf16 h] at this

theorem byteChars_codepoints {bs : List Nat} (h : Bytes bs) : codepoints (byteChars bs) = bs.length := by
  have := congrArg List.length (byteChars_cps h)
  simpa [codepoints, toCodePoints, byteChars] using this

/-! ## Strings -/

theorem encodeUnits_ok (cs : List Nat) (h : ∀ c ∈ cs, IsScalar c) :
    encodeUnits (utf16Encode cs) = .ok (utf8Encode cs) := by
  unfold encodeUnits UImpl.encode
  have hr : Rep (UImpl.ofUnits (utf16Encode cs)) (utf16Encode cs) := rep_allocFill _ _
  have he : (UImpl.ofUnits (utf16Encode cs)).e = .zero := rfl
  rw [hr.2]
  by_cases hc : utf16Encode cs = []
  · rw [if_pos hc]
    have : cs = [] := by
      have := toCodePoints_encode cs h false
      rw [hc] at this
      exact this.symm
    subst this; rfl
  · rw [if_neg hc]
    simp only [he, readUnits_rep hr, Res.bind_ok]
    have e1 := congrArg List.length (toCodePoints_encode cs h false)
    have e2 := congrArg List.length (toCodePoints_encode cs h true)
    simp only [List.length_map] at e1 e2
    rw [if_pos (e1.trans e2.symm)]
    have e3 : toCodePoints (utf16Encode cs) = cs := toCodePoints_encode cs h false
    rw [e3]
    rfl

theorem encodeUnits_ne_ub (l : List Nat) : ∃ bs, encodeUnits l = .ok bs := by
  unfold encodeUnits UImpl.encode
  have hr : Rep (UImpl.ofUnits l) l := rep_allocFill _ _
  have he : (UImpl.ofUnits l).e = .zero := rfl
  rw [hr.2]
  by_cases hc : l = []
  · rw [if_pos hc]; exact ⟨_, rfl⟩
  · rw [if_neg hc]
    simp only [he, readUnits_rep hr, Res.bind_ok]
    split <;> exact ⟨_, rfl⟩

theorem ofUtf8_units (cs : List Nat) (h : ∀ c ∈ cs, IsScalar c) :
    (UImpl.ofUtf8 (utf8Encode cs)).readUnits = .ok (utf16Encode cs) :=
  readUnits_rep (C07_utf8_round_trip cs h).1

theorem idToToken_cps {v : VocabT} {id : Nat} {cs : List Nat} (h : ∀ c ∈ cs, IsScalar c)
    (he : v.idToToken id = utf8Encode cs) : idToToken v id = .ok (cs.map (· % 256)) := by
  unfold idToToken
  rw [he, ofUtf8_units cs h]
  have := congrArg (List.map (· % 256)) (toCodePoints_encode cs h false)
  rw [List.map_map] at this
  exact congrArg Res.ok this

/-! ## Splitting at special tokens -/

/-- What `Cut` says about the inside of plain pieces, for the tail of a list of pieces. -/
def NoneInside (specials : List (List Nat)) (pieces : List (Bool × List Nat)) : Prop :=
  ∀ pre p post, pieces = pre ++ p :: post → p.1 = false → ∀ a c b, p.2 = a ++ c :: b →
    ∀ k ∈ specials, ¬ k <+: (c :: b) ++ (post.map (·.2)).flatten

def Maximal (pieces : List (Bool × List Nat)) : Prop :=
  ∀ pre p q post, pieces = pre ++ p :: q :: post → p.1 = true ∨ q.1 = true

theorem noneInside_nil (k : List (List Nat)) : NoneInside k [] := by
  intro pre p post h; simp at h

theorem noneInside_cons {k : List (List Nat)} {x : Bool × List Nat} {L : List (Bool × List Nat)}
    (h1 : x.1 = false → ∀ a c b, x.2 = a ++ c :: b → ∀ s ∈ k, ¬ s <+: (c :: b) ++ (L.map (·.2)).flatten)
    (h2 : NoneInside k L) : NoneInside k (x :: L) := by
  intro pre p post e hp
  cases pre with
  | nil =>
    simp only [List.nil_append, List.cons.injEq] at e
    obtain ⟨rfl, rfl⟩ := e
    exact h1 hp
  | cons y pre =>
    simp only [List.cons_append, List.cons.injEq] at e
    exact h2 pre p post e.2 hp

theorem maximal_nil : Maximal [] := by intro pre p q post h; simp at h

theorem maximal_single (x : Bool × List Nat) : Maximal [x] := by
  intro pre p q post h
  cases pre with
  | nil => simp at h
  | cons y pre => simp at h

theorem maximal_cons {x y : Bool × List Nat} {L : List (Bool × List Nat)}
    (h1 : x.1 = true ∨ y.1 = true) (h2 : Maximal (y :: L)) : Maximal (x :: y :: L) := by
  intro pre p q post e
  cases pre with
  | nil =>
    simp only [List.nil_append, List.cons.injEq] at e
    obtain ⟨rfl, rfl, rfl⟩ := e
    exact h1
  | cons z pre =>
    simp only [List.cons_append, List.cons.injEq] at e
    exact h2 pre p q post e.2

theorem maximal_true {x : Bool × List Nat} {L : List (Bool × List Nat)} (h1 : x.1 = true)
    (h2 : Maximal L) : Maximal (x :: L) := by
  cases L with
  | nil => exact maximal_single x
  | cons y L => exact maximal_cons (Or.inl h1) h2

theorem flush_eq (tmp : List Nat) (out : List (Bool × List Nat)) :
    flush tmp out = out ++ flush tmp [] := by
  unfold flush; split <;> simp

theorem splitLoop_cut (keeps : List (List Nat)) (hk : [] ∉ keeps) (fuel : Nat) (rest tmp : List Nat)
    (out : List (Bool × List Nat)) (hf : rest.length ≤ fuel)
    (H : ∀ a c b, tmp = a ++ c :: b → ∀ k ∈ keeps, ¬ k <+: (c :: b) ++ rest) :
    ∃ pieces, splitLoop keeps fuel rest tmp out = .ok (out ++ pieces) ∧
      (pieces.map (·.2)).flatten = tmp ++ rest ∧
      (∀ p ∈ pieces, p.1 = true → p.2 ∈ keeps) ∧ (∀ p ∈ pieces, p.1 = false → p.2 ≠ []) ∧
      NoneInside keeps pieces ∧ Maximal pieces := by
  fun_induction splitLoop keeps fuel rest tmp out with
  | case1 fuel tmp out =>
    refine ⟨flush tmp [], by rw [flush_eq], ?_⟩
    unfold flush
    split
    · rename_i h0
      have h0 : tmp ≠ [] := by simpa using h0
      refine ⟨by simp, by simp, by simp [h0], ?_, maximal_single _⟩
      apply noneInside_cons _ (noneInside_nil _)
      intro _ a c b e
      simpa using H a c b e
    · rename_i h0
      have h0 : tmp = [] := by simpa using h0
      refine ⟨by simp [h0], by simp, by simp, noneInside_nil _, maximal_nil⟩
  | case2 => simp at hf
  | case3 fuel c rest tmp out keep hfind ih =>
    have hp := List.find?_some hfind
    have hmem := List.mem_of_find?_eq_some hfind
    have hpre : keep <+: c :: rest := by simpa using hp
    have hne : keep ≠ [] := fun h => hk (h ▸ hmem)
    have hlen : 0 < keep.length := List.length_pos_iff.mpr hne
    obtain ⟨tl, htl⟩ := hpre
    have hdrop : (c :: rest).drop keep.length = tl := by rw [← htl]; simp
    obtain ⟨P, e1, e2, e3, e4, e5, e6⟩ := ih (by
      simp only [List.length_drop, List.length_cons] at hf ⊢; omega) (by intro a c b e; simp at e)
    rw [hdrop] at e2
    have hconc : keep ++ (P.map (·.2)).flatten = c :: rest := by rw [e2, ← htl]; simp
    refine ⟨flush tmp [] ++ (true, keep) :: P, ?_, ?_, ?_, ?_, ?_, ?_⟩
    · rw [e1, flush_eq]; simp
    · unfold flush
      split
      · simp [e2, ← htl]
      · rename_i h0
        have h0 : tmp = [] := by simpa using h0
        simp [h0, e2, ← htl]
    · intro p hp ht
      rw [List.mem_append, List.mem_cons] at hp
      rcases hp with hp | rfl | hp
      · unfold flush at hp
        split at hp <;> simp at hp
        subst hp; simp at ht
      · exact hmem
      · exact e3 p hp ht
    · intro p hp ht
      rw [List.mem_append, List.mem_cons] at hp
      rcases hp with hp | rfl | hp
      · unfold flush at hp
        split at hp <;> simp at hp
        subst hp; rename_i h0; simpa using h0
      · simp at ht
      · exact e4 p hp ht
    · have h2 : NoneInside keeps ((true, keep) :: P) := noneInside_cons (by simp) e5
      unfold flush
      split
      · apply noneInside_cons _ h2
        intro _ a c' b e
        simp only [List.map_cons, List.flatten_cons, hconc, List.nil_append]
        exact H a c' b e
      · exact h2
    · have h2 : Maximal ((true, keep) :: P) := maximal_true rfl e6
      unfold flush
      split
      · exact maximal_cons (Or.inr rfl) h2
      · exact h2
  | case4 fuel c rest tmp out hfind ih =>
    have hnone : ∀ k ∈ keeps, ¬ k <+: c :: rest := by
      intro k hk2 hpre
      have := List.find?_eq_none.mp hfind k hk2
      exact this (by simpa using hpre)
    obtain ⟨P, e1, e2, e3⟩ := ih (by simpa using hf) (by
      intro a x b e
      rcases List.eq_nil_or_concat b with rfl | ⟨b', y, rfl⟩
      · have := List.append_inj' e rfl
        simp only [List.cons.injEq, and_true] at this
        rw [← this.2]
        simpa using hnone
      · have e' : tmp ++ [c] = (a ++ x :: b') ++ [y] := by simpa using e
        have := List.append_inj' e' rfl
        simp only [List.cons.injEq, and_true] at this
        have h := H a x b' this.1
        rw [this.2] at h
        simpa using h)
    exact ⟨P, e1, by simpa using e2, e3⟩

theorem splitLoop_ok (keeps : List (List Nat)) (hk : [] ∉ keeps) (fuel : Nat) (text : List Nat)
    (hf : text.length ≤ fuel) :
    ∃ pieces, splitLoop keeps fuel text [] [] = .ok pieces ∧ Cut keeps text pieces := by
  obtain ⟨P, h1, h2, h3, h4, h5, h6⟩ := splitLoop_cut keeps hk fuel text [] [] hf
    (by intro a c b e; simp at e)
  exact ⟨P, by simpa using h1, ⟨by simpa using h2, h3, h4, h5, h6⟩⟩

/-! ## UTF-8 pieces -/

theorem utf8Of_cont (d i c : Nat) (h : (utf8Of d)[i + 1]? = some c) : 0x80 ≤ c := by
  unfold utf8Of at h
  split at h
  · simp at h
  · split at h
    · rcases i with _ | i
      · simp at h; omega
      · simp at h
    · split at h
      · rcases i with _ | _ | i
        · simp at h; omega
        · simp at h; omega
        · simp at h
      · rcases i with _ | _ | _ | i
        · simp at h; omega
        · simp at h; omega
        · simp at h; omega
        · simp at h

theorem utf8Encode_append (a b : List Nat) : utf8Encode (a ++ b) = utf8Encode a ++ utf8Encode b := by
  simp [utf8Encode]

theorem utf8_cut (cs a rest : List Nat) (c : Nat) (hc : c < 0x80)
    (h : utf8Encode cs = a ++ c :: rest) :
    ∃ c1 c2, cs = c1 ++ c2 ∧ a = utf8Encode c1 ∧ c :: rest = utf8Encode c2 := by
  induction cs generalizing a with
  | nil => simp [utf8Encode] at h
  | cons d ds ih =>
    cases a with
    | nil => exact ⟨[], d :: ds, rfl, rfl, by simpa using h.symm⟩
    | cons x a' =>
      rw [utf8Encode_cons] at h
      by_cases hlen : (utf8Of d).length ≤ (x :: a').length
      · have e : utf8Of d = (x :: a').take (utf8Of d).length := by
          have := congrArg (List.take (utf8Of d).length) h
          rw [List.take_left' rfl, List.take_append_of_le_length hlen] at this
          exact this
        have e2 : utf8Encode ds = (x :: a').drop (utf8Of d).length ++ c :: rest := by
          have := congrArg (List.drop (utf8Of d).length) h
          rw [List.drop_left' rfl, List.drop_append_of_le_length hlen] at this
          exact this
        obtain ⟨c1, c2, h1, h2, h3⟩ := ih _ e2
        refine ⟨d :: c1, c2, by rw [h1]; rfl, ?_, h3⟩
        rw [utf8Encode_cons, ← h2]
        have := (List.take_append_drop (utf8Of d).length (x :: a')).symm
        rwa [← e] at this
      · exfalso
        have hi : (utf8Of d)[a'.length + 1]? = some c := by
          have : (utf8Of d ++ utf8Encode ds)[a'.length + 1]? = (x :: a' ++ c :: rest)[a'.length + 1]? := by
            rw [h]
          rw [List.getElem?_append_left (by simp at hlen; omega)] at this
          rw [this]
          rw [List.getElem?_append_right (by simp)]
          simp
        have := utf8Of_cont _ _ _ hi
        omega

theorem utf8_ascii (l : List Nat) (h : ∀ c ∈ l, c < 0x80) : utf8Encode l = l := by
  induction l with
  | nil => rfl
  | cons c l ih =>
    rw [utf8Encode_cons, ih (fun x hx => h x (by simp [hx]))]
    simp [utf8Of, h c (by simp)]

theorem utf8_drop_ascii (s : List Nat) (hs : ∀ c ∈ s, c < 0x80) (cs rest : List Nat)
    (h : utf8Encode cs = s ++ rest) : ∃ c2, cs = s ++ c2 ∧ rest = utf8Encode c2 := by
  induction s generalizing cs with
  | nil => exact ⟨cs, rfl, by simpa using h.symm⟩
  | cons x s ih =>
    have hx : x < 0x80 := hs x (by simp)
    cases cs with
    | nil => simp [utf8Encode] at h
    | cons d ds =>
      rw [utf8Encode_cons] at h
      have hd : utf8Of d = [x] ∧ d = x := by
        unfold utf8Of at h ⊢
        split at h
        · simp only [List.cons_append, List.nil_append, List.cons.injEq] at h
          rename_i hd
          rw [if_pos hd]
          exact ⟨by rw [h.1], h.1⟩
        · exfalso
          split at h
          · simp only [List.cons_append, List.cons.injEq] at h; omega
          · split at h
            · simp only [List.cons_append, List.cons.injEq] at h; omega
            · simp only [List.cons_append, List.cons.injEq] at h; omega
      rw [hd.1] at h
      simp only [List.cons_append, List.nil_append, List.cons.injEq, true_and] at h
      obtain ⟨c2, h1, h2⟩ := ih (fun c hc => hs c (by simp [hc])) ds h
      exact ⟨c2, by rw [hd.2, h1]; rfl, h2⟩

/-- Plain pieces of a UTF-8 text are UTF-8 if the special strings are ASCII. -/
theorem plain_utf8 (pieces : List (Bool × List Nat)) (cs : List Nat)
    (hc : (pieces.map (·.2)).flatten = utf8Encode cs)
    (hs : ∀ p ∈ pieces, p.1 = true → p.2 ≠ [] ∧ ∀ c ∈ p.2, c < 0x80) (hm : Maximal pieces) :
    ∀ p ∈ pieces, p.1 = false → ∃ c1, p.2 = utf8Encode c1 ∧ ∀ c ∈ c1, c ∈ cs := by
  induction pieces generalizing cs with
  | nil => simp
  | cons x L ih =>
    have hm' : Maximal L := fun pre p q post e => hm (x :: pre) p q post (by rw [e]; rfl)
    have hs' : ∀ p ∈ L, p.1 = true → p.2 ≠ [] ∧ ∀ c ∈ p.2, c < 0x80 := fun p hp => hs p (by simp [hp])
    simp only [List.map_cons, List.flatten_cons] at hc
    obtain ⟨sp, s⟩ := x
    cases sp with
    | true =>
      obtain ⟨c2, h1, h2⟩ := utf8_drop_ascii s (hs (true, s) (by simp) rfl).2 cs _ hc.symm
      intro p hp hf
      rcases List.mem_cons.mp hp with rfl | hp
      · simp at hf
      · obtain ⟨c1, g1, g2⟩ := ih c2 h2 hs' hm' p hp hf
        exact ⟨c1, g1, fun c hc => by rw [h1]; simp [g2 c hc]⟩
    | false =>
      cases L with
      | nil =>
        intro p hp _
        simp only [List.mem_singleton] at hp
        subst hp
        exact ⟨cs, by simpa using hc, fun c hc => hc⟩
      | cons y L =>
        have hy : y.1 = true := by
          have := hm [] (false, s) y L rfl
          simpa using this
        obtain ⟨sy, ty⟩ := y
        simp only at hy
        subst hy
        obtain ⟨hne, hasc⟩ := hs (true, ty) (by simp) rfl
        cases ty with
        | nil => exact absurd rfl hne
        | cons t0 ty =>
          have ht0 : t0 < 0x80 := hasc t0 (by simp)
          simp only [List.map_cons, List.flatten_cons, List.cons_append] at hc
          obtain ⟨c1, c2, h1, h2, h3⟩ := utf8_cut cs s _ t0 ht0 hc.symm
          intro p hp hf
          rcases List.mem_cons.mp hp with rfl | hp
          · exact ⟨c1, h2, fun c hc => by rw [h1]; simp [hc]⟩
          · obtain ⟨d1, g1, g2⟩ := ih c2 (by simpa using h3) hs' hm' p hp hf
            exact ⟨d1, g1, fun c hc => by rw [h1]; simp [g2 c hc]⟩

end Berts.Roberta
