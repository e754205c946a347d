import Verif.Props.Trie
import Verif.Proofs.Transformers
import Verif.Proofs.Roberta

/-! # The trie functions for byte strings: C09, C11 -/

namespace Berts.Props

open Berts.Unicode Berts.Spec Berts.Trie

/-- C09 for the function that takes a byte string: looking up a non-empty valid string gives `i`
exactly if `i` is its last position in the vocabulary; an ill-formed one is never found. -/
theorem C09_search_string (vocab : List (List Nat)) (hlen : vocab.length ≤ INVALID)
    (hv : ∀ v ∈ vocab, ∃ cs, (∀ c ∈ cs, IsScalar c) ∧ v = utf8Encode cs) (s : List Nat) (hs : s ≠ []) :
    (∀ i, IsLastIndex vocab s i ↔ searchTrieBytes (buildTrie vocab) s = i ∧ i ≠ INVALID) := by
  intro i
  cases hd : utf8Decode s with
  | some cs =>
    obtain ⟨rfl, hcs⟩ := utf8Encode_decode s cs hd
    exact C09_lookup_bytes vocab hlen hv cs hcs (fun h => hs (by rw [h]; rfl)) i
  | none =>
    constructor
    · intro h
      exfalso
      obtain ⟨cs, h1, h2⟩ := hv s (List.mem_of_getElem? h.1)
      rw [h2, utf8Decode_encode cs h1] at hd
      cases hd
    · rintro ⟨h, hi⟩
      exfalso
      apply hi
      rw [← h]
      unfold searchTrieBytes unitsOfUtf8
      rw [hd]
      exact C09_lookup_other vocab hlen [] (Or.inl rfl)

example : searchTrieBytes (buildTrie [[97], [97, 98]]) [97, 98] = 1 := by decide

theorem decode_none_lengths (l : List Nat) (h : none ∈ decodeUnits l) :
    (eachCp false l).length ≠ (eachCp true l).length := by
  have key : ∀ d : List (Option Nat),
      (d.flatMap (fun o => match o with | some c => [c] | none => if true then [] else [0xfffd])).length ≤
        (d.flatMap (fun o => match o with | some c => [c] | none => if false then [] else [0xfffd])).length ∧
      (none ∈ d →
        (d.flatMap (fun o => match o with | some c => [c] | none => if true then [] else [0xfffd])).length <
        (d.flatMap (fun o => match o with | some c => [c] | none => if false then [] else [0xfffd])).length) := by
    intro d
    induction d with
    | nil => simp
    | cons o d ih =>
      cases o with
      | none => simp at ih ⊢; omega
      | some c =>
        simp at ih ⊢
        exact ih
  have h1 := congrArg List.length (eachCp_spec false l)
  have h2 := congrArg List.length (eachCp_spec true l)
  rw [List.length_map] at h1 h2
  have := (key (decodeUnits l)).2 h
  intro he
  rw [h1, h2] at he
  exact absurd he (Nat.ne_of_gt this)

theorem encode_bad (l : List Nat) (h : none ∈ decodeUnits l) :
    ∃ u, (UImpl.ofUnits l).encode = .ok ([], u) := by
  unfold UImpl.encode
  have hr : Rep (UImpl.ofUnits l) l := rep_allocFill _ _
  have he : (UImpl.ofUnits l).e = .zero := rfl
  rw [hr.2]
  by_cases hc : l = []
  · rw [if_pos hc]; exact ⟨_, rfl⟩
  · rw [if_neg hc]
    simp only [he, readUnits_rep hr, Res.bind_ok]
    rw [if_neg (decode_none_lengths l h)]
    exact ⟨_, rfl⟩

theorem encode_good (cs : List Nat) (h : ∀ c ∈ cs, IsScalar c) :
    ∃ u, (UImpl.ofUnits (utf16Encode cs)).encode = .ok (utf8Encode cs, u) := by
  have h1 := Roberta.encodeUnits_ok cs h
  unfold Roberta.encodeUnits at h1
  cases hx : (UImpl.ofUnits (utf16Encode cs)).encode with
  | ok r =>
    rw [hx] at h1
    simp only [Res.bind, Res.ok.injEq] at h1
    exact ⟨r.2, by rw [← h1]⟩
  | ub => rw [hx] at h1; cases h1
  | abort => rw [hx] at h1; cases h1
  | hang => rw [hx] at h1; cases h1

/-- Cutting the UTF-16 form of a text: between two code points, or inside a surrogate pair. -/
theorem cut_units (cs : List Nat) (hcs : ∀ c ∈ cs, IsScalar c) (f r : List Nat) (h : f ++ r = utf16Encode cs) :
    (∃ a b, cs = a ++ b ∧ f = utf16Encode a ∧ r = utf16Encode b) ∨
    (none ∈ decodeUnits f ∧ none ∈ decodeUnits r) := by
  induction cs generalizing f with
  | nil =>
    left
    simp [utf16Encode] at h
    exact ⟨[], [], rfl, by simp [h, utf16Encode], by simp [h, utf16Encode]⟩
  | cons c cs ih =>
    cases f with
    | nil => exact Or.inl ⟨[], c :: cs, rfl, rfl, by simpa using h⟩
    | cons x f =>
      have ih := ih (fun y hy => hcs y (by simp [hy]))
      have hc := hcs c (by simp)
      unfold IsScalar at hc
      have e : utf16Encode (c :: cs) = utf16Of c ++ utf16Encode cs := by simp [utf16Encode]
      rw [e] at h
      unfold utf16Of at h
      split at h
      · rename_i hlt
        simp only [List.cons_append, List.nil_append, List.cons.injEq] at h
        obtain ⟨rfl, h⟩ := h
        rcases ih f h with ⟨a, b, rfl, rfl, rfl⟩ | ⟨h1, h2⟩
        · exact Or.inl ⟨x :: a, b, rfl, by simp [utf16Encode, utf16Of, hlt], rfl⟩
        · refine Or.inr ⟨?_, h2⟩
          cases f with
          | nil => simp [decodeUnits] at h1
          | cons y f =>
            rw [decodeUnits]
            have : ¬ (IsHigh x ∧ IsLow y) := by unfold IsHigh; omega
            rw [if_neg this]
            split <;> simp [h1]
      · rename_i hlt
        simp only [List.cons_append, List.nil_append, List.cons.injEq] at h
        obtain ⟨hx, h⟩ := h
        have hhigh : IsHigh x := by unfold IsHigh; omega
        cases f with
        | nil =>
          right
          simp only [List.nil_append] at h
          refine ⟨?_, ?_⟩
          · simp [decodeUnits, hhigh]
          · rw [h]
            have hl : IsLow (0xdc00 + (c - 0x10000) % 0x400) := by unfold IsLow; omega
            have hh : ¬ IsHigh (0xdc00 + (c - 0x10000) % 0x400) := by unfold IsHigh; omega
            cases hcs' : utf16Encode cs with
            | nil => simp [decodeUnits, hl]
            | cons z zs =>
              rw [decodeUnits, if_neg (fun hh' => hh hh'.1), if_pos (Or.inr hl)]
              simp
        | cons y f =>
          simp only [List.cons_append, List.cons.injEq] at h
          obtain ⟨hy, h⟩ := h
          have hlow : IsLow y := by unfold IsLow; omega
          rcases ih f h with ⟨a, b, rfl, rfl, rfl⟩ | ⟨h1, h2⟩
          · refine Or.inl ⟨c :: a, b, rfl, ?_, rfl⟩
            simp [utf16Encode, utf16Of, hlt, hx, hy]
          · refine Or.inr ⟨?_, h2⟩
            rw [decodeUnits, if_pos ⟨hhigh, hlow⟩]
            simp [h1]

/-- C11 for the function that takes byte strings: the id is that of the search in units; if it is an
entry, `found` and `rest` together are the text, or the cut lies inside a surrogate pair and both are
empty; otherwise they are unchanged.  (Missing: the text is not always kept, see the
counterexample.) -/
theorem C11_string_partial (vocab : List (List Nat)) (hlen : vocab.length ≤ INVALID)
    (cs : List Nat) (hcs : ∀ c ∈ cs, IsScalar c) (found rest : List Nat) :
    ∃ id f r, searchSubstrBytes (buildTrie vocab) (utf8Encode cs) found rest = .ok (id, f, r) ∧
      id = (searchSubstr (buildTrie vocab) (utf16Encode cs) [] []).1 ∧
      (id = INVALID → f = found ∧ r = rest) ∧
      (id ≠ INVALID → f ++ r = utf8Encode cs ∨ (f = [] ∧ r = [])) := by
  have hu : unitsOfUtf8 (utf8Encode cs) = utf16Encode cs := by
    unfold unitsOfUtf8; rw [utf8Decode_encode cs hcs]
  unfold searchSubstrBytes
  simp only [hu]
  by_cases hok : (searchSubstr (buildTrie vocab) (utf16Encode cs) [] []).1 = INVALID
  · rw [if_neg (by simp [hok])]
    exact ⟨_, _, _, rfl, rfl, fun _ => ⟨rfl, rfl⟩, fun h => absurd hok h⟩
  · rw [if_pos hok]
    have h1 := (C11_split_concat vocab hlen (utf16Encode cs) [] [] hok).1
    rcases cut_units cs hcs _ _ h1 with ⟨a, b, rfl, h2, h3⟩ | ⟨h2, h3⟩
    · obtain ⟨x, hx⟩ := encode_good a (fun c hc => hcs c (by simp [hc]))
      obtain ⟨y, hy⟩ := encode_good b (fun c hc => hcs c (by simp [hc]))
      rw [h2, h3, hx, hy]
      exact ⟨_, _, _, rfl, rfl, fun h => absurd h hok, fun _ => Or.inl (by simp [utf8Encode])⟩
    · obtain ⟨x, hx⟩ := encode_bad _ h2
      obtain ⟨y, hy⟩ := encode_bad _ h3
      rw [hx, hy]
      exact ⟨_, _, _, rfl, rfl, fun h => absurd h hok, fun _ => Or.inr ⟨rfl, rfl⟩⟩

example : searchSubstrBytes (buildTrie [[97], [97, 98]]) [97, 98, 99] [] [] = .ok (1, [97, 98], [99]) := by
  decide

/-- C11 refuted for byte strings: with the vocabulary {"a", "a😀"} the text "a😁" is reported as the entry
"a" with nothing left over: both strings are empty, because the text is cut inside a surrogate pair. -/
theorem C11_string_counterexample :
    searchSubstrBytes (buildTrie [utf8Encode [0x61], utf8Encode [0x61, 0x1F600]])
      (utf8Encode [0x61, 0x1F601]) [] [] = .ok (0, [], []) := by decide

end Berts.Props
