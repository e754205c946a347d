import Verif.Proofs.Unicode
import Verif.Proofs.Trie

/-! # Properties C09–C11: the vocabulary trie

`vocab` is the list of token byte strings.  A token that is not valid UTF-8 becomes the empty
string and is not findable.  Token ids are 32-bit and `0xFFFFFFFF` is reserved, so the theorems
assume at most that many entries. -/

namespace Berts.Props

open Berts.Trie Berts.Spec Berts.Unicode

/-! ## C09 -/

/-- C09: a non-empty entry is found under the index of its last occurrence. -/
theorem C09_lookup_entry (vocab : List (List Nat)) (hlen : vocab.length ≤ INVALID) (s : List Nat)
    (hs : s ≠ []) (i : Nat) (hi : IsLastIndex (vocab.map unitsOfUtf8) s i) :
    searchTrie (buildTrie vocab) s = i ∧ i < vocab.length := by
  have := (idAt_build (vocab.map unitsOfUtf8) s (by simpa using hlen) hs).1 i hi
  refine ⟨?_, by simpa using isLastIndex_lt hi⟩
  rw [← this, searchTrie_eq _ _ hs, buildTrie]

/-- C09: anything else gives the invalid id. -/
theorem C09_lookup_other (vocab : List (List Nat)) (hlen : vocab.length ≤ INVALID) (s : List Nat)
    (hs : s = [] ∨ s ∉ vocab.map unitsOfUtf8) : searchTrie (buildTrie vocab) s = INVALID := by
  by_cases h0 : s = []
  · simp [searchTrie, findNode, h0]
  · have hn := hs.resolve_left h0
    rw [← (idAt_build (vocab.map unitsOfUtf8) s (by simpa using hlen) h0).2 hn]
    rw [searchTrie_eq _ _ h0, buildTrie]

/-- C09 in terms of byte strings: for a vocabulary of valid UTF-8 strings, looking up a valid
non-empty string gives `i` exactly if `i` is its last position in the vocabulary. -/
theorem C09_lookup_bytes (vocab : List (List Nat)) (hlen : vocab.length ≤ INVALID)
    (hv : ∀ v ∈ vocab, ∃ cs, (∀ c ∈ cs, IsScalar c) ∧ v = utf8Encode cs)
    (cs : List Nat) (hc : ∀ c ∈ cs, IsScalar c) (hne : cs ≠ []) (i : Nat) :
    IsLastIndex vocab (utf8Encode cs) i ↔
      searchTrie (buildTrie vocab) (unitsOfUtf8 (utf8Encode cs)) = i ∧ i ≠ INVALID := by
  have dec : ∀ cs : List Nat, (∀ c ∈ cs, IsScalar c) → unitsOfUtf8 (utf8Encode cs) = utf16Encode cs := by
    intro cs h; simp [unitsOfUtf8, utf8Decode_encode cs h]
  have inj : ∀ v ∈ vocab, unitsOfUtf8 v = utf16Encode cs ↔ v = utf8Encode cs := by
    intro v hm
    obtain ⟨ds, hd, rfl⟩ := hv v hm
    rw [dec ds hd]
    constructor
    · intro h
      have h1 := toCodePoints_encode cs hc true
      have h2 := toCodePoints_encode ds hd true
      rw [← h, h2] at h1
      rw [h1]
    · intro h
      have := dec ds hd
      rw [h, dec cs hc] at this
      exact this.symm
  have hidx : ∀ j : Nat, (vocab.map unitsOfUtf8)[j]? = some (utf16Encode cs) ↔
      vocab[j]? = some (utf8Encode cs) := by
    intro j
    rw [List.getElem?_map]
    cases hj : vocab[j]? with
    | none => simp
    | some v =>
      have := inj v (List.mem_of_getElem? hj)
      simpa using this
  have hlast : ∀ j, IsLastIndex (vocab.map unitsOfUtf8) (utf16Encode cs) j ↔
      IsLastIndex vocab (utf8Encode cs) j := by
    intro j; simp only [IsLastIndex, hidx]
  have hne' : utf16Encode cs ≠ [] := by
    cases cs with
    | nil => exact absurd rfl hne
    | cons c cs => simp [utf16Encode, utf16Of]; intro h; split at h <;> simp at h
  rw [dec cs hc]
  constructor
  · intro h
    obtain ⟨h1, h2⟩ := C09_lookup_entry vocab hlen _ hne' i ((hlast i).mpr h)
    exact ⟨h1, by omega⟩
  · rintro ⟨h1, h2⟩
    by_cases hm : utf16Encode cs ∈ vocab.map unitsOfUtf8
    · obtain ⟨j, hj⟩ := last_index_exists _ _ hm
      obtain ⟨h3, _⟩ := C09_lookup_entry vocab hlen _ hne' j hj
      have : j = i := by omega
      subst this
      exact (hlast j).mp hj
    · have := C09_lookup_other vocab hlen _ (Or.inr hm)
      omega

-- vocabulary with a duplicate, an empty entry and overlapping keys: ["a", "", "ab", "a"]
example : IsLastIndex ([[97], [], [97, 98], [97]] : List (List Nat)) [97] 3 :=
  ⟨rfl, fun j hj => by
    have := (List.getElem?_eq_some_iff.mp hj).1
    simp at this; omega⟩

/-! ## C10 -/

/-- C10: the search answers "invalid" exactly when no entry is a prefix of the text. -/
theorem C10_prefix_search_fails (vocab : List (List Nat)) (hlen : vocab.length ≤ INVALID)
    (s found rest : List Nat) :
    (searchSubstr (buildTrie vocab) s found rest).1 = INVALID ↔
      ∀ p, p <+: s → ¬ IsEntry (vocab.map unitsOfUtf8) p := by
  have hlen' : (vocab.map unitsOfUtf8).length ≤ INVALID := by simpa using hlen
  rcases searchSubstr_spec (buildTrie vocab) s found rest with ⟨h1, h2⟩ |
    ⟨p, f, r, h1, h2, h3, h4, h5, h6, h7, h8⟩
  · rw [h2]
    refine ⟨fun _ p hp ⟨hne, hm⟩ => ?_, fun _ => rfl⟩
    exact (idAt_build_iff _ p hlen' hne).mpr hm (h1 p hp hne)
  · rw [h8]
    refine ⟨fun h => absurd h h4, fun h => ?_⟩
    refine absurd ⟨h3, (idAt_build_iff _ p hlen' h3).mp h4⟩ (h p ?_)
    rw [← h1]
    exact h2.trans (List.prefix_append _ _)

/-- C10: when it succeeds, the id is that of the longest entry that is a prefix of the text. -/
theorem C10_prefix_search_longest (vocab : List (List Nat)) (hlen : vocab.length ≤ INVALID)
    (s found rest p : List Nat) (hp : IsLongestPrefix (IsEntry (vocab.map unitsOfUtf8)) s p) :
    IsLastIndex (vocab.map unitsOfUtf8) p (searchSubstr (buildTrie vocab) s found rest).1 := by
  have hlen' : (vocab.map unitsOfUtf8).length ≤ INVALID := by simpa using hlen
  obtain ⟨hps, ⟨hne, hm⟩, hmax⟩ := hp
  rcases searchSubstr_spec (buildTrie vocab) s found rest with ⟨h1, h2⟩ |
    ⟨q, f, r, h1, h2, h3, h4, h5, h6, h7, h8⟩
  · exact absurd (h1 p hps hne) ((idAt_build_iff _ p hlen' hne).mpr hm)
  · have hq : q <+: s := by rw [← h1]; exact h2.trans (List.prefix_append _ _)
    have e1 := hmax q hq ⟨h3, (idAt_build_iff _ q hlen' h3).mp h4⟩
    have e2 := h5 p hps hne ((idAt_build_iff _ p hlen' hne).mpr hm)
    have hpq : p = q :=
      (List.prefix_of_prefix_length_le hps hq (by omega)).eq_of_length (by omega)
    subst hpq
    obtain ⟨i, hi⟩ := last_index_exists _ _ hm
    rw [h8]
    simp only [buildTrie]
    rw [(idAt_build _ p hlen' hne).1 i hi]
    exact hi

-- vocabulary {a, abc}, text "abd": longest entry that is a prefix is "a"
example : IsLongestPrefix (IsEntry [[97], [97, 98, 99]]) [97, 98, 100] [97] := by
  refine ⟨by simp, ⟨by simp, by simp⟩, ?_⟩
  rintro q hq ⟨_, hm⟩
  simp only [List.mem_cons, List.not_mem_nil, or_false] at hm
  rcases hm with rfl | rfl
  · simp
  · simp at hq

/-! ## C11 -/

/-- C11, true part: whatever is reported, `found` and `rest` together are the text, and `found`
begins with the entry whose id is returned (no unit is invented or reordered). -/
theorem C11_split_concat (vocab : List (List Nat)) (hlen : vocab.length ≤ INVALID)
    (s found rest : List Nat)
    (hok : (searchSubstr (buildTrie vocab) s found rest).1 ≠ INVALID) :
    let r := searchSubstr (buildTrie vocab) s found rest
    r.2.1 ++ r.2.2 = s ∧ ∃ p, p ≠ [] ∧ p <+: r.2.1 ∧ IsLastIndex (vocab.map unitsOfUtf8) p r.1 := by
  have hlen' : (vocab.map unitsOfUtf8).length ≤ INVALID := by simpa using hlen
  rcases searchSubstr_spec (buildTrie vocab) s found rest with ⟨h1, h2⟩ |
    ⟨q, f, r, h1, h2, h3, h4, h5, h6, h7, h8⟩
  · rw [h2] at hok; exact absurd rfl hok
  · rw [h8]
    refine ⟨h1, q, h3, h2, ?_⟩
    obtain ⟨i, hi⟩ := last_index_exists _ _ ((idAt_build_iff _ q hlen' h3).mp h4)
    simp only [buildTrie]
    rw [(idAt_build _ q hlen' h3).1 i hi]
    exact hi

/-- C11, exact condition: the split is at the reported entry if and only if the longest initial
part of the text that follows some vocabulary entry is itself an entry. -/
theorem C11_split_exact (vocab : List (List Nat)) (hlen : vocab.length ≤ INVALID)
    (s found rest p q : List Nat) (hp : IsLongestPrefix (IsEntry (vocab.map unitsOfUtf8)) s p)
    (hq : IsLongestPrefix (IsPartial (vocab.map unitsOfUtf8)) s q) :
    (searchSubstr (buildTrie vocab) s found rest).2 = (q, s.drop q.length) ∧
    ((searchSubstr (buildTrie vocab) s found rest).2 = (p, s.drop p.length) ↔ q = p) := by
  have hlen' : (vocab.map unitsOfUtf8).length ≤ INVALID := by simpa using hlen
  have key : (searchSubstr (buildTrie vocab) s found rest).2 = (q, s.drop q.length) := by
    obtain ⟨hps, ⟨hne, hm⟩, hmax⟩ := hp
    rcases searchSubstr_spec (buildTrie vocab) s found rest with ⟨h1, h2⟩ |
      ⟨x, f, r, h1, h2, h3, h4, h5, h6, h7, h8⟩
    · exact absurd (h1 p hps hne) ((idAt_build_iff _ p hlen' hne).mpr hm)
    · have hfs : f <+: s := by rw [← h1]; exact List.prefix_append _ _
      have hfne : f ≠ [] := by
        intro h0; subst h0; exact h3 (List.prefix_nil.mp h2)
      obtain ⟨hqs, ⟨hqne, hqp⟩, hqmax⟩ := hq
      have e1 := hqmax f hfs ⟨hfne, (hasPath_build _ f hfne).mp h6⟩
      have e2 := h7 q hqs ((hasPath_build _ q hqne).mpr hqp)
      have hfq : f = q :=
        (List.prefix_of_prefix_length_le hfs hqs (by omega)).eq_of_length (by omega)
      subst hfq
      rw [h8, ← h1]
      simp
  refine ⟨key, ?_⟩
  rw [key]
  constructor
  · intro h; exact (Prod.mk.inj h).1
  · rintro rfl; rfl

/-- C11, partial: if every initial part of an entry is an entry, the split is always at the
reported entry.  Missing for the full property: vocabularies that are not prefix closed, for which
it is false (next theorem). -/
theorem C11_split_partial (vocab : List (List Nat)) (hlen : vocab.length ≤ INVALID)
    (hclosed : ∀ v ∈ vocab.map unitsOfUtf8, ∀ p, p <+: v → p ≠ [] → p ∈ vocab.map unitsOfUtf8)
    (s found rest : List Nat)
    (hok : (searchSubstr (buildTrie vocab) s found rest).1 ≠ INVALID) :
    let r := searchSubstr (buildTrie vocab) s found rest
    r.2.1 ++ r.2.2 = s ∧ IsLastIndex (vocab.map unitsOfUtf8) r.2.1 r.1 := by
  have hlen' : (vocab.map unitsOfUtf8).length ≤ INVALID := by simpa using hlen
  rcases searchSubstr_spec (buildTrie vocab) s found rest with ⟨h1, h2⟩ |
    ⟨q, f, r, h1, h2, h3, h4, h5, h6, h7, h8⟩
  · rw [h2] at hok; exact absurd rfl hok
  · rw [h8]
    refine ⟨h1, ?_⟩
    have hfne : f ≠ [] := by
      intro h0; subst h0; exact h3 (List.prefix_nil.mp h2)
    obtain ⟨v, hv, hfv⟩ := (hasPath_build _ f hfne).mp h6
    have hfm := hclosed v hv f hfv hfne
    have hfs : f <+: s := by rw [← h1]; exact List.prefix_append _ _
    have e := h5 f hfs hfne ((idAt_build_iff _ f hlen' hfne).mpr hfm)
    have : q = f := h2.eq_of_length (by have := h2.length_le; omega)
    subst this
    obtain ⟨i, hi⟩ := last_index_exists _ _ hfm
    simp only [buildTrie]
    rw [(idAt_build _ q hlen' hfne).1 i hi]
    exact hi

-- the vocabulary {a, ab, abc} is prefix closed
example : ∀ v ∈ ([[97], [97, 98], [97, 98, 99]] : List (List Nat)), ∀ p, p <+: v → p ≠ [] →
    p ∈ ([[97], [97, 98], [97, 98, 99]] : List (List Nat)) := by
  intro v hv p hp hne
  obtain ⟨t, rfl⟩ := hp
  match p with
  | [] => exact absurd rfl hne
  | [a] => simp at hv; simp; omega
  | [a, b] => simp at hv; simp; omega
  | a :: b :: c :: p =>
    simp only [List.cons_append, List.mem_cons, List.cons.injEq, reduceCtorEq, and_false, false_or,
      List.append_eq_nil_iff, List.not_mem_nil, or_false] at hv
    obtain ⟨rfl, rfl, rfl, rfl, _⟩ := hv
    simp

/-- C11 refuted: with vocabulary {"a", "abc"} the text "abd" is reported as the entry "a" (id 0)
but `found` is "ab" and `rest` is "d": the "b" is skipped.  On "ab" the rest is empty. -/
theorem C11_counterexample :
    searchSubstr (buildTrie [[97], [97, 98, 99]]) [97, 98, 100] [] [] = (0, [97, 98], [100]) ∧
    searchSubstr (buildTrie [[97], [97, 98, 99]]) [97, 98] [] [] = (0, [97, 98], []) := by
  constructor <;> decide

end Berts.Props
