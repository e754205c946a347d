import Verif.Proofs.BpeLoad

/-! # Lemmas about the strings behind the symbols -/

namespace Berts.Bpe

open Berts.Unicode Berts.Spec

/-- The merge of two tokens. -/
def joinTok (b : Bpe) (t0 t1 : Str) : Str :=
  if codepoints b.prefx = 0 then t0 ++ t1 else joined (codepoints b.prefx) t0 t1

/-- What a successful load on an object without content establishes for a one-to-one vocabulary. -/
structure Loaded (b : Bpe) (vocab : List (Str × Nat)) : Prop where
  tok : ∀ t id, b.tokenToId t = some id ↔ (t, id) ∈ vocab
  idt : ∀ t id, b.idToToken id = some t ↔ (t, id) ∈ vocab
  mrg : ∀ a c r n, find b.merge (a, c) = some (r, n) →
    ∃ s t, (s, a) ∈ vocab ∧ (t, c) ∈ vocab ∧ (joinTok b s t, n) ∈ vocab

theorem find_nil {κ ν : Type} [DecidableEq κ] (k : κ) : find ([] : List (κ × ν)) k = none := rfl

theorem lastAt_exists {α : Type} [DecidableEq α] (l : List α) (x : α) (h : x ∈ l) :
    ∃ i, IsLastAt l x i := by
  induction l with
  | nil => cases h
  | cons a l ih =>
    by_cases hm : x ∈ l
    · obtain ⟨i, h1, h2⟩ := ih hm
      refine ⟨i + 1, by simpa using h1, fun j hj => ?_⟩
      cases j with
      | zero => omega
      | succ j => have := h2 j (by simpa using hj); omega
    · have : x = a := by
        rcases List.mem_cons.mp h with h | h
        · exact h
        · exact absurd h hm
      subst this
      refine ⟨0, by simp, fun j hj => ?_⟩
      cases j with
      | zero => omega
      | succ j =>
        simp only [List.getElem?_cons_succ] at hj
        exact absurd (List.mem_of_getElem? hj) hm

theorem load_frame {b b' : Bpe} {vocab : List (Str × Nat)} {ms : List (Nat × Nat)} {ok : Bool}
    (hu : ∀ p ∈ vocab, ∀ u ∈ p.1, u < 0x10000) (hb : ∀ id t, b.idToToken id = some t → ∀ u ∈ t, u < 0x10000)
    (h : b.loadVocab vocab ms = .ok (ok, b')) :
    b' = { b with vocab := (b.addVocab vocab).vocab, vocabR := (b.addVocab vocab).vocabR,
                  merge := b'.merge } ∧
      (ok = true ↔ ∀ p ∈ ms, (pairResult (b.addVocab vocab) p).isSome) ∧
      (ok = true → ∀ p, (p ∉ ms → find b'.merge p = find b.merge p) ∧
        ∀ i, IsLastAt ms p i → ∃ n, pairResult (b.addVocab vocab) p = some n ∧
          find b'.merge p = some ((b.merge.length + i) % 2 ^ 32, n)) := by
  have hu' : ∀ id t, (b.addVocab vocab).idToToken id = some t → ∀ u ∈ t, u < 0x10000 := by
    clear h
    induction vocab generalizing b with
    | nil => exact hb
    | cons p v ih =>
      obtain ⟨s, i⟩ := p
      rw [Bpe.addVocab]
      refine ih (fun q hq => hu q (by simp [hq])) (fun id t ht => ?_)
      unfold Bpe.idToToken at ht
      rw [find_assign] at ht
      split at ht
      · simp only [Option.some.injEq] at ht
        subst ht
        exact hu (s, i) (by simp)
      · exact hb id t ht
  obtain ⟨ok', b2, h1, h2, h3, h4⟩ := addMerges_spec b.merge.length (b.addVocab vocab) 0 ms hu'
  unfold Bpe.loadVocab at h
  rw [h1] at h
  simp only [Res.ok.injEq, Prod.mk.injEq] at h
  obtain ⟨rfl, rfl⟩ := h
  have hm : (b.addVocab vocab).merge = b.merge := by rw [addVocab_frame]
  refine ⟨?_, h3, ?_⟩
  · rw [h2, addVocab_frame]
  · intro hok p
    obtain ⟨e1, e2⟩ := h4 hok p
    rw [hm] at e1
    refine ⟨e1, fun i hi => ?_⟩
    obtain ⟨n, f1, f2⟩ := e2 i hi
    exact ⟨n, f1, by rw [f2, Nat.zero_add]⟩

/-- Loading into an object without content. -/
theorem loaded_of_load {b b' : Bpe} {vocab : List (Str × Nat)} {ms : List (Nat × Nat)}
    (h0 : b.vocab = [] ∧ b.vocabR = [] ∧ b.merge = [])
    (hk : (vocab.map (·.1)).Nodup) (hi : (vocab.map (·.2)).Nodup)
    (hu : ∀ p ∈ vocab, ∀ u ∈ p.1, u < 0x10000)
    (h : b.loadVocab vocab ms = .ok (true, b')) :
    Loaded b' vocab ∧ b'.unk = b.unk ∧ b'.dropout = b.dropout ∧ b'.fuseUnk = b.fuseUnk ∧
      b'.prefx = b.prefx ∧ b'.suffix = b.suffix := by
  obtain ⟨e1, e2, e3⟩ := load_frame hu
    (by intro id t ht; simp [Bpe.idToToken, h0.2.1, find_nil] at ht) h
  have tok : ∀ t id, (b.addVocab vocab).tokenToId t = some id ↔ (t, id) ∈ vocab := by
    intro t id
    obtain ⟨a1, a2⟩ := addVocab_token b vocab hk t
    refine ⟨fun ht => ?_, fun ht => a1 id ht⟩
    by_cases hm : t ∈ vocab.map (·.1)
    · obtain ⟨⟨t', id'⟩, hp, rfl⟩ := List.mem_map.mp hm
      have := a1 id' hp
      unfold Bpe.tokenToId at ht
      rw [this] at ht
      simp only [Option.some.injEq] at ht
      subst ht; exact hp
    · unfold Bpe.tokenToId at ht
      rw [a2 hm, h0.1] at ht
      cases ht
  have idt : ∀ t id, (b.addVocab vocab).idToToken id = some t ↔ (t, id) ∈ vocab := by
    intro t id
    obtain ⟨a1, a2⟩ := addVocab_id b vocab hi id
    refine ⟨fun ht => ?_, fun ht => a1 t ht⟩
    by_cases hm : id ∈ vocab.map (·.2)
    · obtain ⟨⟨t', id'⟩, hp, rfl⟩ := List.mem_map.mp hm
      have := a1 t' hp
      unfold Bpe.idToToken at ht
      rw [this] at ht
      simp only [Option.some.injEq] at ht
      subst ht; exact hp
    · unfold Bpe.idToToken at ht
      rw [a2 hm, h0.2.1] at ht
      cases ht
  have hpre : (b.addVocab vocab).prefx = b'.prefx := by rw [e1, addVocab_frame]
  refine ⟨⟨?_, ?_, ?_⟩, ?_⟩
  · intro t id
    rw [← tok]
    unfold Bpe.tokenToId
    rw [e1]
  · intro t id
    rw [← idt]
    unfold Bpe.idToToken
    rw [e1]
  · intro a c r n hf
    obtain ⟨f1, f2⟩ := e3 rfl (a, c)
    by_cases hm : (a, c) ∈ ms
    · obtain ⟨i, hi⟩ := lastAt_exists ms (a, c) hm
      obtain ⟨n', g1, g2⟩ := f2 i hi
      rw [g2] at hf
      simp only [Option.some.injEq, Prod.mk.injEq] at hf
      obtain ⟨_, rfl⟩ := hf
      unfold pairResult at g1
      simp only at g1
      split at g1
      · rename_i t0 t1 ht0 ht1
        refine ⟨t0, t1, (idt _ _).mp ht0, (idt _ _).mp ht1, ?_⟩
        rw [← tok]
        rw [← g1, hpre]
        rfl
      · cases g1
    · rw [f1 hm, h0.2.2] at hf
      cases hf
  · rw [e1]
    exact ⟨rfl, rfl, rfl, rfl, rfl⟩

/-! ## Strings of the initial symbols -/

/-- For each initial symbol there is a string: the string of the character or the unknown token. -/
theorem addIds_strings (b : Bpe) (P : Str → Prop) (hun : ∀ u, b.tokenToId b.unk = some u → b.unk ≠ [] → P b.unk)
    (Q : Str → Prop) (hunQ : ∀ u, b.tokenToId b.unk = some u → b.unk ≠ [] → Q b.unk)
    (acc : List (Nat × Nat)) (cs : List (Str × Nat)) (sa : List Str)
    (hlen : sa.length = acc.length)
    (hsa : ∀ (i : Nat) (p : Nat × Nat) (s : Str), acc[i]? = some p → sa[i]? = some s →
      b.tokenToId s = some p.1 ∧ Q s ∧ (i ≠ 0 → P s))
    (hQ : ∀ c ∈ cs, Q c.1) (h1 : ∀ c ∈ cs.tail, P c.1) (h2 : acc ≠ [] → ∀ c ∈ cs, P c.1) :
    ∃ st : List Str, st.length = (addIds b acc cs).length ∧
      ∀ (i : Nat) (p : Nat × Nat) (s : Str), (addIds b acc cs)[i]? = some p → st[i]? = some s →
        b.tokenToId s = some p.1 ∧ Q s ∧ (i ≠ 0 → P s) := by
  have ext : ∀ (acc : List (Nat × Nat)) (sa : List Str) (id len : Nat) (s0 : Str),
      sa.length = acc.length →
      (∀ (i : Nat) (p : Nat × Nat) (s : Str), acc[i]? = some p → sa[i]? = some s →
        b.tokenToId s = some p.1 ∧ Q s ∧ (i ≠ 0 → P s)) →
      b.tokenToId s0 = some id → Q s0 → (acc ≠ [] → P s0) →
      (sa ++ [s0]).length = (acc ++ [(id, len)]).length ∧
      ∀ (i : Nat) (p : Nat × Nat) (s : Str), (acc ++ [(id, len)])[i]? = some p →
        (sa ++ [s0])[i]? = some s → b.tokenToId s = some p.1 ∧ Q s ∧ (i ≠ 0 → P s) := by
    intro acc sa id len s0 hl hsa ht hq hp
    refine ⟨by simp [hl], fun i p s hi hs => ?_⟩
    by_cases hlt : i < acc.length
    · rw [List.getElem?_append_left hlt] at hi
      rw [List.getElem?_append_left (by omega)] at hs
      exact hsa i p s hi hs
    · have hlt2 := getElem?_lt hi
      simp only [List.length_append, List.length_singleton] at hlt2
      have : i = acc.length := by omega
      subst this
      rw [List.getElem?_append_right (Nat.le_refl _)] at hi
      rw [← hl, List.getElem?_append_right (Nat.le_refl _)] at hs
      simp only [Nat.sub_self, List.getElem?_cons_zero, Option.some.injEq] at hi hs
      subst hi; subst hs
      refine ⟨ht, hq, fun h => hp ?_⟩
      intro hnil; rw [hnil] at h; exact h rfl
  fun_induction addIds b acc cs generalizing sa with
  | case1 acc => exact ⟨sa, hlen, hsa⟩
  | case2 acc s len cs id hid ih =>
    obtain ⟨x1, x2⟩ := ext acc sa id len s hlen hsa hid (hQ (s, len) (by simp))
      (fun h => h2 h (s, len) (by simp))
    exact ih (sa ++ [s]) x1 x2 (fun c hc => hQ c (by simp [hc]))
      (fun c hc => h1 c (List.mem_of_mem_tail hc)) (fun _ c hc => h1 c hc)
  | case3 acc s len cs hid hu u hu2 hf ih =>
    obtain ⟨x1, x2⟩ := ext acc sa u (len + codepoints b.unk) b.unk hlen hsa hu2 (hunQ u hu2 hu)
      (fun _ => hun u hu2 hu)
    exact ih (sa ++ [b.unk]) x1 x2 (fun c hc => hQ c (by simp [hc]))
      (fun c hc => h1 c (List.mem_of_mem_tail hc)) (fun _ c hc => h1 c hc)
  | case4 acc s len cs hid hu u hu2 hf ih =>
    exact ih sa hlen hsa (fun c hc => hQ c (by simp [hc]))
      (fun c hc => h1 c (List.mem_of_mem_tail hc)) (fun h c hc => h2 h c (by simp [hc]))
  | case5 acc s len cs hid hu hu2 ih =>
    exact ih sa hlen hsa (fun c hc => hQ c (by simp [hc]))
      (fun c hc => h1 c (List.mem_of_mem_tail hc)) (fun h c hc => h2 h c (by simp [hc]))
  | case6 acc s len cs hid hu ih =>
    exact ih sa hlen hsa (fun c hc => hQ c (by simp [hc]))
      (fun c hc => h1 c (List.mem_of_mem_tail hc)) (fun h c hc => h2 h c (by simp [hc]))

/-- A string that is the UTF-16 form of more than `k` characters. -/
def LongStr (k : Nat) (s : Str) : Prop :=
  ∃ cs : List Nat, s = utf16Encode cs ∧ (∀ c ∈ cs, IsScalar c) ∧ k < cs.length

/-- Code points of the merge of the symbols `i .. e-1`. -/
def spanCps (k : Nat) (cl : List (List Nat)) (i e : Nat) : List Nat :=
  (cl[i]?).getD [] ++ ((cl.drop (i + 1)).take (e - i - 1)).flatMap (List.drop k)

theorem spanCps_join (k : Nat) (cl : List (List Nat)) (i m e : Nat) (h1 : i < m) (h2 : m < e)
    (hk : ∀ c, cl[m]? = some c → k ≤ c.length) (hm : m < cl.length) :
    spanCps k cl i m ++ (spanCps k cl m e).drop k = spanCps k cl i e := by
  unfold spanCps
  have hcm : cl[m]? = some cl[m] := List.getElem?_eq_getElem hm
  have hlen := hk _ hcm
  rw [hcm]
  simp only [Option.getD_some]
  rw [List.drop_append_of_le_length hlen, List.append_assoc]
  congr 1
  have e1 : e - i - 1 = (m - i - 1) + (1 + (e - m - 1)) := by omega
  rw [e1, List.take_add, List.flatMap_append]
  congr 1
  have e2 : (cl.drop (i + 1)).drop (m - i - 1) = cl.drop m := by
    rw [List.drop_drop]; congr 1; omega
  rw [e2, List.drop_eq_getElem_cons hm, Nat.add_comm 1, List.take_succ_cons, List.flatMap_cons]

theorem spanCps_lt (k : Nat) (cl : List (List Nat)) (i e e' : Nat) (h1 : i < e) (h2 : e < e')
    (h3 : e' ≤ cl.length)
    (hk : ∀ (j : Nat) (c : List Nat), j ≠ 0 → cl[j]? = some c → k < c.length) :
    (spanCps k cl i e).length < (spanCps k cl i e').length := by
  have he : e < cl.length := by omega
  have hce : cl[e]? = some cl[e] := List.getElem?_eq_getElem he
  have hlen := hk e _ (by omega) hce
  rw [← spanCps_join k cl i e e' h1 h2 (fun c hc => Nat.le_of_lt (hk e c (by omega) hc)) he]
  simp only [List.length_append, List.length_drop]
  have : k < (spanCps k cl e e').length := by
    unfold spanCps
    rw [hce]
    simp only [Option.getD_some, List.length_append]
    omega
  omega

theorem spanCps_scalar (k : Nat) (cl : List (List Nat)) (i e : Nat)
    (h : ∀ c ∈ cl, ∀ x ∈ c, IsScalar x) : ∀ x ∈ spanCps k cl i e, IsScalar x := by
  intro x hx
  unfold spanCps at hx
  rw [List.mem_append] at hx
  rcases hx with hx | hx
  · cases hc : cl[i]? with
    | none => rw [hc] at hx; cases hx
    | some c =>
      rw [hc] at hx
      exact h c (List.mem_of_getElem? hc) x hx
  · simp only [List.mem_flatMap] at hx
    obtain ⟨c, hc, hx⟩ := hx
    exact h c (List.mem_of_mem_drop (List.mem_of_mem_take hc)) x (List.mem_of_mem_drop hx)

theorem utf16Encode_append (a b : List Nat) : utf16Encode (a ++ b) = utf16Encode a ++ utf16Encode b := by
  simp [utf16Encode]

theorem utf16Encode_inj {a b : List Nat} (ha : ∀ c ∈ a, IsScalar c) (hb : ∀ c ∈ b, IsScalar c)
    (h : utf16Encode a = utf16Encode b) : a = b := by
  have := toCodePoints_encode a ha false
  rw [h, toCodePoints_encode b hb false] at this
  exact this.symm

theorem joinTok_encode (b : Bpe) (x y : List Nat) (hy : ∀ c ∈ y, IsScalar c) :
    joinTok b (utf16Encode x) (utf16Encode y) =
      utf16Encode (x ++ y.drop (codepoints b.prefx)) := by
  have e := toCodePoints_encode y hy false
  unfold joinTok
  split
  · rename_i h0
    rw [h0, utf16Encode_append]; rfl
  · unfold joined toCodePoints
    rw [e, utf16Encode_append]

/-- The symbols of a word satisfy the requirements of the span argument. -/
theorem spanTable_exists {b : Bpe} {vocab : List (Str × Nat)} (hl : Loaded b vocab)
    (hi : (vocab.map (·.2)).Nodup) (l : List (Nat × Nat)) (st : List Str) (hst : st.length = l.length)
    (h : ∀ (i : Nat) (p : Nat × Nat) (s : Str), l[i]? = some p → st[i]? = some s →
      b.tokenToId s = some p.1 ∧ LongStr 0 s ∧ (i ≠ 0 → LongStr (codepoints b.prefx) s)) :
    ∃ J, SpanTable b.merge l.length J ∧
      ∀ (i : Nat) (p : Nat × Nat), l[i]? = some p → J i (i + 1) = some p.1 := by
  have hex : ∀ st : List Str, (∀ s ∈ st, LongStr 0 s) →
      ∃ cl : List (List Nat), cl.map utf16Encode = st ∧ ∀ c ∈ cl, ∀ x ∈ c, IsScalar x := by
    intro st hs
    induction st with
    | nil => exact ⟨[], rfl, by simp⟩
    | cons s st ih =>
      obtain ⟨cl, h1, h2⟩ := ih (fun s hs' => hs s (by simp [hs']))
      obtain ⟨cs, rfl, hc, _⟩ := hs s (by simp)
      refine ⟨cs :: cl, by simp [h1], ?_⟩
      intro c hc'
      rcases List.mem_cons.mp hc' with rfl | hc'
      · exact hc
      · exact h2 c hc'
  have hall : ∀ s ∈ st, LongStr 0 s := by
    intro s hs
    obtain ⟨i, hi⟩ := List.mem_iff_getElem?.mp hs
    have := getElem?_lt hi
    have hp : l[i]? = some l[i] := List.getElem?_eq_getElem (by omega)
    exact (h i _ s hp hi).2.1
  obtain ⟨cl, hcl, hsc⟩ := hex st hall
  have hlen : cl.length = l.length := by rw [← hst, ← hcl]; simp
  have hlong : ∀ (j : Nat) (c : List Nat), j ≠ 0 → cl[j]? = some c → codepoints b.prefx < c.length := by
    intro j c hj hc
    have hs : st[j]? = some (utf16Encode c) := by rw [← hcl]; simp [hc]
    have := getElem?_lt hs
    have hp : l[j]? = some l[j] := List.getElem?_eq_getElem (by omega)
    obtain ⟨cs, e1, e2, e3⟩ := (h j _ _ hp hs).2.2 hj
    have := utf16Encode_inj (hsc c (List.mem_of_getElem? hc)) e2 e1
    rw [this]; exact e3
  have vinj : ∀ s t id, (s, id) ∈ vocab → (t, id) ∈ vocab → s = t := by
    intro s t id h1 h2
    have h1 := (hl.idt s id).mpr h1
    have h2 := (hl.idt t id).mpr h2
    rw [h1] at h2
    simpa using h2
  refine ⟨fun i e => b.tokenToId (utf16Encode (spanCps (codepoints b.prefx) cl i e)), ⟨?_, ?_⟩, ?_⟩
  · intro i e e' a h1 h2 h3 h4 h5 h6
    rw [hl.tok] at h5 h6
    have := utf16Encode_inj (spanCps_scalar _ cl i e hsc) (spanCps_scalar _ cl i e' hsc)
      (vinj _ _ _ h5 h6)
    rcases Nat.lt_trichotomy e e' with hlt | heq | hgt
    · have := spanCps_lt (codepoints b.prefx) cl i e e' h1 hlt (by omega) hlong
      have := congrArg List.length ‹spanCps _ cl i e = spanCps _ cl i e'›
      omega
    · exact heq
    · have := spanCps_lt (codepoints b.prefx) cl i e' e h2 hgt (by omega) hlong
      have := congrArg List.length ‹spanCps _ cl i e = spanCps _ cl i e'›
      omega
  · intro i m e a c r n h1 h2 h3 h4 h5 h6
    rw [hl.tok] at h4 h5 ⊢
    obtain ⟨s, t, m1, m2, m3⟩ := hl.mrg a c r n h6
    have e1 := vinj _ _ _ h4 m1
    have e2 := vinj _ _ _ h5 m2
    rw [← e1, ← e2, joinTok_encode b _ _ (spanCps_scalar _ cl m e hsc),
      spanCps_join _ cl i m e h1 h2 (fun c hc => Nat.le_of_lt (hlong m c (by omega) hc)) (by omega)] at m3
    exact m3
  · intro i p hp
    have := getElem?_lt hp
    have hc : cl[i]? = some cl[i] := List.getElem?_eq_getElem (by omega)
    have hs : st[i]? = some (utf16Encode cl[i]) := by rw [← hcl]; simp [hc]
    have := (h i p _ hp hs).1
    simpa [spanCps, hc] using this

theorem charTokens_long (b : Bpe) (text : Str) (pc sc : List Nat) (hp : b.prefx = utf16Encode pc)
    (hpc : ∀ c ∈ pc, IsScalar c) (hs : b.suffix = utf16Encode sc) (hsc : ∀ c ∈ sc, IsScalar c)
    (ht : ∀ u ∈ text, u < 0x10000) :
    ∀ (i : Nat) (s : Str), (charTokens b.prefx b.suffix (toCodePoints text))[i]? = some s →
      LongStr 0 s ∧ (i ≠ 0 → LongStr (codepoints b.prefx) s) := by
  intro i s hi
  have hcp : codepoints b.prefx = pc.length := by
    have := congrArg List.length (toCodePoints_encode pc hpc false)
    rw [hp]; simpa [codepoints] using this
  simp only [charTokens, List.getElem?_mapIdx, Option.map_eq_some_iff] at hi
  obtain ⟨c, hc, rfl⟩ := hi
  have hcs := scalar_of_eachCp text ht c (List.mem_of_getElem? hc)
  have huc : utf16Of c = utf16Encode [c] := by simp [utf16Encode]
  have key : ∀ (pre suf : List Nat), (∀ c ∈ pre, IsScalar c) → (∀ c ∈ suf, IsScalar c) →
      ∃ cs : List Nat, utf16Encode pre ++ utf16Of c ++ utf16Encode suf = utf16Encode cs ∧
        (∀ c ∈ cs, IsScalar c) ∧ pre.length < cs.length := by
    intro pre suf h1 h2
    refine ⟨pre ++ [c] ++ suf, by rw [utf16Encode_append, utf16Encode_append, huc], ?_, by simp⟩
    intro x hx
    simp only [List.mem_append, List.mem_singleton] at hx
    rcases hx with (hx | hx) | hx
    · exact h1 x hx
    · subst hx; exact hcs
    · exact h2 x hx
  have nil : utf16Encode [] = [] := rfl
  constructor
  · obtain ⟨cs, h1, h2, h3⟩ := key (if i = 0 then [] else pc)
      (if i + 1 = (toCodePoints text).length then sc else [])
      (by split <;> simp_all) (by split <;> simp_all)
    refine ⟨cs, ?_, h2, by omega⟩
    rw [← h1, hp, hs]
    split <;> split <;> simp [nil]
  · intro h0
    obtain ⟨cs, h1, h2, h3⟩ := key pc
      (if i + 1 = (toCodePoints text).length then sc else []) hpc (by split <;> simp_all)
    refine ⟨cs, ?_, h2, by omega⟩
    rw [← h1, hp, hs, if_neg h0]
    split <;> simp [nil]

theorem initIds_strings (b : Bpe) (text : Str) (pc sc uc : List Nat) (hp : b.prefx = utf16Encode pc)
    (hpc : ∀ c ∈ pc, IsScalar c) (hs : b.suffix = utf16Encode sc) (hsc : ∀ c ∈ sc, IsScalar c)
    (hu : b.unk = utf16Encode uc) (huc : ∀ c ∈ uc, IsScalar c)
    (hlen : uc ≠ [] → pc.length < uc.length) (ht : ∀ u ∈ text, u < 0x10000) :
    ∃ st : List Str, st.length = (initIds b text).length ∧
      ∀ (i : Nat) (p : Nat × Nat) (s : Str), (initIds b text)[i]? = some p → st[i]? = some s →
        b.tokenToId s = some p.1 ∧ LongStr 0 s ∧ (i ≠ 0 → LongStr (codepoints b.prefx) s) := by
  have hcp : codepoints b.prefx = pc.length := by
    have := congrArg List.length (toCodePoints_encode pc hpc false)
    rw [hp]; simpa [codepoints] using this
  have hct := charTokens_long b text pc sc hp hpc hs hsc ht
  rw [← charStrings_fst] at hct
  have hunk : b.unk ≠ [] → uc ≠ [] := by
    intro h h'; apply h; rw [hu, h']; rfl
  refine addIds_strings b (LongStr (codepoints b.prefx)) ?_ (LongStr 0) ?_ [] _ [] rfl (by simp)
    ?_ ?_ (fun h => absurd rfl h)
  · intro u _ h2
    have := hunk h2
    exact ⟨uc, hu, huc, by rw [hcp]; exact hlen this⟩
  · intro u _ h2
    have := hunk h2
    exact ⟨uc, hu, huc, List.length_pos_iff.mpr this⟩
  · intro c hc
    obtain ⟨i, hi⟩ := List.mem_iff_getElem?.mp hc
    exact (hct i c.1 (by simp [hi])).1
  · intro c hc
    obtain ⟨i, hi⟩ := List.mem_iff_getElem?.mp hc
    rw [List.getElem?_tail] at hi
    exact (hct (i + 1) c.1 (by simp [hi])).2 (by omega)

/-! ## Determinism of the reference algorithm -/

theorem append_cons_inj_of_length {α : Type} {p p' q q' : List α} {a a' b b' : α}
    (h : p ++ a :: b :: q = p' ++ a' :: b' :: q') (hl : p.length = p'.length) :
    p = p' ∧ a = a' ∧ b = b' ∧ q = q' := by
  obtain ⟨h1, h2⟩ := List.append_inj h hl
  simp only [List.cons.injEq] at h2
  exact ⟨h1, h2.1, h2.2.1, h2.2.2⟩

theorem refStep_unique {α : Type} {tbl : MergeTable α} {w v v' : List α} (h : RefStep tbl w v)
    (h' : RefStep tbl w v') : v = v' := by
  obtain ⟨p, a, b, q, r, n, e1, e2, e3, e4⟩ := h
  obtain ⟨p', a', b', q', r', n', f1, f2, f3, f4⟩ := h'
  have g1 := e4 p' a' b' q' r' n' f1 f2
  have g2 := f4 p a b q r n e1 e2
  have hl : p.length = p'.length := by omega
  rw [e1] at f1
  obtain ⟨rfl, rfl, rfl, rfl⟩ := append_cons_inj_of_length f1 hl
  rw [e2] at f2
  simp only [Option.some.injEq, Prod.mk.injEq] at f2
  rw [e3, f3, f2.2]

theorem refBpe_unique {α : Type} {tbl : MergeTable α} {w v v' : List α} (h : RefBpe tbl w v)
    (h' : RefBpe tbl w v') : v = v' := by
  obtain ⟨h1, h2⟩ := h
  obtain ⟨h3, h4⟩ := h'
  have nostep : ∀ {x y : List α}, Normal tbl x → ¬ RefStep tbl x y := by
    intro x y hn ⟨p, a, b, q, r, n, e1, e2, _⟩
    rw [hn p a b q e1] at e2; cases e2
  induction h1 with
  | refl a =>
    cases h3 with
    | refl => rfl
    | head hs _ => exact absurd hs (nostep h2)
  | head hs _ ih =>
    cases h3 with
    | refl => exact absurd hs (nostep h4)
    | head hs' hr => rw [refStep_unique hs' hs] at hr; exact ih h2 hr

/-! ## Strings are preserved by merges -/

theorem mergeStep_string {tbl : MergeTable Nat} (f : Nat → List Nat)
    (hf : ∀ a b r n, tbl a b = some (r, n) → f n = f a ++ f b) {w v : List Nat}
    (h : Star (MergeStep tbl) w v) : v.flatMap f = w.flatMap f := by
  induction h with
  | refl => rfl
  | head hs _ ih =>
    obtain ⟨p, a, b, q, r, n, e1, e2, e3⟩ := hs
    rw [ih, e1, e3]
    simp [hf a b r n e2]

end Berts.Bpe
