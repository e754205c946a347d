import Verif.Proofs.RobertaTok

/-! # RoBERTa tokenization against reference BPE -/

namespace Berts.Roberta

open Berts.Unicode Berts.Vocab Berts.Bpe Berts.Spec Berts.Props

theorem each_append {α β : Type} {R : α → β → Prop} {a : List α} {b : List β} {c : List α} {d : List β}
    (h1 : Each R a b) (h2 : Each R c d) : Each R (a ++ c) (b ++ d) := by
  induction a generalizing b with
  | nil => cases b with
    | nil => exact h2
    | cons _ _ => exact h1.elim
  | cons x a ih => cases b with
    | nil => exact h1.elim
    | cons y b => exact ⟨h1.1, ih h1.2⟩

/-- Words of the vocabulary's alphabet are tokenized as by the reference. -/
def WordRef (l : List (List Nat)) (tbl : MergeTable Str) (b : Bpe) (e : Bpe.Env) : Prop :=
  ∀ bs, Bytes bs → ByteComplete l bs → 9 * bs.length * bs.length ≤ e.fuel → ∀ toks,
    tokensOf b e (byteChars bs) = .ok toks → ByteBpe tbl bs toks

/-- Entries of the BPE cache are those of the reference. -/
def CacheRef (tbl : MergeTable Str) (cache : Cache) : Prop :=
  ∀ k toks, find cache k = some toks → RefBpe tbl (k.map (fun c => [c])) toks

theorem cacheRef_nil (tbl : MergeTable Str) : CacheRef tbl [] := by intro k toks h; simp [find] at h

theorem bpe_piece_ref {l : List (List Nat)} {tbl : MergeTable Str} {b : Bpe} {e : Bpe.Env}
    (hw : WordRef l tbl b e) (bs : List Nat) (hb : Bytes bs) (hf : 9 * bs.length * bs.length ≤ e.fuel)
    (hc : ByteComplete l bs) (toks new : List Str) (cache cache' : Cache) (hcache : CacheRef tbl cache)
    (h : Bpe.tokenize b e (byteChars bs) toks (some cache) = .ok (toks ++ new, some cache')) :
    CacheRef tbl cache' ∧ ByteBpe tbl bs new := by
  unfold Bpe.tokenize at h
  split at h
  · rename_i h0
    simp only [Res.ok.injEq, Prod.mk.injEq, Option.some.injEq] at h
    have : new = [] := by simpa using h.1.symm
    subst this
    refine ⟨h.2 ▸ hcache, ?_⟩
    unfold ByteBpe
    rw [h0]
    exact ⟨.refl _, fun pre a b post h => by simp at h⟩
  · simp only at h
    split at h
    · rename_i c hhit
      simp only [Res.ok.injEq, Prod.mk.injEq, Option.some.injEq] at h
      have : c = new := List.append_cancel_left h.1
      subst this
      split at hhit
      · exact ⟨h.2 ▸ hcache, hcache _ _ hhit⟩
      · cases hhit
    · cases ht : tokensOf b e (byteChars bs) with
      | ub => rw [ht] at h; cases h
      | abort => rw [ht] at h; cases h
      | hang => rw [ht] at h; cases h
      | ok ts =>
        rw [ht, res_bind_ok] at h
        have hr := hw bs hb hc hf ts ht
        split at h
        · simp only [Res.ok.injEq, Prod.mk.injEq, Option.some.injEq] at h
          have : ts = new := List.append_cancel_left h.1
          subst this
          refine ⟨?_, hr⟩
          rw [← h.2]
          intro k toks' hk
          rw [find_assign] at hk
          split at hk
          · rename_i e1
            simp only [Option.some.injEq] at hk
            subst hk
            subst e1; exact hr
          · exact hcache k toks' hk
        · simp only [Res.ok.injEq, Prod.mk.injEq, Option.some.injEq] at h
          have : ts = new := List.append_cancel_left h.1
          subst this
          exact ⟨h.2 ▸ hcache, hr⟩

theorem bpeLoop_ref {v : VocabT} {l tcs : List (List Nat)} {b : Bpe} (hi : Inited v l tcs b)
    {e : Env} {N : Nat} (he : EnvOK e N) {tbl : MergeTable Str} (hw : WordRef l tbl b e.bpe)
    (chs : List (List Nat)) (hs : ∀ ch ∈ chs, ∀ c ∈ ch, IsScalar c)
    (hlen : (utf8Encode chs.flatten).length ≤ N)
    (hsig : e.signed = true → ∀ x ∈ utf8Encode chs.flatten, x < 0x80)
    (hc : ByteComplete l (utf8Encode chs.flatten))
    (toks : List Str) (cache : Cache) (hcache : CacheOK (tcs.map utf16Encode) cache)
    (hcr : CacheRef tbl cache) :
    ∃ tokss cache', bpeLoop e b (chs.map utf16Encode) toks cache = .ok (toks ++ tokss.flatten, cache') ∧
      CacheOK (tcs.map utf16Encode) cache' ∧ CacheRef tbl cache' ∧
      Each (fun w toks => ByteBpe tbl (utf8Encode w) toks) chs tokss ∧
      ∀ t ∈ tokss.flatten, t ∈ tcs.map utf16Encode := by
  induction chs generalizing toks cache with
  | nil => exact ⟨[], cache, by simp [bpeLoop], hcache, hcr, trivial, by simp⟩
  | cons ch chs ih =>
    simp only [List.flatten_cons, utf8Encode_append] at hlen hsig hc ⊢
    have hch := hs ch (by simp)
    have hb := utf8_bytes ch hch
    have hl1 : (utf8Encode ch).length ≤ N := by simp at hlen; omega
    have hfuel := Nat.le_trans (Nat.mul_le_mul (Nat.mul_le_mul_left 9 hl1) hl1) he.fuel
    have hbc : ByteComplete l (utf8Encode ch) := fun x hx => hc x (by simp [hx])
    obtain ⟨new, cache1, h1, h2, h3, h4⟩ := bpe_piece hi e.bpe he.pick (utf8Encode ch) hb hfuel hbc toks cache hcache
    obtain ⟨r1, r2⟩ := bpe_piece_ref hw (utf8Encode ch) hb hfuel hbc toks new cache cache1 hcr h1
    obtain ⟨tokss, cache2, g1, g2, g3, g4, g5⟩ := ih (fun x hx => hs x (by simp [hx]))
      (by simp at hlen; omega) (fun h x hx => hsig h x (by simp [hx]))
      (fun x hx => hc x (by simp [hx])) (toks ++ new) cache1 h2 r1
    refine ⟨new :: tokss, cache2, ?_, g2, g3, ⟨r2, g4⟩, ?_⟩
    · simp only [List.map_cons, bpeLoop]
      rw [encodeUnits_ok ch hch, res_bind_ok,
        encodeBytes_ok hb (fun h x hx => hsig h x (by simp [hx])), res_bind_ok, h1, res_bind_ok]
      simp only [Option.getD_some]
      rw [g1]; simp
    · intro t ht
      rcases List.mem_append.mp (by simpa using ht : t ∈ new ++ tokss.flatten) with ht | ht
      · exact h4 t ht
      · exact g5 t ht

theorem idLoop_ref {v : VocabT} {l tcs : List (List Nat)} (hh : Holds v l) (hu : Utf8Vocab l tcs)
    (toks : List Str) (ht : ∀ t ∈ toks, t ∈ tcs.map utf16Encode) (result : List Nat) :
    ∃ ids, idLoop v toks result = .ok (some (result ++ ids)) ∧ Each (IdOf l) ids toks := by
  induction toks generalizing result with
  | nil => exact ⟨[], by simp [idLoop], trivial⟩
  | cons t toks ih =>
    obtain ⟨tc, htc, e⟩ := List.mem_map.mp (ht t (by simp))
    subst e
    have hsc := hu.scalar tc htc
    have hl : utf8Encode tc ∈ l := by rw [hu.enc]; exact List.mem_map_of_mem htc
    obtain ⟨i, hi⟩ := List.getElem?_of_mem hl
    have hid := tokenToId_mem hh _ i hi
    have hlt : i < INVALID := by
      have := (List.getElem?_eq_some_iff.mp hi).1
      have := hh.2.2.1
      omega
    obtain ⟨ids, h1, h2⟩ := ih (fun x hx => ht x (by simp [hx])) (result ++ [i])
    refine ⟨i :: ids, ?_, ⟨tc, hsc, rfl, hi⟩, h2⟩
    unfold idLoop
    rw [encodeUnits_ok tc hsc, res_bind_ok, hid, if_neg (by omega), h1]
    simp

theorem plainPiece_ref {r : RVocab} {l tcs : List (List Nat)} (hi : Inited r.v l tcs r.bpe)
    {e : Env} {N : Nat} (he : EnvOK e N) {tbl : MergeTable Str} (hw : WordRef l tbl r.bpe e.bpe)
    (cs : List Nat) (hs : ∀ c ∈ cs, IsScalar c)
    (hlen : (utf8Encode cs).length ≤ N) (hsig : e.signed = true → ∀ x ∈ utf8Encode cs, x < 0x80)
    (hc : ByteComplete l (utf8Encode cs)) (result : List Nat) (cache : Cache)
    (hcache : CacheOK (tcs.map utf16Encode) cache) (hcr : CacheRef tbl cache) :
    ∃ ids cache', plainPiece e r (utf16Encode cs) cache result = .ok (some (result ++ ids), cache') ∧
      CacheOK (tcs.map utf16Encode) cache' ∧ CacheRef tbl cache' ∧ RefPlain l tbl e.matches_ cs ids := by
  obtain ⟨chs, h1, h2⟩ := regex_chunks e.matches_ he.regex cs hs
  have hcut : chs.map utf16Encode =
      (if cs = [] then [] else cutAt (utf16Encode cs) 0 (e.matches_ (utf16Encode cs))) := by
    rw [← h1]
    split
    · rename_i h0; subst h0; rfl
    · rename_i h0
      rw [C08_split_exact _ _ _ (by
        intro h; apply h0
        have := congrArg toCodePoints h
        rw [show toCodePoints (utf16Encode cs) = cs from toCodePoints_encode cs hs false] at this
        exact this)]
      rfl
  have hs' : ∀ ch ∈ chs, ∀ c ∈ ch, IsScalar c :=
    fun ch hch c hc => hs c (h2 ▸ List.mem_flatten.mpr ⟨ch, hch, hc⟩)
  obtain ⟨tokss, cache1, g1, g2, g3, g4, g5⟩ := bpeLoop_ref hi he hw chs hs' (by rw [h2]; exact hlen)
    (by rw [h2]; exact hsig) (by rw [h2]; exact hc) [] cache hcache hcr
  obtain ⟨ids, k1, k2⟩ := idLoop_ref hi.holds hi.utf8 tokss.flatten g5 result
  refine ⟨ids, cache1, ?_, g2, g3, chs, tokss, h2, hcut, g4, k2⟩
  unfold plainPiece
  rw [h1, g1, res_bind_ok]
  simp only [List.nil_append]
  rw [k1, res_bind_ok]

theorem pieceLoop_ref {r : RVocab} {l tcs : List (List Nat)} (hi : Inited r.v l tcs r.bpe)
    {e : Env} {N : Nat} (he : EnvOK e N) {tbl : MergeTable Str} (hw : WordRef l tbl r.bpe e.bpe)
    (mask : List Nat) (pieces : List (Bool × List Nat))
    (hsp : ∀ p ∈ pieces, p.1 = true → p.2 ∈ l ∧ ∀ c ∈ p.2, c < 0x80)
    (hpl : ∀ p ∈ pieces, p.1 = false → (∃ cs, p.2 = utf8Encode cs ∧ ∀ c ∈ cs, IsScalar c) ∧
      p.2.length ≤ N ∧ (e.signed = true → ∀ x ∈ p.2, x < 0x80) ∧ ByteComplete l p.2)
    (cache : Cache) (hcache : CacheOK (tcs.map utf16Encode) cache) (hcr : CacheRef tbl cache)
    (result : List Nat) :
    ∃ idss, pieceLoop e r mask pieces cache result = .ok (some (result ++ idss.flatten)) ∧
      RefPieces l tbl e.matches_ (keptPieces e.ws mask pieces) idss := by
  induction pieces generalizing cache result with
  | nil => exact ⟨[], by simp [pieceLoop], trivial⟩
  | cons p ps ih =>
    have ih := ih (fun q hq => hsp q (by simp [hq])) (fun q hq => hpl q (by simp [hq]))
    obtain ⟨sp, s⟩ := p
    cases sp with
    | true =>
      obtain ⟨hl, hasc⟩ := hsp (true, s) (by simp) rfl
      simp only at hl hasc
      obtain ⟨i, hix⟩ := List.getElem?_of_mem hl
      have hid := tokenToId_mem hi.holds _ i hix
      have hlt : i < INVALID := by
        have := (List.getElem?_eq_some_iff.mp hix).1
        have := hi.holds.2.2.1
        omega
      have hssc : ∀ c ∈ s, IsScalar c := fun c hc => by have := hasc c hc; left; omega
      obtain ⟨ids, h1, h2⟩ := ih cache hcache hcr (result ++ [i])
      refine ⟨[i] :: ids, ?_, ⟨i, rfl, hix⟩, h2⟩
      · simp only [pieceLoop]
        have : specialPiece e.ws r.v (nextIsMask mask ps) s result = .ok (some (result ++ [i])) := by
          unfold specialPiece
          rw [hid, if_neg (by omega : ¬ i = INVALID)]
          split
          · obtain ⟨cs', g, _⟩ := subtextUnits_ok e.ws true s hssc
            rw [utf8_ascii s hasc] at g
            rw [g]; rfl
          · rfl
        rw [this, res_bind_ok]
        simp only
        rw [h1]; simp
    | false =>
      obtain ⟨⟨cs, e1, hcs⟩, hN, hsig, hbc⟩ := hpl (false, s) (by simp) rfl
      simp only at e1 hN hsig hbc
      subst e1
      obtain ⟨cs', g1, g2, g3⟩ := subtextUnits_ok e.ws (nextIsMask mask ps) cs hcs
      obtain ⟨tl, htl⟩ := g2
      have hcs' : ∀ c ∈ cs', IsScalar c := fun c hc => hcs c (by rw [← htl]; simp [hc])
      have hsub : ∀ x ∈ utf8Encode cs', x ∈ utf8Encode cs := by
        intro x hx; rw [← htl, utf8Encode_append]; simp [hx]
      have hlen' : (utf8Encode cs').length ≤ N := by
        have : (utf8Encode cs).length = (utf8Encode cs').length + (utf8Encode tl).length := by
          rw [← htl, utf8Encode_append, List.length_append]
        omega
      obtain ⟨ids1, cache1, k1, k2, k3, k4⟩ := plainPiece_ref hi he hw cs' hcs' hlen'
        (fun h x hx => hsig h x (hsub x hx)) (fun x hx => hbc x (hsub x hx)) result cache hcache hcr
      obtain ⟨ids, h1, h2⟩ := ih cache1 k2 k3 (result ++ ids1)
      refine ⟨ids1 :: ids, ?_, ?_, h2⟩
      · simp only [pieceLoop]
        rw [g1, res_bind_ok, k1, res_bind_ok]
        simp only
        rw [h1]; simp
      · exact ⟨cs', hcs', by rw [g3, nextIsMask_eq], k4⟩

/-! ## The merges of the file -/

theorem mergePairs_get (data : List Nat) (h : data.length % 3 = 0) :
    data.length = 3 * (mergePairs data).length ∧
    ∀ (k i j : Nat), (mergePairs data)[k]? = some (i, j) ↔ data[3 * k]? = some i ∧ data[3 * k + 1]? = some j := by
  induction data using mergePairs.induct with
  | case1 a b c l ih =>
    obtain ⟨h1, h2⟩ := ih (by simp at h; omega)
    refine ⟨by simp [mergePairs]; omega, ?_⟩
    intro k i j
    cases k with
    | zero => simp [mergePairs]
    | succ k =>
      have := h2 k i j
      have e1 : (a :: b :: c :: l)[3 * (k + 1)]? = l[3 * k]? := by
        rw [show 3 * (k + 1) = 3 * k + 3 from by omega]; rfl
      have e2 : (a :: b :: c :: l)[3 * (k + 1) + 1]? = l[3 * k + 1]? := by
        rw [show 3 * (k + 1) + 1 = 3 * k + 1 + 3 from by omega]; rfl
      rw [e1, e2, mergePairs]
      simpa using this
  | case2 l hl =>
    have : l = [] := by
      match l, hl with
      | [], _ => rfl
      | [_], _ => simp at h
      | [_, _], _ => simp at h
      | a :: b :: c :: l, hl => exact absurd rfl (hl a b c l)
    subst this
    simp [mergePairs]

theorem find_iff {vocab : List (Str × Nat)} (hn : (vocab.map (·.1)).Nodup) (t : Str) (id : Nat) :
    find vocab t = some id ↔ (t, id) ∈ vocab := by
  induction vocab with
  | nil => simp [find]
  | cons p vocab ih =>
    obtain ⟨k, w⟩ := p
    simp only [List.map_cons, List.nodup_cons] at hn
    rw [find]
    split
    · rename_i hkt
      subst hkt
      simp only [Option.some.injEq, List.mem_cons, Prod.mk.injEq, true_and]
      constructor
      · intro h; left; exact h.symm
      · rintro (h | h)
        · exact h.symm
        · exact absurd (List.mem_map.mpr ⟨(k, id), h, rfl⟩) hn.1
    · rename_i hkt
      rw [ih hn.2]
      simp only [List.mem_cons, Prod.mk.injEq]
      constructor
      · intro h; right; exact h
      · rintro (h | h)
        · exact absurd h.1.symm hkt
        · exact h

theorem initBpe_ref {merge : Option MergeTensor} {order : List (Str × Nat) → List (Str × Nat)}
    {v : VocabT} {sp : Special} {r : RVocab} {l tcs : List (List Nat)}
    (ho : ∀ m, (order m).Perm m) (hh : Holds v l) (hu : Utf8Vocab l tcs)
    (h : initBpe merge order v sp = .ok (some r)) {u : List Nat} (h1 : idToToken v sp.unk = .ok u)
    (hasc : ∀ c ∈ u, c < 0x80) :
    ∃ data pairs, merge = some ⟨true, 1, data⟩ ∧ MergeFile tcs data pairs ∧
      (pairs.length ≤ 2 ^ 32 → ∀ tbl, IsTableOf pairs tbl → ∀ e : Bpe.Env, RightPick e.pick →
        WordRef l tbl r.bpe e) := by
  unfold initBpe at h
  have husc : ∀ c ∈ u, IsScalar c := fun c hc => by have := hasc c hc; left; omega
  have h2 : (UImpl.ofUtf8 u).readUnits = .ok (utf16Encode u) := by
    have := ofUtf8_units u husc
    rwa [utf8_ascii u hasc] at this
  rw [h1, res_bind_ok, h2, res_bind_ok, hh.1, tokenUnits_ok hu, res_bind_ok] at h
  cases h3 : checkMerge merge with
  | none => rw [h3] at h; cases h
  | some ms =>
  rw [h3] at h
  simp only at h
  have hnd := hu.nodup hh.2.1
  rw [emplaceAll_nodup [] 0 _ (by simpa using hnd), List.nil_append] at h
  generalize hb : (order ((tcs.map utf16Encode).zipIdx 0)) = bv at h
  have hperm : bv.Perm ((tcs.map utf16Encode).zipIdx 0) := hb ▸ ho _
  cases h4 : (Bpe.new (utf16Encode u) 0 true).loadVocab bv ms with
  | ub => rw [h4] at h; cases h
  | abort => rw [h4] at h; cases h
  | hang => rw [h4] at h; cases h
  | ok q =>
  obtain ⟨okb, b⟩ := q
  rw [h4, res_bind_ok] at h
  cases okb with
  | false => simp at h
  | true =>
  simp only [if_true, Res.ok.injEq, Option.some.injEq] at h
  subst h
  have hmem : ∀ t id, (t, id) ∈ bv ↔ (tcs.map utf16Encode)[id]? = some t := by
    intro t id
    rw [hperm.mem_iff, List.mem_zipIdx_iff_getElem?]
  have hone : OneToOne bv := by
    refine ⟨?_, ?_, ?_⟩
    · rw [(hperm.map (·.1)).nodup_iff]
      simpa using hnd
    · rw [(hperm.map (·.2)).nodup_iff]
      simp only [List.zipIdx_map_snd]
      exact List.nodup_range'
    · intro p hp
      obtain ⟨t, id⟩ := p
      have := List.mem_of_getElem? ((hmem t id).mp hp)
      obtain ⟨c, hc, rfl⟩ := List.mem_map.mp this
      exact utf16_units c (hu.scalar c hc)
  -- the tensor
  obtain ⟨data, hmerge, hms, hmod⟩ : ∃ data, merge = some ⟨true, 1, data⟩ ∧ ms = mergePairs data ∧
      data.length % 3 = 0 := by
    unfold checkMerge at h3
    cases merge with
    | none => cases h3
    | some t =>
      obtain ⟨i32, nd, data⟩ := t
      simp only at h3
      split at h3
      · cases h3
      split at h3
      · cases h3
      split at h3
      · cases h3
      rename_i a1 a2 a3
      refine ⟨data, ?_, by simpa using h3.symm, by omega⟩
      simp_all
  obtain ⟨hl3, hget⟩ := mergePairs_get data hmod
  rw [← hms] at hl3 hget
  -- ids of the merges are ids of tokens
  obtain ⟨ok', b', k1, k2⟩ := C25_success (utf16Encode u) 0 true [] [] bv hone ms
  have h4' : ({ Bpe.new (utf16Encode u) 0 true with prefx := [], suffix := [] } : Bpe).loadVocab bv ms =
      .ok (true, b) := h4
  rw [h4'] at k1
  simp only [Res.ok.injEq, Prod.mk.injEq] at k1
  have hin := k2.mp k1.1.symm
  let g : Nat → Str := fun i => (tcs.map utf16Encode)[i]?.getD []
  have hg : ∀ t i, (t, i) ∈ bv → g i = t := fun t i hm => by simp only [g]; rw [(hmem t i).mp hm]; rfl
  let pairs := ms.map (fun p => (g p.1, g p.2))
  have hpl : (Bpe.new (utf16Encode u) 0 true).loadVocabPairs bv pairs = .ok (true, b) := by
    rw [(C25_token_pairs _ bv pairs).1 ms ?_, h4]
    simp only [pairs, List.map_map]
    apply List.map_congr_left
    intro p hp
    obtain ⟨t0, t1, n, m0, m1, _⟩ := hin p hp
    simp only [Function.comp]
    rw [hg _ _ m0, hg _ _ m1, (find_iff hone.keys _ _).mpr m0, (find_iff hone.keys _ _).mpr m1]
  refine ⟨data, pairs, hmerge, ⟨by simpa [pairs] using hl3, ?_⟩, ?_⟩
  · intro k p hk
    simp only [pairs, List.getElem?_map, Option.map_eq_some_iff] at hk
    obtain ⟨⟨i, j⟩, hij, rfl⟩ := hk
    obtain ⟨t0, t1, n, m0, m1, _⟩ := hin (i, j) (List.mem_of_getElem? hij)
    obtain ⟨d1, d2⟩ := (hget k i j).mp hij
    have e0 := (hmem _ _).mp m0
    have e1 := (hmem _ _).mp m1
    simp only [List.getElem?_map, Option.map_eq_some_iff] at e0 e1
    obtain ⟨a, a1, a2⟩ := e0
    obtain ⟨c, c1, c2⟩ := e1
    exact ⟨i, j, a, c, d1, d2, a1, c1, by simp only [hg _ _ m0, hg _ _ m1, a2, c2]⟩
  · intro hlen tbl htbl e hp bs hbs hc hf toks ht
    have hk : ∀ c ∈ toCodePoints (byteChars bs), utf16Of c ∈ bv.map (·.1) := by
      rw [byteChars_cps hbs]
      intro c hc'
      obtain ⟨x, hx, rfl⟩ := List.mem_map.mp hc'
      have h1 := hc x hx
      rw [hu.enc] at h1
      obtain ⟨t, ht, e1⟩ := List.mem_map.mp h1
      have hlt := byteChar_lt x (hbs x hx)
      have h2 := utf8Decode_encode t (hu.scalar t ht)
      have h3 : utf8Encode [byteChar x] = utf8Of (byteChar x) := by simp [utf8Encode]
      rw [e1, ← h3, utf8Decode_encode [byteChar x] (by simp [IsScalar]; omega)] at h2
      simp only [Option.some.injEq] at h2
      have : utf16Of (byteChar x) ∈ tcs.map utf16Encode :=
        List.mem_map.mpr ⟨t, ht, by rw [← h2]; simp [utf16Encode]⟩
      obtain ⟨id, hid⟩ := List.getElem?_of_mem this
      exact List.mem_map.mpr ⟨(_, id), (hmem _ id).mpr hid, rfl⟩
    have hlt : ∀ c ∈ byteChars bs, c < 0x10000 := by
      intro c hc'
      obtain ⟨x, hx, rfl⟩ := List.mem_map.mp hc'
      have := byteChar_lt x (hbs x hx)
      omega
    obtain ⟨toks', q1, q2⟩ := C22_strings_partial u husc true bv pairs b hone hpl hlen e hp (byteChars bs)
      hlt (by rw [byteChars_codepoints hbs]; exact hf) hk tbl htbl
    rw [q1] at ht
    simp only [Res.ok.injEq] at ht
    subst ht
    rw [byteChars_cps hbs] at q2
    have : (byteChars bs).map utf16Of = (byteChars bs).map (fun c => [c]) := by
      apply List.map_congr_left
      intro c hc'
      unfold utf16Of
      rw [if_pos (hlt c hc')]
    rw [this] at q2
    exact q2

end Berts.Roberta
