import Verif.Proofs.Roberta

/-! # Lemmas about whole RoBERTa tokenization runs -/

namespace Berts.Roberta

open Berts.Unicode Berts.Vocab Berts.Bpe Berts.Spec Berts.Props

theorem res_bind_ok {α β : Type} (a : α) (f : α → Res β) : (Res.ok a).bind f = f a := rfl

/-! ## UTF-8 bytes -/

theorem utf8Of_bytes (c : Nat) (h : IsScalar c) : ∀ b ∈ utf8Of c, b < 256 := by
  unfold IsScalar at h
  unfold utf8Of
  intro b hb
  split at hb
  · simp at hb; omega
  · split at hb
    · simp at hb; omega
    · split at hb
      · simp at hb; omega
      · simp at hb; omega

theorem utf8_bytes (cs : List Nat) (h : ∀ c ∈ cs, IsScalar c) : Bytes (utf8Encode cs) := by
  intro b hb
  simp only [utf8Encode, List.mem_flatMap] at hb
  obtain ⟨c, hc, hb⟩ := hb
  exact utf8Of_bytes c (h c hc) b hb

theorem utf16Encode_flatten (chs : List (List Nat)) :
    utf16Encode chs.flatten = (chs.map utf16Encode).flatten := by
  induction chs with
  | nil => rfl
  | cons c chs ih => simp only [List.flatten_cons, List.map_cons, utf16Encode_append, ih]

theorem utf8Encode_flatten (chs : List (List Nat)) :
    utf8Encode chs.flatten = (chs.map utf8Encode).flatten := by
  induction chs with
  | nil => rfl
  | cons c chs ih => simp only [List.flatten_cons, List.map_cons, utf8Encode_append, ih]

/-! ## Regex pieces -/

theorem aligned_slice (cs : List Nat) (i j : Nat) (hi : AlignedAt cs i) (hj : AlignedAt cs j) :
    ∃ ch, ((utf16Encode cs).drop i).take (j - i) = utf16Encode ch ∧ ∀ c ∈ ch, c ∈ cs := by
  obtain ⟨a, b, e1, rfl⟩ := hi
  obtain ⟨a', b', e2, rfl⟩ := hj
  by_cases hlen : a.length ≤ a'.length
  · have hpre : a <+: a' := by
      apply List.prefix_of_prefix_length_le (l₃ := cs) _ _ hlen
      · exact ⟨b, e1.symm⟩
      · exact ⟨b', e2.symm⟩
    obtain ⟨m, rfl⟩ := hpre
    refine ⟨m, ?_, fun c hc => by rw [e2]; simp [hc]⟩
    rw [e2, utf16Encode_append (a ++ m), utf16Encode_append a, List.append_assoc,
      List.drop_left' rfl]
    rw [List.take_left' (by simp)]
  · have hpre : a' <+: a := by
      apply List.prefix_of_prefix_length_le (l₃ := cs) _ _ (by omega)
      · exact ⟨b', e2.symm⟩
      · exact ⟨b, e1.symm⟩
    obtain ⟨m, rfl⟩ := hpre
    refine ⟨[], ?_, by simp⟩
    rw [utf16Encode_append, List.length_append,
      show (utf16Encode a').length - ((utf16Encode a').length + (utf16Encode m).length) = 0 by omega]
    rfl

theorem aligned_end (cs : List Nat) : AlignedAt cs (utf16Encode cs).length := ⟨cs, [], by simp, rfl⟩

theorem splitLoop_chunks (cs : List Nat) (cur : Nat) (ms : List (Nat × Nat)) (hcur : AlignedAt cs cur)
    (hm : ∀ m ∈ ms, AlignedAt cs m.1 ∧ AlignedAt cs m.2) :
    ∀ p ∈ (Unicode.splitLoop (utf16Encode cs) cur 0 [] ms).1,
      ∃ ch, p = utf16Encode ch ∧ ∀ c ∈ ch, c ∈ cs := by
  induction ms generalizing cur with
  | nil =>
    intro p hp
    simp only [Unicode.splitLoop] at hp
    split at hp
    · simp only [List.nil_append, List.mem_singleton] at hp
      subst hp
      exact aligned_slice cs _ _ hcur (aligned_end cs)
    · simp at hp
  | cons m ms ih =>
    obtain ⟨s, e⟩ := m
    have h0 := hm (s, e) (by simp)
    have ih := ih e h0.2 (fun m hm' => hm m (by simp [hm']))
    intro p hp
    simp only [Unicode.splitLoop] at hp
    rw [splitLoop_acc] at hp
    simp only [List.mem_append, List.mem_singleton] at hp
    rcases hp with (hp | hp) | hp
    · split at hp
      · simp only [List.nil_append, List.mem_singleton] at hp
        subst hp
        exact aligned_slice cs _ _ hcur h0.1
      · simp at hp
    · subst hp
      exact aligned_slice cs _ _ h0.1 h0.2
    · exact ih p hp

/-- The pieces of a regex split of a well-formed text, as code points. -/
theorem regex_chunks (f : List Nat → List (Nat × Nat)) (hf : RegexContract f) (cs : List Nat)
    (hcs : ∀ c ∈ cs, IsScalar c) :
    ∃ chs : List (List Nat), (regexSplit (utf16Encode cs) (f (utf16Encode cs)) []).1 = chs.map utf16Encode ∧
      chs.flatten = cs := by
  obtain ⟨pieces, h1, h2, _⟩ := C08_split_partition (utf16Encode cs) (f (utf16Encode cs)) []
    (hf.ordered _)
  have h3 : ∀ p ∈ pieces, ∃ ch, p = utf16Encode ch ∧ ∀ c ∈ ch, c ∈ cs := by
    rw [List.nil_append] at h1
    rw [← h1]
    unfold regexSplit
    split
    · simp
    · exact splitLoop_chunks cs 0 _ ⟨[], cs, rfl, rfl⟩ (hf.aligned cs hcs)
  have gen : ∀ ps : List (List Nat), (∀ p ∈ ps, ∃ ch, p = utf16Encode ch ∧ ∀ c ∈ ch, c ∈ cs) →
      ∃ chs : List (List Nat), ps = chs.map utf16Encode ∧ ∀ ch ∈ chs, ∀ c ∈ ch, c ∈ cs := by
    intro ps
    induction ps with
    | nil => intro _; exact ⟨[], rfl, by simp⟩
    | cons p ps ih =>
      intro h
      obtain ⟨ch, e, hch⟩ := h p (by simp)
      obtain ⟨chs, e2, h2⟩ := ih (fun q hq => h q (by simp [hq]))
      refine ⟨ch :: chs, by rw [e, e2]; rfl, ?_⟩
      intro x hx
      rcases List.mem_cons.mp hx with rfl | hx
      · exact hch
      · exact h2 x hx
  obtain ⟨chs, e1, e2⟩ := gen pieces h3
  refine ⟨chs, by rw [h1, List.nil_append, e1], ?_⟩
  apply utf16Encode_inj _ hcs
  · rw [← h2, e1]
    exact utf16Encode_flatten chs
  · intro c hc
    obtain ⟨ch, h4, h5⟩ := List.mem_flatten.mp hc
    exact hcs c (e2 ch h4 c h5)

/-! ## The vocabulary handed to BPE -/

theorem find_none {κ ν : Type} [DecidableEq κ] (m : List (κ × ν)) (k : κ) :
    find m k = none ↔ k ∉ m.map (·.1) := by
  induction m with
  | nil => simp [find]
  | cons p m ih =>
    obtain ⟨k', v'⟩ := p
    simp only [find]
    split
    · rename_i h; simp [h]
    · rename_i h
      rw [ih]
      simp [Ne.symm h]

theorem find_mem {κ ν : Type} [DecidableEq κ] (m : List (κ × ν)) (k : κ) (x : ν)
    (h : find m k = some x) : (k, x) ∈ m := by
  induction m with
  | nil => simp [find] at h
  | cons p m ih =>
    obtain ⟨k', v'⟩ := p
    simp only [find] at h
    split at h
    · rename_i e; simp only [Option.some.injEq] at h; subst e; subst h; simp
    · exact List.mem_cons_of_mem _ (ih h)

theorem emplaceAll_nodup (m : List (Str × Nat)) (id : Nat) (ts : List Str)
    (h : (m.map (·.1) ++ ts).Nodup) : emplaceAll m id ts = m ++ ts.zipIdx id := by
  induction ts generalizing m id with
  | nil => simp [emplaceAll]
  | cons t ts ih =>
    have hn : find m t = none := by
      rw [find_none]
      intro hm
      rw [List.nodup_append] at h
      exact h.2.2 t hm t (by simp) rfl
    unfold emplaceAll
    rw [hn]
    simp only
    rw [ih]
    · simp
    · simpa using h

/-- All entries of the vocabulary are UTF-8; `tcs` are their code points. -/
structure Utf8Vocab (l : List (List Nat)) (tcs : List (List Nat)) : Prop where
  scalar : ∀ t ∈ tcs, ∀ c ∈ t, IsScalar c
  enc : l = tcs.map utf8Encode

theorem tokenUnits_ok {l tcs : List (List Nat)} (h : Utf8Vocab l tcs) :
    tokenUnits l = .ok (tcs.map utf16Encode) := by
  obtain ⟨h1, rfl⟩ := h
  induction tcs with
  | nil => rfl
  | cons t tcs ih =>
    simp only [List.map_cons, tokenUnits]
    rw [ofUtf8_units t (h1 t (by simp)), ih (fun x hx => h1 x (by simp [hx]))]
    rfl

theorem Utf8Vocab.nodup {l tcs : List (List Nat)} (h : Utf8Vocab l tcs) (hn : l.Nodup) :
    (tcs.map utf16Encode).Nodup := by
  obtain ⟨h1, rfl⟩ := h
  have h2 : tcs.Nodup := by
    clear h1
    induction tcs with
    | nil => simp
    | cons t tcs ih =>
      simp only [List.map_cons, List.nodup_cons] at hn ⊢
      exact ⟨fun hm => hn.1 (List.mem_map_of_mem hm), ih hn.2⟩
  clear hn
  induction tcs with
  | nil => simp
  | cons t tcs ih =>
    simp only [List.map_cons, List.nodup_cons] at h2 ⊢
    refine ⟨?_, ih (fun x hx => h1 x (by simp [hx])) h2.2⟩
    intro hm
    obtain ⟨u, hu, e⟩ := List.mem_map.mp hm
    have := utf16Encode_inj (h1 u (by simp [hu])) (h1 t (by simp)) e
    exact h2.1 (this ▸ hu)

theorem utf16_units (cs : List Nat) (h : ∀ c ∈ cs, IsScalar c) : ∀ u ∈ utf16Encode cs, u < 0x10000 := by
  intro u hu
  simp only [utf16Encode, List.mem_flatMap] at hu
  obtain ⟨c, hc, hu⟩ := hu
  have := h c hc
  unfold IsScalar at this
  unfold utf16Of at hu
  split at hu
  · simp at hu; omega
  · simp at hu; omega

/-- The BPE part of an initialised vocabulary. -/
structure Inited (v : VocabT) (l tcs : List (List Nat)) (b : Bpe) : Prop where
  holds : Holds v l
  utf8 : Utf8Vocab l tcs
  load : ∃ unk bv ms, (Bpe.new unk 0 true).loadVocab bv ms = .ok (true, b) ∧ OneToOne bv ∧
    ∀ t id, (t, id) ∈ bv ↔ (tcs.map utf16Encode)[id]? = some t

theorem initBpe_inited {merge : Option MergeTensor} {order : List (Str × Nat) → List (Str × Nat)}
    {v : VocabT} {sp : Special} {r : RVocab} {l tcs : List (List Nat)}
    (ho : ∀ m, (order m).Perm m) (hh : Holds v l) (hu : Utf8Vocab l tcs)
    (h : initBpe merge order v sp = .ok (some r)) :
    Inited r.v l tcs r.bpe ∧ r.v = v ∧ r.special = sp := by
  unfold initBpe at h
  cases h1 : idToToken v sp.unk with
  | ub => rw [h1] at h; cases h
  | abort => rw [h1] at h; cases h
  | hang => rw [h1] at h; cases h
  | ok ub =>
  rw [h1, res_bind_ok] at h
  cases h2 : (UImpl.ofUtf8 ub).readUnits with
  | ub => rw [h2] at h; cases h
  | abort => rw [h2] at h; cases h
  | hang => rw [h2] at h; cases h
  | ok unk =>
  rw [h2, res_bind_ok, hh.1, tokenUnits_ok hu, res_bind_ok] at h
  cases h3 : checkMerge merge with
  | none => rw [h3] at h; cases h
  | some ms =>
  rw [h3] at h
  simp only at h
  have hnd := hu.nodup hh.2.1
  rw [emplaceAll_nodup [] 0 _ (by simpa using hnd), List.nil_append] at h
  generalize hb : (order ((tcs.map utf16Encode).zipIdx 0)) = bv at h
  have hperm : bv.Perm ((tcs.map utf16Encode).zipIdx 0) := hb ▸ ho _
  cases h4 : (Bpe.new unk 0 true).loadVocab bv ms with
  | ub => rw [h4] at h; cases h
  | abort => rw [h4] at h; cases h
  | hang => rw [h4] at h; cases h
  | ok q =>
  obtain ⟨okb, b⟩ := q
  rw [h4, res_bind_ok] at h
  cases okb with
  | false => simp at h
  | true =>
  simp only [if_true, Res.ok.injEq, Option.some.injEq] at h
  subst h
  have hmem : ∀ t id, (t, id) ∈ bv ↔ (tcs.map utf16Encode)[id]? = some t := by
    intro t id
    rw [hperm.mem_iff, List.mem_zipIdx_iff_getElem?]
  refine ⟨⟨hh, hu, unk, bv, ms, h4, ⟨?_, ?_, ?_⟩, hmem⟩, rfl, rfl⟩
  · rw [(hperm.map (·.1)).nodup_iff]
    simpa using hnd
  · rw [(hperm.map (·.2)).nodup_iff]
    simp only [List.zipIdx_map_snd]
    exact List.nodup_range'
  · intro p hp
    obtain ⟨t, id⟩ := p
    have := List.mem_of_getElem? ((hmem t id).mp hp)
    obtain ⟨c, hc, rfl⟩ := List.mem_map.mp this
    exact utf16_units c (hu.scalar c hc)

/-! ## BPE words -/

theorem tokens_keys (unk : Str) (dropout : Rat) (fuse : Bool) (vocab : List (Str × Nat))
    (ms : List (Nat × Nat)) (b : Bpe) (hv : OneToOne vocab)
    (hload : (Bpe.new unk dropout fuse).loadVocab vocab ms = .ok (true, b)) (v : Bpe.Env)
    (hp : AnyPick v.pick) (text : Str)
    (hf : 9 * codepoints text * codepoints text ≤ v.fuel)
    (hk : ∀ c ∈ toCodePoints text, utf16Of c ∈ vocab.map (·.1)) (toks : List Str)
    (ht : tokensOf b v text = .ok toks) : ∀ t ∈ toks, t ∈ vocab.map (·.1) := by
  obtain ⟨hl, _, f2, _, f4, f5⟩ := loaded_of_load (by simp [Bpe.new]) hv.keys hv.ids hv.units hload
  obtain ⟨n, S, h1, h2⟩ := C24_reachable b v.draw v.pick hp text v.fuel hf
  unfold tokensOf at ht
  rw [h1, res_bind_ok] at ht
  simp only [Res.ok.injEq] at ht
  subst ht
  rw [wordToTokens_eq]
  have hstart : ∀ id ∈ startIds b text, ∃ t, (t, id) ∈ vocab := by
    have hc : charTokens b.prefx b.suffix (toCodePoints text) = (toCodePoints text).map utf16Of := by
      rw [f4, f5]; exact charTokens_plain _
    have hk' : ∀ s ∈ charTokens b.prefx b.suffix (toCodePoints text),
        ∃ id, b.tokenToId s = some id := by
      rw [hc]
      intro s hs
      obtain ⟨c, hc, rfl⟩ := List.mem_map.mp hs
      obtain ⟨⟨t, id⟩, hp, e⟩ := List.mem_map.mp (hk c hc)
      simp only at e
      exact ⟨id, (hl.tok _ _).mpr (e ▸ hp)⟩
    have hid := known_ids b text hk'
    intro id hmem
    have : some id ∈ (charTokens b.prefx b.suffix (toCodePoints text)).map b.tokenToId := by
      rw [← hid]; exact List.mem_map_of_mem hmem
    obtain ⟨s, _, e⟩ := List.mem_map.mp this
    exact ⟨s, (hl.tok _ _).mp e⟩
  have hend : ∀ id ∈ S.map (·.id), ∃ t, (t, id) ∈ vocab := by
    generalize startIds b text = w at h2 hstart
    generalize S.map (·.id) = z at h2
    induction h2 with
    | refl => exact hstart
    | head hs _ ih =>
      apply ih
      obtain ⟨p, a, c, q, r, n, e1, e2, e3⟩ := hs
      obtain ⟨_, _, _, _, hn⟩ := hl.mrg a c r n e2
      intro id hid
      rw [e3] at hid
      rw [List.mem_append, List.mem_cons] at hid
      rcases hid with h | rfl | h
      · exact hstart id (by rw [e1]; simp [h])
      · exact ⟨_, hn⟩
      · exact hstart id (by rw [e1]; simp [h])
  intro t htm
  obtain ⟨id, hid, rfl⟩ := List.mem_map.mp htm
  obtain ⟨t, ht⟩ := hend id hid
  have : b.shown id = t := by
    unfold Bpe.shown
    rw [(hl.idt t id).mpr ht]
  rw [this]
  exact List.mem_map_of_mem (f := (·.1)) ht

/-- Entries of the BPE cache are correct. -/
def CacheOK (keys : List Str) (cache : Cache) : Prop :=
  ∀ k toks, find cache k = some toks → toks.flatten = k ∧ ∀ t ∈ toks, t ∈ keys

theorem cacheOK_nil (keys : List Str) : CacheOK keys [] := by intro k toks h; simp [find] at h

/-- Every byte of `bs` is an entry of the vocabulary (in its encoded form). -/
def ByteComplete (l : List (List Nat)) (bs : List Nat) : Prop := ∀ b ∈ bs, utf8Of (byteChar b) ∈ l

theorem bpe_piece {v : VocabT} {l tcs : List (List Nat)} {b : Bpe} (hi : Inited v l tcs b)
    (e : Bpe.Env) (hp : AnyPick e.pick) (bs : List Nat) (hb : Bytes bs)
    (hf : 9 * bs.length * bs.length ≤ e.fuel) (hc : ByteComplete l bs)
    (toks : List Str) (cache : Cache) (hcache : CacheOK (tcs.map utf16Encode) cache) :
    ∃ new cache', Bpe.tokenize b e (byteChars bs) toks (some cache) = .ok (toks ++ new, some cache') ∧
      CacheOK (tcs.map utf16Encode) cache' ∧ new.flatten = byteChars bs ∧
      ∀ t ∈ new, t ∈ tcs.map utf16Encode := by
  obtain ⟨unk, bv, ms, hload, hone, hmem⟩ := hi.load
  have hkeys : ∀ t, t ∈ bv.map (·.1) ↔ t ∈ tcs.map utf16Encode := by
    intro t
    constructor
    · intro h
      obtain ⟨⟨t', id⟩, h1, h2⟩ := List.mem_map.mp h
      simp only at h2
      subst h2
      exact List.mem_of_getElem? ((hmem t' id).mp h1)
    · intro h
      obtain ⟨id, h1⟩ := List.getElem?_of_mem h
      exact List.mem_map.mpr ⟨(t, id), (hmem t id).mpr h1, rfl⟩
  have hk : ∀ c ∈ toCodePoints (byteChars bs), utf16Of c ∈ bv.map (·.1) := by
    rw [byteChars_cps hb]
    intro c hc'
    obtain ⟨x, hx, rfl⟩ := List.mem_map.mp hc'
    rw [hkeys]
    have h1 := hc x hx
    rw [hi.utf8.enc] at h1
    obtain ⟨t, ht, e1⟩ := List.mem_map.mp h1
    have hlt := byteChar_lt x (hb x hx)
    have h2 := utf8Decode_encode t (hi.utf8.scalar t ht)
    have h3 : utf8Encode [byteChar x] = utf8Of (byteChar x) := by simp [utf8Encode]
    rw [e1, ← h3, utf8Decode_encode [byteChar x] (by simp [IsScalar]; omega)] at h2
    simp only [Option.some.injEq] at h2
    refine List.mem_map.mpr ⟨t, ht, ?_⟩
    rw [← h2]; simp [utf16Encode]
  have hf' : 9 * codepoints (byteChars bs) * codepoints (byteChars bs) ≤ e.fuel := by
    rw [byteChars_codepoints hb]; exact hf
  obtain ⟨ts, h1, h2⟩ := C20_lossless_partial unk 0 true bv ms b hone hload e hp (byteChars bs) hf' hk
  rw [byteChars_cps hb, byteChars_utf16 hb] at h2
  have h3 := tokens_keys unk 0 true bv ms b hone hload e hp (byteChars bs) hf' hk ts h1
  have hd : b.dropout = 0 :=
    (loaded_of_load (by simp [Bpe.new]) hone.keys hone.ids hone.units hload).2.2.1
  unfold Bpe.tokenize
  by_cases h0 : byteChars bs = []
  · rw [if_pos h0]
    exact ⟨[], cache, by simp, hcache, by simp [h0], by simp⟩
  · rw [if_neg h0]
    simp only [hd, if_true]
    cases hfind : find cache (byteChars bs) with
    | some c =>
      obtain ⟨g1, g2⟩ := hcache _ _ hfind
      exact ⟨c, cache, rfl, hcache, g1, g2⟩
    | none =>
      simp only
      rw [h1, res_bind_ok]
      refine ⟨ts, _, rfl, ?_, h2, fun t ht => (hkeys t).mp (h3 t ht)⟩
      intro k toks' hk'
      rw [find_assign] at hk'
      split at hk'
      · rename_i e1
        simp only [Option.some.injEq] at hk'
        subst hk'
        exact ⟨by rw [h2, e1], fun t ht => (hkeys t).mp (h3 t ht)⟩
      · exact hcache k toks' hk'

/-! ## Ids -/

theorem spells_nil (l : List (List Nat)) : Spells l [] [] := ⟨[], by simp, rfl, rfl⟩

theorem spells_append {l : List (List Nat)} {i j c d : List Nat} (h1 : Spells l i c)
    (h2 : Spells l j d) : Spells l (i ++ j) (c ++ d) := by
  obtain ⟨p, a1, a2, a3⟩ := h1
  obtain ⟨q, b1, b2, b3⟩ := h2
  refine ⟨p ++ q, ?_, by simp only [List.map_append, a2, b2], by simp [a3, b3]⟩
  intro x hx
  rcases List.mem_append.mp hx with hx | hx
  · exact a1 x hx
  · exact b1 x hx

theorem idLoop_ok {v : VocabT} {l tcs : List (List Nat)} (hh : Holds v l) (hu : Utf8Vocab l tcs)
    (toks : List Str) (ht : ∀ t ∈ toks, t ∈ tcs.map utf16Encode) (result : List Nat) :
    ∃ ids cs, idLoop v toks result = .ok (some (result ++ ids)) ∧ Spells l ids cs ∧
      utf16Encode cs = toks.flatten ∧ (∀ c ∈ cs, IsScalar c) := by
  induction toks generalizing result with
  | nil => exact ⟨[], [], by simp [idLoop], spells_nil l, rfl, by simp⟩
  | cons t toks ih =>
    obtain ⟨tc, htc, e⟩ := List.mem_map.mp (ht t (by simp))
    subst e
    have hsc := hu.scalar tc htc
    have hl : utf8Encode tc ∈ l := by rw [hu.enc]; exact List.mem_map_of_mem htc
    obtain ⟨i, hi⟩ := List.getElem?_of_mem hl
    have hid := tokenToId_mem hh _ i hi
    have hlt : i < INVALID := by
      have := (List.getElem?_eq_some_iff.mp hi).1
      have := hh.2.2.1
      omega
    obtain ⟨ids, cs, h1, h2, h3, h4⟩ := ih (fun x hx => ht x (by simp [hx])) (result ++ [i])
    refine ⟨i :: ids, tc ++ cs, ?_, ?_, ?_, ?_⟩
    · unfold idLoop
      rw [encodeUnits_ok tc hsc, res_bind_ok, hid, if_neg (by omega), h1]
      simp
    · exact spells_append (i := [i]) ⟨[tc], by simpa using hsc, by simp [hi], by simp⟩ h2
    · rw [utf16Encode_append, h3]; rfl
    · intro c hc
      rcases List.mem_append.mp hc with hc | hc
      · exact hsc c hc
      · exact h4 c hc

/-! ## Pieces -/

/-- What a run needs: the regex contract, a usable queue, enough iterations for pieces of up to `N`
bytes. -/
structure EnvOK (e : Env) (N : Nat) : Prop where
  regex : RegexContract e.matches_
  pick : AnyPick e.bpe.pick
  fuel : 9 * N * N ≤ e.bpe.fuel

theorem bpeLoop_ok {v : VocabT} {l tcs : List (List Nat)} {b : Bpe} (hi : Inited v l tcs b)
    {e : Env} {N : Nat} (he : EnvOK e N) (chs : List (List Nat))
    (hs : ∀ ch ∈ chs, ∀ c ∈ ch, IsScalar c)
    (hlen : (utf8Encode chs.flatten).length ≤ N)
    (hsig : e.signed = true → ∀ x ∈ utf8Encode chs.flatten, x < 0x80)
    (hc : ByteComplete l (utf8Encode chs.flatten))
    (toks : List Str) (cache : Cache) (hcache : CacheOK (tcs.map utf16Encode) cache) :
    ∃ new cache', bpeLoop e b (chs.map utf16Encode) toks cache = .ok (toks ++ new, cache') ∧
      CacheOK (tcs.map utf16Encode) cache' ∧ new.flatten = byteChars (utf8Encode chs.flatten) ∧
      ∀ t ∈ new, t ∈ tcs.map utf16Encode := by
  induction chs generalizing toks cache with
  | nil => exact ⟨[], cache, by simp [bpeLoop], hcache, rfl, by simp⟩
  | cons ch chs ih =>
    simp only [List.flatten_cons, utf8Encode_append] at hlen hsig hc ⊢
    have hch := hs ch (by simp)
    have hb := utf8_bytes ch hch
    have hl1 : (utf8Encode ch).length ≤ N := by simp at hlen; omega
    obtain ⟨new, cache1, h1, h2, h3, h4⟩ := bpe_piece hi e.bpe he.pick (utf8Encode ch) hb
      (Nat.le_trans (Nat.mul_le_mul (Nat.mul_le_mul_left 9 hl1) hl1) he.fuel)
      (fun x hx => hc x (by simp [hx])) toks cache hcache
    obtain ⟨new2, cache2, g1, g2, g3, g4⟩ := ih (fun x hx => hs x (by simp [hx]))
      (by simp at hlen; omega) (fun h x hx => hsig h x (by simp [hx]))
      (fun x hx => hc x (by simp [hx])) (toks ++ new) cache1 h2
    refine ⟨new ++ new2, cache2, ?_, g2, ?_, ?_⟩
    · simp only [List.map_cons, bpeLoop]
      rw [encodeUnits_ok ch hch, res_bind_ok,
        encodeBytes_ok hb (fun h x hx => hsig h x (by simp [hx])), res_bind_ok, h1, res_bind_ok]
      simp only [Option.getD_some]
      rw [g1, List.append_assoc]
    · rw [List.flatten_append, h3, g3]; simp [byteChars]
    · intro t ht
      rcases List.mem_append.mp ht with ht | ht
      · exact h4 t ht
      · exact g4 t ht

theorem plainPiece_ok {r : RVocab} {l tcs : List (List Nat)} (hi : Inited r.v l tcs r.bpe)
    {e : Env} {N : Nat} (he : EnvOK e N) (cs : List Nat) (hs : ∀ c ∈ cs, IsScalar c)
    (hlen : (utf8Encode cs).length ≤ N) (hsig : e.signed = true → ∀ x ∈ utf8Encode cs, x < 0x80)
    (hc : ByteComplete l (utf8Encode cs)) (result : List Nat) (cache : Cache)
    (hcache : CacheOK (tcs.map utf16Encode) cache) :
    ∃ ids cache', plainPiece e r (utf16Encode cs) cache result = .ok (some (result ++ ids), cache') ∧
      CacheOK (tcs.map utf16Encode) cache' ∧ Spells l ids (byteChars (utf8Encode cs)) := by
  obtain ⟨chs, h1, h2⟩ := regex_chunks e.matches_ he.regex cs hs
  subst h2
  have hb := utf8_bytes chs.flatten hs
  obtain ⟨new, cache1, g1, g2, g3, g4⟩ := bpeLoop_ok hi he chs
    (fun ch hch c hc => hs c (List.mem_flatten.mpr ⟨ch, hch, hc⟩)) hlen hsig hc [] cache hcache
  obtain ⟨ids, ds, k1, k2, k3, k4⟩ := idLoop_ok hi.holds hi.utf8 new g4 result
  refine ⟨ids, cache1, ?_, g2, ?_⟩
  · unfold plainPiece
    rw [h1, g1, res_bind_ok]
    simp only [List.nil_append]
    rw [k1, res_bind_ok]
  · have : ds = byteChars (utf8Encode chs.flatten) := by
      apply utf16Encode_inj k4 (byteChars_scalar hb)
      rw [k3, g3, byteChars_utf16 hb]
    rw [← this]; exact k2

theorem nextIsMask_eq (mask : List Nat) (ps : List (Bool × List Nat)) :
    nextIsMask mask ps = ps.head?.any (fun p => p.1 && p.2 == mask) := by
  cases ps with
  | nil => rfl
  | cons p ps => obtain ⟨a, b⟩ := p; rfl

theorem stripEnd_sub (ws : Nat → Bool) (cs : List Nat) : stripEnd ws cs <+: cs := by
  unfold stripEnd
  have h := List.takeWhile_append_dropWhile (p := ws) (l := cs.reverse)
  have := congrArg List.reverse h
  rw [List.reverse_append, List.reverse_reverse] at this
  exact ⟨_, this⟩

theorem subtextUnits_ok (ws : Nat → Bool) (bm : Bool) (cs : List Nat) (hs : ∀ c ∈ cs, IsScalar c) :
    ∃ cs', subtextUnits ws bm (utf8Encode cs) = .ok (utf16Encode cs') ∧ cs' <+: cs ∧
      utf8Encode cs' = keptBytes ws bm (utf8Encode cs) := by
  unfold subtextUnits keptBytes
  cases bm with
  | false =>
    refine ⟨cs, ?_, List.prefix_refl _, by simp⟩
    simp only [Bool.false_eq_true, if_false]
    exact ofUtf8_units cs hs
  | true =>
    refine ⟨stripEnd ws cs, ?_, stripEnd_sub ws cs, by simp [utf8Decode_encode cs hs]⟩
    obtain ⟨u, h1, h2⟩ := C06_rstrip ws (C07_utf8_round_trip cs hs).1 (utf16_units cs hs)
    simp only [if_true]
    rw [h1, res_bind_ok, readUnits_rep h2]
    have : toCodePoints (utf16Encode cs) = cs := toCodePoints_encode cs hs false
    rw [this]; rfl

theorem pieceLoop_ok {r : RVocab} {l tcs : List (List Nat)} (hi : Inited r.v l tcs r.bpe)
    {e : Env} {N : Nat} (he : EnvOK e N) (mask : List Nat) (pieces : List (Bool × List Nat))
    (hsp : ∀ p ∈ pieces, p.1 = true → p.2 ∈ l ∧ ∀ c ∈ p.2, c < 0x80)
    (hpl : ∀ p ∈ pieces, p.1 = false → (∃ cs, p.2 = utf8Encode cs ∧ ∀ c ∈ cs, IsScalar c) ∧
      p.2.length ≤ N ∧ (e.signed = true → ∀ x ∈ p.2, x < 0x80) ∧ ByteComplete l p.2)
    (cache : Cache) (hcache : CacheOK (tcs.map utf16Encode) cache) (result : List Nat) :
    ∃ idss, pieceLoop e r mask pieces cache result = .ok (some (result ++ idss.flatten)) ∧
      PieceIds l (keptPieces e.ws mask pieces) idss := by
  induction pieces generalizing cache result with
  | nil => exact ⟨[], by simp [pieceLoop], rfl⟩
  | cons p ps ih =>
    have ih := ih (fun q hq => hsp q (by simp [hq])) (fun q hq => hpl q (by simp [hq]))
    obtain ⟨sp, s⟩ := p
    cases sp with
    | true =>
      obtain ⟨hl, hasc⟩ := hsp (true, s) (by simp) rfl
      simp only at hl hasc
      obtain ⟨i, hix⟩ := List.getElem?_of_mem hl
      have hid := tokenToId_mem hi.holds _ i hix
      have hlt : i < INVALID := by
        have := (List.getElem?_eq_some_iff.mp hix).1
        have := hi.holds.2.2.1
        omega
      have hssc : ∀ c ∈ s, IsScalar c := fun c hc => by have := hasc c hc; left; omega
      obtain ⟨ids, h1, h2⟩ := ih cache hcache (result ++ [i])
      refine ⟨[i] :: ids, ?_, ⟨i, rfl, hix⟩, h2⟩
      · simp only [pieceLoop]
        have : specialPiece e.ws r.v (nextIsMask mask ps) s result = .ok (some (result ++ [i])) := by
          unfold specialPiece
          rw [hid, if_neg (by omega : ¬ i = INVALID)]
          split
          · obtain ⟨cs', g, _⟩ := subtextUnits_ok e.ws true s hssc
            rw [utf8_ascii s hasc] at g
            rw [g]; rfl
          · rfl
        rw [this, res_bind_ok]
        simp only
        rw [h1]; simp
    | false =>
      obtain ⟨⟨cs, e1, hcs⟩, hN, hsig, hbc⟩ := hpl (false, s) (by simp) rfl
      simp only at e1 hN hsig hbc
      subst e1
      obtain ⟨cs', g1, g2, g3⟩ := subtextUnits_ok e.ws (nextIsMask mask ps) cs hcs
      obtain ⟨tl, htl⟩ := g2
      have hcs' : ∀ c ∈ cs', IsScalar c := fun c hc => hcs c (by rw [← htl]; simp [hc])
      have hsub : ∀ x ∈ utf8Encode cs', x ∈ utf8Encode cs := by
        intro x hx; rw [← htl, utf8Encode_append]; simp [hx]
      have hlen' : (utf8Encode cs').length ≤ N := by
        have : (utf8Encode cs).length = (utf8Encode cs').length + (utf8Encode tl).length := by
          rw [← htl, utf8Encode_append, List.length_append]
        omega
      obtain ⟨ids1, cache1, k1, k2, k3⟩ := plainPiece_ok hi he cs' hcs' hlen'
        (fun h x hx => hsig h x (hsub x hx)) (fun x hx => hbc x (hsub x hx)) result cache hcache
      obtain ⟨ids, h1, h2⟩ := ih cache1 k2 (result ++ ids1)
      refine ⟨ids1 :: ids, ?_, ?_, h2⟩
      · simp only [pieceLoop]
        rw [g1, res_bind_ok, k1, res_bind_ok]
        simp only
        rw [h1]; simp
      · rw [g3, nextIsMask_eq] at k3
        exact k3

/-! ## Definedness and validity of ids -/

theorem bpe_defined (b : Bpe) (e : Bpe.Env) (hp : AnyPick e.pick) (text : Str)
    (hf : 9 * codepoints text * codepoints text ≤ e.fuel) (toks : List Str) (cache : Cache) :
    ∃ r, Bpe.tokenize b e text toks (some cache) = .ok r := by
  obtain ⟨n, S, h1, _⟩ := C24_reachable b e.draw e.pick hp text e.fuel hf
  have h2 : tokensOf b e text = .ok (wordToTokens b S) := by
    unfold tokensOf; rw [h1]; rfl
  unfold Bpe.tokenize
  split
  · exact ⟨_, rfl⟩
  · simp only [h2, res_bind_ok]
    cases (if b.dropout = 0 then find cache text else none : Option (List Str)) with
    | some c => exact ⟨_, rfl⟩
    | none =>
      simp only
      split <;> exact ⟨_, rfl⟩

theorem idLoop_defined (v : VocabT) (toks : List Str) (result : List Nat) :
    ∃ o, idLoop v toks result = .ok o := by
  induction toks generalizing result with
  | nil => exact ⟨_, rfl⟩
  | cons t toks ih =>
    obtain ⟨bs, h⟩ := encodeUnits_ne_ub t
    unfold idLoop
    rw [h, res_bind_ok]
    split
    · exact ⟨_, rfl⟩
    · exact ih _

theorem bpeLoop_defined (b : Bpe) {e : Env} {N : Nat} (he : EnvOK e N) (chs : List (List Nat))
    (hs : ∀ ch ∈ chs, ∀ c ∈ ch, IsScalar c)
    (hlen : (utf8Encode chs.flatten).length ≤ N)
    (hsig : e.signed = true → ∀ x ∈ utf8Encode chs.flatten, x < 0x80)
    (toks : List Str) (cache : Cache) :
    ∃ r, bpeLoop e b (chs.map utf16Encode) toks cache = .ok r := by
  induction chs generalizing toks cache with
  | nil => exact ⟨_, rfl⟩
  | cons ch chs ih =>
    simp only [List.flatten_cons, utf8Encode_append] at hlen hsig
    have hch := hs ch (by simp)
    have hb := utf8_bytes ch hch
    have hl1 : (utf8Encode ch).length ≤ N := by simp at hlen; omega
    obtain ⟨r, h1⟩ := bpe_defined b e.bpe he.pick (byteChars (utf8Encode ch))
      (by rw [byteChars_codepoints hb]
          exact Nat.le_trans (Nat.mul_le_mul (Nat.mul_le_mul_left 9 hl1) hl1) he.fuel) toks cache
    simp only [List.map_cons, bpeLoop]
    rw [encodeUnits_ok ch hch, res_bind_ok,
      encodeBytes_ok hb (fun h x hx => hsig h x (by simp [hx])), res_bind_ok, h1, res_bind_ok]
    exact ih (fun x hx => hs x (by simp [hx])) (by simp at hlen; omega)
      (fun h x hx => hsig h x (by simp [hx])) _ _

theorem plainPiece_defined (r : RVocab) {e : Env} {N : Nat} (he : EnvOK e N) (cs : List Nat)
    (hs : ∀ c ∈ cs, IsScalar c) (hlen : (utf8Encode cs).length ≤ N)
    (hsig : e.signed = true → ∀ x ∈ utf8Encode cs, x < 0x80) (cache : Cache) (result : List Nat) :
    ∃ o, plainPiece e r (utf16Encode cs) cache result = .ok o := by
  obtain ⟨chs, h1, h2⟩ := regex_chunks e.matches_ he.regex cs hs
  subst h2
  obtain ⟨p, g1⟩ := bpeLoop_defined r.bpe he chs
    (fun ch hch c hc => hs c (List.mem_flatten.mpr ⟨ch, hch, hc⟩)) hlen hsig [] cache
  obtain ⟨o, g2⟩ := idLoop_defined r.v p.1 result
  unfold plainPiece
  rw [h1, g1, res_bind_ok, g2, res_bind_ok]
  exact ⟨_, rfl⟩

theorem pieceLoop_defined (r : RVocab) {e : Env} {N : Nat} (he : EnvOK e N) (mask : List Nat)
    (pieces : List (Bool × List Nat)) (hsp : ∀ p ∈ pieces, p.1 = true → ∀ c ∈ p.2, c < 0x80)
    (hpl : ∀ p ∈ pieces, p.1 = false → (∃ cs, p.2 = utf8Encode cs ∧ ∀ c ∈ cs, IsScalar c) ∧
      p.2.length ≤ N ∧ (e.signed = true → ∀ x ∈ p.2, x < 0x80)) (cache : Cache) (result : List Nat) :
    ∃ o, pieceLoop e r mask pieces cache result = .ok o := by
  induction pieces generalizing cache result with
  | nil => exact ⟨_, rfl⟩
  | cons p ps ih =>
    have ih := ih (fun q hq => hsp q (by simp [hq])) (fun q hq => hpl q (by simp [hq]))
    obtain ⟨sp, s⟩ := p
    cases sp with
    | true =>
      have hasc := hsp (true, s) (by simp) rfl
      simp only at hasc
      have hssc : ∀ c ∈ s, IsScalar c := fun c hc => by have := hasc c hc; left; omega
      simp only [pieceLoop]
      have : ∃ o, specialPiece e.ws r.v (nextIsMask mask ps) s result = .ok o := by
        unfold specialPiece
        have h0 : ∃ x, (if nextIsMask mask ps = true then subtextUnits e.ws true s else .ok []) = .ok x := by
          split
          · obtain ⟨cs', g, _⟩ := subtextUnits_ok e.ws true s hssc
            rw [utf8_ascii s hasc] at g
            exact ⟨_, g⟩
          · exact ⟨_, rfl⟩
        obtain ⟨x, hx⟩ := h0
        rw [hx, res_bind_ok]
        split <;> exact ⟨_, rfl⟩
      obtain ⟨o, ho⟩ := this
      rw [ho, res_bind_ok]
      cases o with
      | none => exact ⟨_, rfl⟩
      | some r' => exact ih cache r'
    | false =>
      obtain ⟨⟨cs, e1, hcs⟩, hN, hsig⟩ := hpl (false, s) (by simp) rfl
      simp only at e1 hN hsig
      subst e1
      obtain ⟨cs', g1, g2, g3⟩ := subtextUnits_ok e.ws (nextIsMask mask ps) cs hcs
      obtain ⟨tl, htl⟩ := g2
      have hcs' : ∀ c ∈ cs', IsScalar c := fun c hc => hcs c (by rw [← htl]; simp [hc])
      have hsub : ∀ x ∈ utf8Encode cs', x ∈ utf8Encode cs := by
        intro x hx; rw [← htl, utf8Encode_append]; simp [hx]
      have hlen' : (utf8Encode cs').length ≤ N := by
        have : (utf8Encode cs).length = (utf8Encode cs').length + (utf8Encode tl).length := by
          rw [← htl, utf8Encode_append, List.length_append]
        omega
      obtain ⟨o, k1⟩ := plainPiece_defined r he cs' hcs' hlen'
        (fun h x hx => hsig h x (hsub x hx)) cache result
      simp only [pieceLoop]
      rw [g1, res_bind_ok, k1, res_bind_ok]
      cases o with
      | mk o c =>
        cases o with
        | none => exact ⟨_, rfl⟩
        | some r' => exact ih c r'

theorem bind_eq_ok {α β : Type} {x : Res α} {f : α → Res β} {y : β} (h : x.bind f = .ok y) :
    ∃ a, x = .ok a ∧ f a = .ok y := by
  cases x with
  | ok a => exact ⟨a, rfl, h⟩
  | ub => cases h
  | abort => cases h
  | hang => cases h

theorem idLoop_valid {v : VocabT} {l : List (List Nat)} (hh : Holds v l) (toks : List Str)
    (result out : List Nat) (h : idLoop v toks result = .ok (some out)) :
    ∀ id ∈ out, id ∈ result ∨ id < l.length := by
  induction toks generalizing result with
  | nil =>
    simp only [idLoop, Res.ok.injEq, Option.some.injEq] at h
    subst h; exact fun id hid => Or.inl hid
  | cons t toks ih =>
    unfold idLoop at h
    obtain ⟨bs, _, h⟩ := bind_eq_ok h
    split at h
    · simp at h
    · rename_i hne
      intro id hid
      rcases ih _ h id hid with h1 | h1
      · rcases List.mem_append.mp h1 with h1 | h1
        · exact Or.inl h1
        · simp only [List.mem_singleton] at h1
          rw [h1]
          exact Or.inr (tokenToId_lt hh bs hne).1
      · exact Or.inr h1

theorem pieceLoop_valid {r : RVocab} {l : List (List Nat)} (hh : Holds r.v l) (e : Env)
    (mask : List Nat) (pieces : List (Bool × List Nat)) (cache : Cache) (result out : List Nat)
    (h : pieceLoop e r mask pieces cache result = .ok (some out)) :
    ∀ id ∈ out, id ∈ result ∨ id < l.length := by
  induction pieces generalizing cache result with
  | nil =>
    simp only [pieceLoop, Res.ok.injEq, Option.some.injEq] at h
    subst h; exact fun id hid => Or.inl hid
  | cons p ps ih =>
    obtain ⟨sp, s⟩ := p
    cases sp with
    | true =>
      simp only [pieceLoop] at h
      obtain ⟨o, h1, h2⟩ := bind_eq_ok h
      cases o with
      | none => simp at h2
      | some r' =>
        simp only at h2
        unfold specialPiece at h1
        obtain ⟨_, _, h1⟩ := bind_eq_ok h1
        split at h1
        · simp at h1
        · rename_i hne
          simp only [Res.ok.injEq, Option.some.injEq] at h1
          subst h1
          intro id hid
          rcases ih _ _ h2 id hid with h3 | h3
          · rcases List.mem_append.mp h3 with h3 | h3
            · exact Or.inl h3
            · simp only [List.mem_singleton] at h3
              rw [h3]
              exact Or.inr (tokenToId_lt hh s hne).1
          · exact Or.inr h3
    | false =>
      simp only [pieceLoop] at h
      obtain ⟨u, _, h⟩ := bind_eq_ok h
      obtain ⟨o, h1, h2⟩ := bind_eq_ok h
      obtain ⟨o, c⟩ := o
      cases o with
      | none => simp at h2
      | some r' =>
        simp only at h2
        unfold plainPiece at h1
        obtain ⟨q, _, h1⟩ := bind_eq_ok h1
        obtain ⟨q2, h1', h3⟩ := bind_eq_ok h1
        simp only [Res.ok.injEq, Prod.mk.injEq] at h3
        obtain ⟨rfl, rfl⟩ := h3
        intro id hid
        rcases ih _ _ h2 id hid with h4 | h4
        · exact idLoop_valid hh _ _ _ h1' id h4
        · exact Or.inr h4

/-! ## The order of the special tokens -/

theorem splitLoop_order (keeps keeps' : List (List Nat)) (hmem : ∀ k, k ∈ keeps ↔ k ∈ keeps')
    (hfree : ∀ k ∈ keeps, ∀ k' ∈ keeps, k <+: k' → k = k') (fuel : Nat) (rest tmp : List Nat)
    (out : List (Bool × List Nat)) :
    splitLoop keeps fuel rest tmp out = splitLoop keeps' fuel rest tmp out := by
  have hfind : ∀ rest : List Nat, keeps.find? (fun k => k.isPrefixOf rest) =
      keeps'.find? (fun k => k.isPrefixOf rest) := by
    intro rest
    cases h1 : keeps.find? (fun k => k.isPrefixOf rest) with
    | none =>
      cases h2 : keeps'.find? (fun k => k.isPrefixOf rest) with
      | none => rfl
      | some k' =>
        have := List.find?_eq_none.mp h1 k' ((hmem k').mpr (List.mem_of_find?_eq_some h2))
        exact absurd (List.find?_some h2) this
    | some k =>
      have m1 := List.mem_of_find?_eq_some h1
      have p1 : k <+: rest := by simpa using List.find?_some h1
      cases h2 : keeps'.find? (fun k => k.isPrefixOf rest) with
      | none =>
        have := List.find?_eq_none.mp h2 k ((hmem k).mp m1)
        exact absurd (List.find?_some h1) this
      | some k' =>
        have m2 := (hmem k').mpr (List.mem_of_find?_eq_some h2)
        have p2 : k' <+: rest := by simpa using List.find?_some h2
        rcases Nat.le_total k.length k'.length with hl | hl
        · rw [hfree k m1 k' m2 (List.prefix_of_prefix_length_le p1 p2 hl)]
        · rw [hfree k' m2 k m1 (List.prefix_of_prefix_length_le p2 p1 hl)]
  fun_induction splitLoop keeps fuel rest tmp out with
  | case1 => simp [splitLoop]
  | case2 => simp [splitLoop]
  | case3 fuel c rest tmp out keep hf ih =>
    rw [splitLoop, ← hfind, hf]
    exact ih
  | case4 fuel c rest tmp out hf ih =>
    rw [splitLoop, ← hfind, hf]
    exact ih

theorem splitLoop_stuck (keeps : List (List Nat)) (h0 : [] ∈ keeps) (text : List Nat) (ht : text ≠ [])
    (hn : ∀ k ∈ keeps, k ≠ [] → ¬ k <+: text) (fuel : Nat) (tmp : List Nat)
    (out : List (Bool × List Nat)) : splitLoop keeps fuel text tmp out = .hang := by
  induction fuel generalizing tmp out with
  | zero => cases text with
    | nil => exact absurd rfl ht
    | cons c t => rfl
  | succ fuel ih =>
    cases text with
    | nil => exact absurd rfl ht
    | cons c t =>
      have : keeps.find? (fun k => k.isPrefixOf (c :: t)) = some [] := by
        cases h : keeps.find? (fun k => k.isPrefixOf (c :: t)) with
        | none => exact absurd (by simp) (List.find?_eq_none.mp h [] h0)
        | some k =>
          by_cases hk : k = []
          · rw [hk]
          · exact absurd (by simpa using List.find?_some h) (hn k (List.mem_of_find?_eq_some h) hk)
      rw [splitLoop, this]
      simp only [List.length_nil, List.drop_zero]
      exact ih _ _

end Berts.Roberta
