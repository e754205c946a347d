import Verif.Props.RobertaLog
import Verif.Spec.RobertaStory

/-! # Lemmas about the whole log of RoBERTa's tokenizer -/

namespace Berts.Roberta

open Berts.Unicode Berts.Vocab Berts.Bpe Berts.Log Berts.Format Berts.Spec Berts.Props
open Berts.Load (LogM lift say sayF sayWhen Says says_pure says_lift says_say says_sayF)
open Berts.Bert (runLines ok_bind')

/-! ## The object after initialization -/

/-- The ids of the symbols before any merge if unknown characters are fused. -/
theorem addIds_first (b : Bpe) (u : Nat) (h0 : b.unk ≠ []) (h : b.tokenToId b.unk = some u) (hf : b.fuseUnk = true)
    (l : List (List Nat)) (bs : List Nat) (acc : List (Nat × Nat)) (cs : List (Str × Nat))
    (hc : cs.map (fun c => b.tokenToId c.1) = bs.map fun x => l.idxOf? (utf8Of (byteChar x))) :
    (addIds b acc cs).map (·.1) = acc.map (·.1) ++ firstIds l u (acc.getLast?.map (·.1)) bs := by
  induction bs generalizing acc cs with
  | nil =>
    have : cs = [] := by simpa using hc
    subst this
    simp [addIds, firstIds]
  | cons x bs ih =>
    cases cs with
    | nil => simp at hc
    | cons c cs =>
      obtain ⟨s, len⟩ := c
      simp only [List.map_cons, List.cons.injEq] at hc
      obtain ⟨hx, hc⟩ := hc
      rw [addIds, firstIds]
      cases hi : l.idxOf? (utf8Of (byteChar x)) with
      | some i =>
        rw [hi] at hx
        simp only [hx]
        rw [ih _ _ hc]
        simp
      | none =>
        rw [hi] at hx
        simp only [hx, h0, h, hf, ne_eq, not_false_eq_true, if_true, Bool.not_true, Bool.false_or]
        cases hg : acc.getLast? with
        | none =>
          simp only [Bool.not_false, if_true, Option.map_none, reduceCtorEq, if_false]
          rw [ih _ _ hc]
          simp
        | some p =>
          have ih0 := ih acc cs hc
          rw [hg] at ih0
          by_cases hl : p.1 = u
          · simp [hl] at ih0 ⊢
            exact ih0
          · simp only [Option.map_some, Option.some.injEq, hl, Bool.not_eq_true', beq_eq_false_iff_ne, ne_eq,
              not_false_eq_true, if_true, if_false]
            rw [ih _ _ hc]
            simp

/-- What is known of the object after `initBpe`. -/
structure Ready (l : List (List Nat)) (data : List Nat) (u : Nat) (b : Bpe) : Prop where
  table : IdTable l data (table b)
  drop : b.dropout = 0
  start : ∀ bs, Bytes bs → startIds b (byteChars bs) = firstIds l u none bs
  word : ∀ (e : Bpe.Env), RightPick e.pick → ∀ bs, Bytes bs → 9 * bs.length * bs.length ≤ e.fuel →
    ∃ out, Bpe.tokensOf b e (byteChars bs) = .ok (out.map b.shown) ∧
      RefTrace (Props.table b) (firstIds l u none bs) (wordMerges b e (byteChars bs)) out ∧
      Normal (Props.table b) out ∧ ∀ i ∈ out, i < l.length
  shown : ∀ i t, l[i]? = some t → unitText (b.shown i) = t

theorem initBpe_loaded {merge : Option MergeTensor} {order : List (Str × Nat) → List (Str × Nat)}
    {v : VocabT} {sp : Special} {r : RVocab} {l tcs : List (List Nat)}
    (ho : ∀ m, (order m).Perm m) (hh : Holds v l) (hu : Utf8Vocab l tcs)
    (h : initBpe merge order v sp = .ok (some r)) {u : List Nat} (h1 : idToToken v sp.unk = .ok u)
    (hasc : ∀ c ∈ u, c < 0x80) :
    ∃ data bv, merge = some ⟨true, 1, data⟩ ∧ data.length % 3 = 0 ∧ OneToOne bv ∧
      (Bpe.new (utf16Encode u) 0 true).loadVocab bv (mergePairs data) = .ok (true, r.bpe) ∧
      ∀ t id, (t, id) ∈ bv ↔ (tcs.map utf16Encode)[id]? = some t := by
  unfold initBpe at h
  have husc : ∀ c ∈ u, IsScalar c := fun c hc => by have := hasc c hc; left; omega
  have h2 : (UImpl.ofUtf8 u).readUnits = .ok (utf16Encode u) := by
    have := ofUtf8_units u husc
    rwa [utf8_ascii u hasc] at this
  rw [h1, res_bind_ok, h2, res_bind_ok, hh.1, tokenUnits_ok hu, res_bind_ok] at h
  cases h3 : checkMerge merge with
  | none => rw [h3] at h; cases h
  | some ms =>
  rw [h3] at h
  simp only at h
  have hnd := hu.nodup hh.2.1
  rw [emplaceAll_nodup [] 0 _ (by simpa using hnd), List.nil_append] at h
  generalize hb : (order ((tcs.map utf16Encode).zipIdx 0)) = bv at h
  have hperm : bv.Perm ((tcs.map utf16Encode).zipIdx 0) := hb ▸ ho _
  cases h4 : (Bpe.new (utf16Encode u) 0 true).loadVocab bv ms with
  | ub => rw [h4] at h; cases h
  | abort => rw [h4] at h; cases h
  | hang => rw [h4] at h; cases h
  | ok q =>
  obtain ⟨okb, b⟩ := q
  rw [h4, res_bind_ok] at h
  cases okb with
  | false => simp at h
  | true =>
  simp only [if_true, Res.ok.injEq, Option.some.injEq] at h
  subst h
  have hmem : ∀ t id, (t, id) ∈ bv ↔ (tcs.map utf16Encode)[id]? = some t := by
    intro t id
    rw [hperm.mem_iff, List.mem_zipIdx_iff_getElem?]
  have hone : OneToOne bv := by
    refine ⟨?_, ?_, ?_⟩
    · rw [(hperm.map (·.1)).nodup_iff]
      simpa using hnd
    · rw [(hperm.map (·.2)).nodup_iff]
      simp only [List.zipIdx_map_snd]
      exact List.nodup_range'
    · intro p hp
      obtain ⟨t, id⟩ := p
      have := List.mem_of_getElem? ((hmem t id).mp hp)
      obtain ⟨c, hc, rfl⟩ := List.mem_map.mp this
      exact utf16_units c (hu.scalar c hc)
  obtain ⟨data, hmerge, hms, hmod⟩ : ∃ data, merge = some ⟨true, 1, data⟩ ∧ ms = mergePairs data ∧
      data.length % 3 = 0 := by
    unfold checkMerge at h3
    cases merge with
    | none => cases h3
    | some t =>
      obtain ⟨i32, nd, data⟩ := t
      simp only at h3
      split at h3
      · cases h3
      split at h3
      · cases h3
      split at h3
      · cases h3
      rename_i a1 a2 a3
      refine ⟨data, ?_, by simpa using h3.symm, by omega⟩
      simp_all
  exact ⟨data, bv, hmerge, hmod, hone, hms ▸ h4, hmem⟩

/-- Entries of the two forms of the vocabulary. -/
theorem entry_iff {l tcs : List (List Nat)} (hu : Utf8Vocab l tcs) {cs : List Nat} (hs : ∀ c ∈ cs, IsScalar c)
    (i : Nat) : (tcs.map utf16Encode)[i]? = some (utf16Encode cs) ↔ l[i]? = some (utf8Encode cs) := by
  rw [hu.enc]
  simp only [List.getElem?_map, Option.map_eq_some_iff]
  constructor
  · rintro ⟨t, h1, h2⟩
    exact ⟨t, h1, by rw [utf16Encode_inj (hu.scalar t (List.mem_of_getElem? h1)) hs h2]⟩
  · rintro ⟨t, h1, h2⟩
    exact ⟨t, h1, by rw [utf8Encode_inj (hu.scalar t (List.mem_of_getElem? h1)) hs h2]⟩

theorem idxOf_iff {l : List (List Nat)} (hn : l.Nodup) (s : List Nat) (i : Nat) :
    l.idxOf? s = some i ↔ l[i]? = some s := by
  induction l generalizing i with
  | nil => simp [List.idxOf?]
  | cons t l ih =>
    rw [List.nodup_cons] at hn
    rw [List.idxOf?_cons]
    by_cases h : t = s
    · subst h
      simp only [beq_self_eq_true, if_true, Option.some.injEq]
      cases i with
      | zero => simp
      | succ i =>
        simp only [List.getElem?_cons_succ]
        exact ⟨fun h => by omega, fun h => absurd (List.mem_of_getElem? h) hn.1⟩
    · have : (t == s) = false := by simpa using h
      rw [this]
      simp only [Bool.false_eq_true, if_false]
      cases i with
      | zero => simp [h]
      | succ i => simpa using ih hn.2 i

theorem idOfChar {l tcs : List (List Nat)} (hn : l.Nodup) (hu : Utf8Vocab l tcs) {b : Bpe} {bv : List (Str × Nat)}
    (hl : Loaded b bv) (hmem : ∀ t id, (t, id) ∈ bv ↔ (tcs.map utf16Encode)[id]? = some t) (cs : List Nat)
    (hs : ∀ c ∈ cs, IsScalar c) : b.tokenToId (utf16Encode cs) = l.idxOf? (utf8Encode cs) := by
  apply Option.ext
  intro i
  rw [hl.tok, hmem, entry_iff hu hs, idxOf_iff hn]

theorem ready {merge : Option MergeTensor} {order : List (Str × Nat) → List (Str × Nat)}
    {v : VocabT} {sp : Special} {r : RVocab} {l tcs : List (List Nat)}
    (ho : ∀ m, (order m).Perm m) (hh : Holds v l) (hu : Utf8Vocab l tcs)
    (h : initBpe merge order v sp = .ok (some r)) {u : List Nat} (h1 : l[sp.unk]? = some u) (hne : u ≠ [])
    (hasc : ∀ c ∈ u, c < 0x80) (hmax : ∀ t, merge = some t → t.data.length ≤ 3 * 2 ^ 32) :
    ∃ data, merge = some ⟨true, 1, data⟩ ∧ Ready l data sp.unk r.bpe := by
  obtain ⟨data, bv, hm, hmod, hone, hload, hmem⟩ := initBpe_loaded ho hh hu h (ascii_special hh h1 hasc) hasc
  have husc : ∀ c ∈ u, IsScalar c := fun c hc => by have := hasc c hc; left; omega
  have hcfg : GoodConfig (Bpe.new (utf16Encode u) 0 true) :=
    ⟨by simp [Bpe.new], ⟨[], rfl, by simp⟩, ⟨[], rfl, by simp⟩, ⟨u, rfl, husc⟩, fun _ => by
      show codepoints [] < codepoints (utf16Encode u)
      have := congrArg List.length (toCodePoints_encode u husc false)
      have h3 : codepoints (utf16Encode u) = u.length := by simpa [codepoints, toCodePoints] using this
      rw [h3]
      have : 0 < u.length := by cases u <;> simp_all
      exact this⟩
  obtain ⟨hl, f1, f2, f3, f4, f5⟩ := loaded_of_load hcfg.empty hone.keys hone.ids hone.units hload
  generalize r.bpe = b at *
  have hlen3 := hmax _ hm
  simp only at hlen3
  obtain ⟨hl3, hget⟩ := mergePairs_get data hmod
  have hlen : (mergePairs data).length ≤ 2 ^ 32 := by omega
  have hkey : ∀ (x : Nat) (t : Str), (t, x) ∈ bv ↔ ∃ tc, (∀ c ∈ tc, IsScalar c) ∧ t = utf16Encode tc ∧ l[x]? = some (utf8Encode tc) := by
    intro x t
    rw [hmem]
    constructor
    · intro ht
      obtain ⟨tc, h1, rfl⟩ := List.mem_map.mp (List.mem_of_getElem? ht)
      exact ⟨tc, hu.scalar tc h1, rfl, (entry_iff hu (hu.scalar tc h1) x).mp ht⟩
    · rintro ⟨tc, h1, rfl, h2⟩
      exact (entry_iff hu h1 x).mpr h2
  have hscal : ∀ (x : Nat) (t : List Nat), l[x]? = some t → ∃ tc, (∀ c ∈ tc, IsScalar c) ∧ t = utf8Encode tc := by
    intro x t ht
    have := List.mem_of_getElem? ht
    rw [hu.enc] at this
    obtain ⟨tc, h1, rfl⟩ := List.mem_map.mp this
    exact ⟨tc, hu.scalar tc h1, rfl⟩
  have hstart : ∀ bs, Bytes bs → startIds b (byteChars bs) = firstIds l sp.unk none bs := by
    intro bs hbs
    rw [startIds, initSyms_ids, initIds]
    have hc := addIds_first b sp.unk (by
        rw [f1]
        show utf16Encode u ≠ []
        intro h0
        have := toCodePoints_encode u husc false
        rw [show (eachCp false (utf16Encode u)).map (·.c) = toCodePoints (utf16Encode u) from rfl, h0] at this
        exact hne this.symm)
      (by
        rw [f1, hl.tok, hkey]
        exact ⟨u, husc, rfl, by rw [utf8_ascii u hasc]; exact h1⟩)
      (by rw [f3]; rfl) l bs []
      (charStrings b (eachCp false (byteChars bs)).length 0 (eachCp false (byteChars bs))) (by
        rw [lookups_eq, lookups, f4, f5]
        show (charTokens [] [] _).map _ = _
        rw [charTokens_plain, byteChars_cps hbs]
        simp only [byteChars, List.map_map]
        apply List.map_congr_left
        intro x hx
        have hlt := byteChar_lt x (hbs x hx)
        have := idOfChar hh.2.1 hu hl hmem [byteChar x] (by simp [IsScalar]; omega)
        simpa [utf16Encode, utf8Encode] using this)
    simpa using hc
  refine ⟨data, hm, ⟨?_, f2, hstart, ?_, ?_⟩⟩
  · intro i j rk n
    show find b.merge (i, j) = some (rk, n) ↔ _
    rw [C25_entries _ b hcfg.empty bv (mergePairs data) hone hlen hload i j rk n]
    have hlast : IsLastAt (mergePairs data) (i, j) rk ↔ (data[3 * rk]? = some i ∧ data[3 * rk + 1]? = some j ∧
        ∀ k, data[3 * k]? = some i → data[3 * k + 1]? = some j → k ≤ rk) := by
      unfold IsLastAt
      simp only [hget]
      exact ⟨fun h => ⟨h.1.1, h.1.2, fun k h1 h2 => h.2 k ⟨h1, h2⟩⟩, fun h => ⟨⟨h.1, h.2.1⟩, fun k h1 => h.2.2 k h1.1 h1.2⟩⟩
    rw [hlast]
    refine and_congr_right fun _ => ?_
    have hmt : ∀ t0 t1, mergedToken (codepoints (Bpe.new (utf16Encode u) 0 true).prefx) t0 t1 = t0 ++ t1 := by
      intro t0 t1; rfl
    simp only [hmt, hkey]
    constructor
    · rintro ⟨_, _, ⟨a, a1, rfl, a2⟩, ⟨c, c1, rfl, c2⟩, ⟨d, d1, d2, d3⟩⟩
      refine ⟨_, _, a2, c2, ?_⟩
      rw [← utf16Encode_append] at d2
      have : a ++ c = d := utf16Encode_inj (by
        intro x hx
        rcases List.mem_append.mp hx with hx | hx
        · exact a1 x hx
        · exact c1 x hx) d1 d2
      rw [← utf8Encode_append, this, d3]
    · rintro ⟨a, c, ha, hc, hn⟩
      obtain ⟨ac, a1, rfl⟩ := hscal _ _ ha
      obtain ⟨cc, c1, rfl⟩ := hscal _ _ hc
      refine ⟨_, _, ⟨ac, a1, rfl, ha⟩, ⟨cc, c1, rfl, hc⟩, ⟨ac ++ cc, ?_, (utf16Encode_append _ _).symm, by
        rw [utf8Encode_append]; exact hn⟩⟩
      intro x hx
      rcases List.mem_append.mp hx with hx | hx
      · exact a1 x hx
      · exact c1 x hx
  · intro e hp bs hbs hf
    have hlt : ∀ c ∈ byteChars bs, c < 0x10000 := by
      intro c hc'
      obtain ⟨x, hx, rfl⟩ := List.mem_map.mp hc'
      have := byteChar_lt x (hbs x hx)
      omega
    obtain ⟨n, S, hS, hr⟩ := C22_reference_partial _ b hcfg bv _ hone hload (by simp [Bpe.new]) e.draw e.pick hp
      (byteChars bs) hlt e.fuel (by rw [byteChars_codepoints hbs]; exact hf)
    have htr := word_refTrace hl hone.ids e (by rw [f2]; simp [Bpe.new]) hp [] [] u f4 (by simp) f5 (by simp) f1 husc
      (fun h => by cases u <;> simp_all) (byteChars bs) hlt hS
    have hs0 := hstart bs hbs
    refine ⟨S.map (·.id), ?_, by rw [← hs0]; exact htr, hr.2, ?_⟩
    · unfold Bpe.tokensOf
      rw [hS, res_bind_ok, wordToTokens_eq]
    · have h0 : ∀ i ∈ startIds b (byteChars bs), i < l.length := by
        rw [hs0]
        have hul : sp.unk < l.length := (List.getElem?_eq_some_iff.mp h1).1
        have : ∀ prev bs, ∀ i ∈ firstIds l sp.unk prev bs, i < l.length := by
          intro prev bs
          induction bs generalizing prev with
          | nil => simp [firstIds]
          | cons x bs ih =>
            intro i hi
            rw [firstIds] at hi
            split at hi
            · rename_i j hj
              rcases List.mem_cons.mp hi with rfl | hi
              · exact (List.getElem?_eq_some_iff.mp ((idxOf_iff hh.2.1 _ _).mp hj)).1
              · exact ih _ i hi
            · split at hi
              · exact ih _ i hi
              · rcases List.mem_cons.mp hi with rfl | hi
                · exact hul
                · exact ih _ i hi
        exact this none bs
      have hstar := hr.1
      generalize startIds b (byteChars bs) = w at hstar h0
      generalize S.map (·.id) = z at hstar
      induction hstar with
      | refl => exact h0
      | head hs _ ih =>
        apply ih
        obtain ⟨p, a, c, q, r, n, e1, e2, e3, _⟩ := hs
        obtain ⟨_, _, _, _, hn⟩ := hl.mrg a c r n e2
        have hn := (List.getElem?_eq_some_iff.mp ((hmem _ _).mp hn)).1
        have hn : n < l.length := by rw [hu.enc]; simpa using hn
        intro id hid
        rw [e3] at hid
        rw [List.mem_append, List.mem_cons] at hid
        rcases hid with h | rfl | h
        · exact h0 id (by rw [e1]; simp [h])
        · exact hn
        · exact h0 id (by rw [e1]; simp [h])
  · intro i t ht
    obtain ⟨tc, h2, rfl⟩ := hscal _ _ ht
    have : b.shown i = utf16Encode tc := by
      unfold Bpe.shown
      rw [(hl.idt (utf16Encode tc) i).mpr ((hkey _ _).mpr ⟨tc, h2, rfl, ht⟩)]
    rw [this, text_utf16 h2]

/-! ## Words -/

/-- The cache holds the words seen. -/
structure CacheIs (l : List (List Nat)) (b : Bpe) (seen : List (List Nat × List Nat)) (cache : Cache) : Prop where
  hit : ∀ bs, Bytes bs → bs ≠ [] → ∀ toks, find cache (byteChars bs) = some toks →
    ∃ out, (bs, out) ∈ seen ∧ toks = out.map b.shown
  miss : ∀ bs, Bytes bs → bs ≠ [] → find cache (byteChars bs) = none → ∀ o, (bs, o) ∉ seen
  empty : ([], []) ∈ seen
  range : ∀ p ∈ seen, ∀ i ∈ p.2, i < l.length

theorem cacheIs_nil (l : List (List Nat)) (b : Bpe) : CacheIs l b [([], [])] [] := by
  refine ⟨?_, ?_, by simp, by simp⟩
  · intro bs _ _ toks h; simp [find] at h
  · intro bs _ hne _ o h; simp at h; exact hne h.1

theorem wordL_told {l : List (List Nat)} {data : List Nat} {u : Nat} {b : Bpe} (hr : Ready l data u b) (ws : Nat → Bool)
    {e : Bpe.Env} (hp : RightPick e.pick) (bs : List Nat) (hb : Bytes bs) (hf : 9 * bs.length * bs.length ≤ e.fuel)
    (toks : List Str) (cache : Cache) (seen : List (List Nat × List Nat)) (hc : CacheIs l b seen cache) :
    ∃ out ls cache' seen', Says (Bpe.tokenizeL b e (byteChars bs) toks (some cache))
        (.ok (toks ++ out.map b.shown, some cache')) ls ∧ CacheIs l b seen' cache' ∧ (∀ i ∈ out, i < l.length) ∧
      ∀ jobs ls2 ids2, Told l (table b) u ws seen' jobs ls2 ids2 →
        Told l (table b) u ws seen (.word bs :: jobs) (ls ++ ls2) (out ++ ids2) := by
  have hs := bpeL_says b e (byteChars bs) toks (some cache)
  by_cases hne : bs = []
  · subst hne
    refine ⟨[], bpeStart [], cache, seen, ?_, hc, by simp, fun jobs ls2 ids2 h => .again hc.empty h⟩
    refine hs.congr ?_ ?_
    · simp [Bpe.tokenize, byteChars]
    · simp [bpeOf, startOf, bpeStart, byteChars]
  · have hne' : byteChars bs ≠ [] := by simpa [byteChars] using hne
    cases hfd : find cache (byteChars bs) with
    | some ts =>
      obtain ⟨out, h1, h2⟩ := hc.hit bs hb hne ts hfd
      refine ⟨out, bpeStart (byteChars bs), cache, seen, ?_, hc, hc.range _ h1, fun jobs ls2 ids2 h => .again h1 h⟩
      refine hs.congr ?_ ?_
      · unfold Bpe.tokenize
        rw [if_neg hne']
        simp only [if_pos hr.drop, hfd, h2]
      · unfold bpeOf
        simp [cached, hne', hr.drop, hfd, startOf, bpeStart]
    | none =>
      obtain ⟨out, h1, h2, h3, h4⟩ := hr.word e hp bs hb hf
      have hlines := bpeOf_lines (cache := some cache) hne' (by simp [cached, hr.drop, hfd]) h1
      rw [hr.start bs hb] at hlines
      refine ⟨out, _, assign cache (byteChars bs) (out.map b.shown), (bs, out) :: seen,
        hs.congr ?_ hlines, ?_, h4, fun jobs ls2 ids2 h => .fresh (hc.miss bs hb hne hfd) h2 h3 h⟩
      · unfold Bpe.tokenize
        rw [if_neg hne']
        simp only [if_pos hr.drop, hfd]
        rw [h1, ok_bind']
      · refine ⟨?_, ?_, by simp [hc.empty], ?_⟩
        · intro bs' hb' hne2 ts ht
          rw [find_assign] at ht
          split at ht
          · rename_i heq
            cases Option.some.inj ht
            rw [byteChars_inj hb' hb heq]
            exact ⟨out, by simp, rfl⟩
          · obtain ⟨o, g1, g2⟩ := hc.hit bs' hb' hne2 ts ht
            exact ⟨o, by simp [g1], g2⟩
        · intro bs' hb' hne2 ht o
          rw [find_assign] at ht
          split at ht
          · cases ht
          · rename_i heq
            rw [List.mem_cons, not_or]
            refine ⟨fun h => heq ?_, hc.miss bs' hb' hne2 ht o⟩
            injection h with h
            rw [h]
        · intro p hp' i hi
          rcases List.mem_cons.mp hp' with rfl | hp'
          · exact h4 i hi
          · exact hc.range p hp' i hi

theorem bpeLoopL_told {l : List (List Nat)} {data : List Nat} {u : Nat} {b : Bpe} (hr : Ready l data u b)
    (e : Env) {N : Nat} (hp : RightPick e.bpe.pick) (hN : 9 * N * N ≤ e.bpe.fuel) (chs : List (List Nat))
    (hs : ∀ ch ∈ chs, ∀ c ∈ ch, IsScalar c) (hlen : (utf8Encode chs.flatten).length ≤ N)
    (hsig : e.signed = true → ∀ x ∈ utf8Encode chs.flatten, x < 0x80)
    (toks : List Str) (cache : Cache) (seen : List (List Nat × List Nat)) (hc : CacheIs l b seen cache) :
    ∃ out ls cache' seen', Says (bpeLoopL e b (chs.map utf16Encode) toks cache)
        (.ok (toks ++ out.map b.shown, cache')) ls ∧ CacheIs l b seen' cache' ∧ (∀ i ∈ out, i < l.length) ∧
      ∀ jobs ls2 ids2, Told l (table b) u e.ws seen' jobs ls2 ids2 →
        Told l (table b) u e.ws seen (chs.map (fun w => .word (utf8Encode w)) ++ jobs) (ls ++ ls2) (out ++ ids2) := by
  induction chs generalizing toks cache seen with
  | nil => exact ⟨[], [], cache, seen, (says_pure _).congr (by simp) rfl, hc, by simp, fun _ _ _ h => h⟩
  | cons ch chs ih =>
    simp only [List.flatten_cons, utf8Encode_append] at hlen hsig
    have hch := hs ch (by simp)
    have hb := utf8_bytes ch hch
    have hl1 : (utf8Encode ch).length ≤ N := by simp at hlen; omega
    have hfuel := Nat.le_trans (Nat.mul_le_mul (Nat.mul_le_mul_left 9 hl1) hl1) hN
    obtain ⟨out1, ls1, cache1, seen1, a1, a2, a3, a4⟩ := wordL_told hr e.ws hp (utf8Encode ch) hb hfuel toks cache seen hc
    obtain ⟨out2, ls2, cache2, seen2, b1, b2, b3, b4⟩ := ih (fun x hx => hs x (by simp [hx]))
      (by simp at hlen; omega) (fun h x hx => hsig h x (by simp [hx])) (toks ++ out1.map b.shown) cache1 seen1 a2
    refine ⟨out1 ++ out2, ls1 ++ ls2, cache2, seen2, ?_, b2, ?_, ?_⟩
    · rw [List.map_cons, bpeLoopL, encodeUnits_ok ch hch]
      refine ((says_lift (Res.ok (utf8Encode ch))).then (ls' := ls1 ++ ls2) ?_).congr rfl (by simp)
      rw [encodeBytes_ok hb (fun h x hx => hsig h x (by simp [hx]))]
      refine ((says_lift (Res.ok (byteChars (utf8Encode ch)))).then (ls' := ls1 ++ ls2) ?_).congr rfl (by simp)
      exact (a1.then b1).congr (by simp) rfl
    · intro i hi
      rcases List.mem_append.mp hi with hi | hi
      · exact a3 i hi
      · exact b3 i hi
    · intro jobs ls3 ids3 h
      simp only [List.map_cons, List.cons_append, List.append_assoc]
      exact a4 _ _ _ (b4 _ _ _ h)

theorem idLoopL_told {l : List (List Nat)} {data : List Nat} {u : Nat} {b : Bpe} (hr : Ready l data u b) {v : VocabT}
    (hv : Holds v l) (ids : List Nat) (hi : ∀ i ∈ ids, i < l.length) (result : List Nat) :
    Says (idLoopL v (ids.map b.shown) result) (.ok (some (result ++ ids))) [] := by
  induction ids generalizing result with
  | nil => exact (says_pure _).congr (by simp) rfl
  | cons i ids ih =>
    obtain ⟨w, _, h1, _⟩ := encode_twice (b.shown i)
    have hlt := hi i (by simp)
    have hget : l[i]? = some l[i] := List.getElem?_eq_getElem hlt
    have hid := tokenToId_mem hv _ i hget
    have hne : ¬ i = INVALID := by have := hv.2.2.1; omega
    rw [List.map_cons, idLoopL, h1]
    refine ((says_lift (Res.ok (unitText (b.shown i), w))).then (ls' := []) ?_)
    simp only [hr.shown i _ hget]
    have h2 := tokenToIdL_says v l[i]
    rw [hid, if_neg hne] at h2
    refine h2.then (ls' := []) ?_
    rw [if_neg hne]
    exact (ih (fun j hj => hi j (by simp [hj])) (result ++ [i])).congr (by simp) rfl

theorem plainPieceL_told {l : List (List Nat)} {data : List Nat} {u : Nat} {r : RVocab} (hr : Ready l data u r.bpe)
    (hv : Holds r.v l) (e : Env) {N : Nat} (hx : RegexContract e.matches_) (hp : RightPick e.bpe.pick)
    (hN : 9 * N * N ≤ e.bpe.fuel)
    (cs : List Nat) (hs : ∀ c ∈ cs, IsScalar c) (hlen : (utf8Encode cs).length ≤ N)
    (hsig : e.signed = true → ∀ x ∈ utf8Encode cs, x < 0x80) (result : List Nat) (cache : Cache)
    (seen : List (List Nat × List Nat)) (hc : CacheIs l r.bpe seen cache) :
    ∃ (words : List (List Nat)) (out : List Nat) (ls : List (Int × List Nat)) (cache' : Cache)
      (seen' : List (List Nat × List Nat)), words.flatten = cs ∧ words.map utf16Encode =
        (if cs = [] then [] else cutAt (utf16Encode cs) 0 (e.matches_ (utf16Encode cs))) ∧
      Says (plainPieceL e r (utf16Encode cs) cache result) (.ok (some (result ++ out), cache')) ls ∧
      CacheIs l r.bpe seen' cache' ∧
      ∀ jobs ls2 ids2, Told l (table r.bpe) u e.ws seen' jobs ls2 ids2 →
        Told l (table r.bpe) u e.ws seen (words.map (fun w => .word (utf8Encode w)) ++ jobs) (ls ++ ls2) (out ++ ids2) := by
  obtain ⟨chs, h1, h2⟩ := regex_chunks e.matches_ hx cs hs
  have hcut : chs.map utf16Encode =
      (if cs = [] then [] else cutAt (utf16Encode cs) 0 (e.matches_ (utf16Encode cs))) := by
    rw [← h1]
    split
    · rename_i h0; subst h0; rfl
    · rename_i h0
      rw [C08_split_exact _ _ _ (by
        intro h; apply h0
        have := congrArg toCodePoints h
        rw [show toCodePoints (utf16Encode cs) = cs from toCodePoints_encode cs hs false] at this
        exact this)]
      rfl
  have hs' : ∀ ch ∈ chs, ∀ c ∈ ch, IsScalar c :=
    fun ch hch c hc => hs c (h2 ▸ List.mem_flatten.mpr ⟨ch, hch, hc⟩)
  obtain ⟨out, ls, cache1, seen1, g1, g2, g3, g4⟩ := bpeLoopL_told hr e hp hN chs hs' (by rw [h2]; exact hlen)
    (by rw [h2]; exact hsig) [] cache seen hc
  refine ⟨chs, out, ls, cache1, seen1, h2, hcut, ?_, g2, g4⟩
  unfold plainPieceL
  rw [h1]
  refine (g1.then (ls' := []) ?_).congr rfl (by simp)
  simp only [List.nil_append]
  exact (idLoopL_told hr hv out g3 result).then (ls' := []) (says_pure _)

/-! ## Pieces -/

theorem specialPieceL_told {l : List (List Nat)} {v : VocabT} (hv : Holds v l) (ws : Nat → Bool) (bm : Bool)
    {s : List Nat} {i : Nat} (hi : l[i]? = some s) (hasc : ∀ c ∈ s, c < 0x80) (result : List Nat) :
    Says (specialPieceL ws v bm s result) (.ok (some (result ++ [i])))
      [line 0 (bytes! "special token: " ++ shownSpecial ws bm s ++ bytes! " (" ++ decimal i ++ bytes! ")")] := by
  have hssc : ∀ c ∈ s, IsScalar c := fun c hc => by have := hasc c hc; left; omega
  obtain ⟨w, hw⟩ : ∃ w, (if bm then (UImpl.ofUtf8 s).rstrip ws else Res.ok (UImpl.ofUtf8 s)) = .ok w := by
    cases bm with
    | false => exact ⟨_, rfl⟩
    | true =>
      obtain ⟨w, h1, _⟩ := C06_rstrip ws (C07_utf8_round_trip s hssc).1 (utf16_units s hssc)
      rw [utf8_ascii s hasc] at h1
      exact ⟨w, h1⟩
  obtain ⟨w', he⟩ := special_shown ws bm hw
  have hid := tokenToId_mem hv _ i hi
  have hne : ¬ i = INVALID := by
    have := (List.getElem?_eq_some_iff.mp hi).1
    have := hv.2.2.1
    omega
  unfold specialPieceL
  rw [hw]
  refine (says_lift (Res.ok w)).then (ls' := [_]) ?_
  have h2 := tokenToIdL_says v s
  rw [hid, if_neg hne] at h2
  refine h2.then (ls' := [_]) ?_
  rw [if_neg hne, he]
  have hs : Says (sayWhen 0 do
        let t ← Load.lift (Res.ok (shownSpecial ws bm s, w'))
        sayF .debug (bytes! "special token: {} ({})") [textArg t.1, numArg i]) (.ok ())
      [line 0 (bytes! "special token: " ++ shownSpecial ws bm s ++ bytes! " (" ++ decimal i ++ bytes! ")")] :=
    Says.when ((says_lift (Res.ok (shownSpecial ws bm s, w'))).then
      (k := fun t => sayF .debug (bytes! "special token: {} ({})") [textArg t.1, numArg i])
      (says_debug (fmt_special _ _))) (by simp [line])
  exact hs.then (ls' := []) (says_pure _)

theorem pieceLoopL_told {l : List (List Nat)} {data : List Nat} {u : Nat} {r : RVocab} (hr : Ready l data u r.bpe)
    (hv : Holds r.v l) (e : Env) {N : Nat} (hx : RegexContract e.matches_) (hp : RightPick e.bpe.pick)
    (hN : 9 * N * N ≤ e.bpe.fuel) (mask : List Nat) (pieces : List (Bool × List Nat))
    (hsp : ∀ p ∈ pieces, p.1 = true → p.2 ∈ l ∧ ∀ c ∈ p.2, c < 0x80)
    (hpl : ∀ p ∈ pieces, p.1 = false → (∃ cs, p.2 = utf8Encode cs ∧ ∀ c ∈ cs, IsScalar c) ∧
      p.2.length ≤ N ∧ (e.signed = true → ∀ x ∈ p.2, x < 0x80))
    (cache : Cache) (seen : List (List Nat × List Nat)) (hc : CacheIs l r.bpe seen cache) (result : List Nat) :
    ∃ jobs ls ids, Says (pieceLoopL e r mask pieces cache result) (.ok (some (result ++ ids))) ls ∧
      Jobs e.ws e.matches_ mask pieces jobs ∧ Told l (table r.bpe) u e.ws seen jobs ls ids := by
  induction pieces generalizing cache seen result with
  | nil => exact ⟨[], [], [], (says_pure _).congr (by simp) rfl, rfl, .done⟩
  | cons p ps ih =>
    have ih := ih (fun q hq => hsp q (by simp [hq])) (fun q hq => hpl q (by simp [hq]))
    obtain ⟨sp, s⟩ := p
    cases sp with
    | true =>
      obtain ⟨hl, hasc⟩ := hsp (true, s) (by simp) rfl
      simp only at hl hasc
      obtain ⟨i, hix⟩ := List.getElem?_of_mem hl
      obtain ⟨jobs, ls, ids, g1, g2, g3⟩ := ih cache seen hc (result ++ [i])
      refine ⟨_, _, i :: ids, ?_, ⟨jobs, by rw [← nextIsMask_eq], g2⟩, .special hix g3⟩
      unfold pieceLoopL
      exact ((specialPieceL_told hv e.ws (nextIsMask mask ps) hix hasc result).then g1).congr (by simp) rfl
    | false =>
      obtain ⟨⟨cs, e1, hcs⟩, hlen, hsig⟩ := hpl (false, s) (by simp) rfl
      simp only at e1 hlen hsig
      subst e1
      obtain ⟨cs', k1, ⟨tl, htl⟩, k3⟩ := subtextUnits_ok e.ws (nextIsMask mask ps) cs hcs
      have hcs' : ∀ c ∈ cs', IsScalar c := fun c hc => hcs c (by rw [← htl]; simp [hc])
      have hsub : ∀ x ∈ utf8Encode cs', x ∈ utf8Encode cs := by
        intro x hx; rw [← htl, utf8Encode_append]; simp [hx]
      have hlen' : (utf8Encode cs').length ≤ N := by
        have : (utf8Encode cs).length = (utf8Encode cs').length + (utf8Encode tl).length := by
          rw [← htl, utf8Encode_append, List.length_append]
        omega
      obtain ⟨words, out, ls1, cache1, seen1, a1, a2, a3, a4, a5⟩ := plainPieceL_told hr hv e hx hp hN cs' hcs' hlen'
        (fun h x hx => hsig h x (hsub x hx)) result cache seen hc
      obtain ⟨jobs, ls, ids, g1, g2, g3⟩ := ih cache1 seen1 a4 (result ++ out)
      refine ⟨_, ls1 ++ ls, out ++ ids, ?_, ⟨cs', words, jobs, hcs', by rw [k3, nextIsMask_eq], a1, a2, rfl, g2⟩,
        a5 _ _ _ g3⟩
      unfold pieceLoopL
      rw [k1]
      refine ((says_lift (Res.ok (utf16Encode cs'))).then (ls' := ls1 ++ ls) ?_).congr rfl (by simp)
      exact (a3.then g1).congr (by simp) rfl

/-! ## No percent sign -/

theorem byteChars_pct {bs : List Nat} (hb : Bytes bs) (h : 37 ∉ bs) : 37 ∉ byteChars bs := by
  intro hm
  obtain ⟨x, hx, he⟩ := List.mem_map.mp hm
  have : ∀ x < 256, byteChar x = 37 → x = 37 := by decide +kernel
  exact h (this x (hb x hx) he ▸ hx)

theorem spaced_pct (ids : List Nat) : 37 ∉ spaced ids := by
  induction ids with
  | nil => simp [spaced]
  | cons i ids ih =>
    cases ids with
    | nil => exact decimal_no_percent i
    | cons j ids =>
      simp only [spaced, List.mem_append, not_or]
      exact ⟨⟨decimal_no_percent i, by decide⟩, ih⟩

theorem bpeStart_pct {text : List Nat} (h : 37 ∉ text) : ∀ l ∈ bpeStart text, 37 ∉ l.2 := by
  intro l hl
  simp only [bpeStart, List.mem_cons, List.not_mem_nil, or_false] at hl
  rcases hl with rfl | rfl
  · decide
  · simp only [line, List.mem_append, not_or]
    exact ⟨⟨by decide, unitText_no_percent _ h⟩, by decide⟩

theorem bpeLines_pct {text : List Nat} (h : 37 ∉ text) (ids : List Nat) (ms : List (Nat × Nat × Nat)) :
    ∀ l ∈ bpeLines text ids ms, 37 ∉ l.2 := by
  intro l hl
  simp only [bpeLines, List.mem_append, List.mem_singleton] at hl
  rcases hl with ((hl | rfl) | hl) | rfl
  · exact bpeStart_pct h l hl
  · simp only [line, List.mem_append, not_or]
    exact ⟨⟨by decide, spaced_pct _⟩, by decide⟩
  · obtain ⟨m, _, rfl⟩ := List.mem_map.mp hl
    simp only [line, List.mem_append, not_or]
    exact ⟨⟨⟨⟨⟨by decide, decimal_no_percent _⟩, by decide⟩, decimal_no_percent _⟩, by decide⟩, decimal_no_percent _⟩
  · decide

/-- No percent sign in what a job is about. -/
def CleanJob : Job → Prop
  | .special _ s => 37 ∉ s
  | .word bs => Bytes bs ∧ 37 ∉ bs

theorem told_pct {l : List (List Nat)} {tbl : MergeTable Nat} {u : Nat} {ws : Nat → Bool}
    {seen : List (List Nat × List Nat)} {jobs : List Job} {ls : List (Int × List Nat)} {ids : List Nat}
    (h : Told l tbl u ws seen jobs ls ids) (hc : ∀ j ∈ jobs, CleanJob j) : ∀ l ∈ ls, 37 ∉ l.2 := by
  induction h with
  | done => simp
  | @special seen bm s i jobs ls ids hi _ ih =>
    intro x hx
    rcases List.mem_cons.mp hx with rfl | hx
    · have hs : 37 ∉ s := hc (.special bm s) (by simp)
      simp only [line, List.mem_append, not_or]
      exact ⟨⟨⟨⟨by decide, shownSpecial_pct hs⟩, by decide⟩, decimal_no_percent _⟩, by decide⟩
    · exact ih (fun j hj => hc j (by simp [hj])) x hx
  | @again seen bs out jobs ls ids _ _ ih =>
    intro x hx
    obtain ⟨h1, h2⟩ : CleanJob (.word bs) := hc _ (by simp)
    rcases List.mem_append.mp hx with hx | hx
    · exact bpeStart_pct (byteChars_pct h1 h2) x hx
    · exact ih (fun j hj => hc j (by simp [hj])) x hx
  | @fresh seen bs ms out jobs ls ids _ _ _ _ ih =>
    intro x hx
    obtain ⟨h1, h2⟩ : CleanJob (.word bs) := hc _ (by simp)
    rcases List.mem_append.mp hx with hx | hx
    · exact bpeLines_pct (byteChars_pct h1 h2) _ _ x hx
    · exact ih (fun j hj => hc j (by simp [hj])) x hx

theorem keptBytes_pct {ws : Nat → Bool} {bm : Bool} {s : List Nat} (h : 37 ∉ s) : 37 ∉ keptBytes ws bm s := by
  unfold keptBytes
  split
  · cases hd : utf8Decode s with
    | none => simp [stripEnd, utf8Encode]
    | some cs =>
      exact utf8_pct fun hm => decode_pct hd h ((stripEnd_sub ws cs).subset hm)
  · exact h

theorem jobs_clean {ws : Nat → Bool} {f : List Nat → List (Nat × Nat)} {mask : List Nat}
    {pieces : List (Bool × List Nat)} {jobs : List Job} (h : Jobs ws f mask pieces jobs)
    (hp : ∀ p ∈ pieces, 37 ∉ p.2) : ∀ j ∈ jobs, CleanJob j := by
  induction pieces generalizing jobs with
  | nil => cases h; simp
  | cons p ps ih =>
    obtain ⟨sp, s⟩ := p
    have ih := fun {jobs} (h : Jobs ws f mask ps jobs) => ih h fun q hq => hp q (by simp [hq])
    have hs : 37 ∉ s := hp (sp, s) (by simp)
    cases sp with
    | true =>
      obtain ⟨rest, rfl, h1⟩ := h
      intro j hj
      rcases List.mem_cons.mp hj with rfl | hj
      · exact hs
      · exact ih h1 j hj
    | false =>
      obtain ⟨cs, words, rest, h1, h2, h3, _, rfl, h5⟩ := h
      intro j hj
      rcases List.mem_append.mp hj with hj | hj
      · obtain ⟨w, hw, rfl⟩ := List.mem_map.mp hj
        have hw1 : ∀ c ∈ w, c ∈ cs := fun c hc => h3 ▸ List.mem_flatten.mpr ⟨w, hw, hc⟩
        refine ⟨utf8_bytes w fun c hc => h1 c (hw1 c hc), ?_⟩
        have h6 : 37 ∉ utf8Encode cs := h2 ▸ keptBytes_pct hs
        refine utf8_pct fun hm => h6 ?_
        unfold utf8Encode
        rw [List.mem_flatMap]
        exact ⟨37, hw1 37 hm, by decide⟩
      · exact ih h5 j hj

theorem pieceLines_says (pieces : List (Bool × List Nat)) :
    Says (sayWhen 0 do
      say .debug (bytes! "  subtexts:")
      subtextsL pieces) (.ok ()) (pieceLines pieces) := by
  have hs : Says (subtextsL pieces) (.ok ())
      (pieces.map fun p => line 0 (bytes! "    \"" ++ p.2 ++ bytes! "\" " ++ if p.1 then bytes! "*" else [])) := by
    induction pieces with
    | nil => exact says_pure ()
    | cons p ps ih =>
      obtain ⟨sp, s⟩ := p
      exact (says_debug (fmt_subtext s (if sp then bytes! "*" else []))).then ih
  refine Says.when ((says_say .debug _).then hs) fun l hl => ?_
  rcases List.mem_cons.mp hl with rfl | hl
  · decide
  · obtain ⟨p, _, rfl⟩ := List.mem_map.mp hl
    simp [line]

theorem pieceLines_pct {pieces : List (Bool × List Nat)} (h : ∀ p ∈ pieces, 37 ∉ p.2) :
    ∀ l ∈ pieceLines pieces, 37 ∉ l.2 := by
  intro l hl
  rcases List.mem_cons.mp hl with rfl | hl
  · decide
  · obtain ⟨p, hp, rfl⟩ := List.mem_map.mp hl
    simp only [line, List.mem_append, not_or]
    refine ⟨⟨⟨by decide, h p hp⟩, by decide⟩, ?_⟩
    split <;> decide

end Berts.Roberta
