import Verif.Model.RobertaRun
import Verif.Spec.RobertaRun
import Verif.Props.Roberta
import Verif.Props.Regex

/-! # Failures of the regular expression engine during RoBERTa tokenization: C94 -/

namespace Berts.Props

open Berts.Unicode Berts.Vocab Berts.Bpe Berts.Spec Berts.Roberta

/-! ## Where the engine stops -/

theorem splitRunLoop_true (text : List Nat) (cur added : Nat) (out : List (List Nat)) (ms : List (Nat × Nat))
    (k : Nat) (hk : lastEnd ms cur = k) (hm : Matches text.length cur ms) :
    (splitRunLoop text true cur added out ms).1 = (Unicode.splitLoop (text.take k) cur added out ms).1 := by
  induction ms generalizing cur added out with
  | nil =>
    simp only [lastEnd] at hk
    subst hk
    simp only [splitRunLoop, if_true, Unicode.splitLoop]
    rw [if_neg]
    simp
    omega
  | cons m ms ih =>
    obtain ⟨s, e⟩ := m
    unfold Matches at hm
    have hle : ∀ (l : List (Nat × Nat)) c, Matches text.length c l → c ≤ lastEnd l c := by
      intro l
      induction l with
      | nil => intro c _; simp [lastEnd]
      | cons a l ih =>
        intro c h
        unfold Matches at h
        have := ih _ h.2.2
        simp only [lastEnd]
        omega
    have h1 := hle ms e hm.2.2
    simp only [lastEnd] at hk
    rw [hk] at h1
    have cut : ∀ a b, b ≤ k → ((text.take k).drop a).take (b - a) = (text.drop a).take (b - a) := by
      intro a b hb
      rw [List.drop_take, List.take_take, Nat.min_eq_left (by omega)]
    simp only [splitRunLoop, Unicode.splitLoop]
    rw [cut cur s (by omega), cut s e h1]
    split
    · exact ih e _ _ hk hm.2.2
    · exact ih e _ _ hk hm.2.2

theorem lastEnd_bound (n : Nat) (ms : List (Nat × Nat)) (c : Nat) (h : Matches n c ms) :
    c ≤ lastEnd ms c ∧ lastEnd ms c ≤ n ∧ Matches (lastEnd ms c) c ms ∧ ∀ m ∈ ms, m.1 ≤ lastEnd ms c ∧ m.2 ≤ lastEnd ms c := by
  induction ms generalizing c with
  | nil => simpa [lastEnd, Matches] using h
  | cons m ms ih =>
    obtain ⟨s, e⟩ := m
    unfold Matches at h
    obtain ⟨h1, h2, h3⟩ := h
    obtain ⟨k1, k2, k3, k4⟩ := ih e h3
    simp only [lastEnd]
    refine ⟨by omega, k2, ⟨h1, h2, k3⟩, ?_⟩
    intro m hm
    rcases List.mem_cons.mp hm with rfl | hm
    · exact ⟨by simp only; omega, k1⟩
    · exact k4 m hm

theorem lastEnd_mem (ms : List (Nat × Nat)) (c : Nat) : lastEnd ms c = c ∨ ∃ m ∈ ms, lastEnd ms c = m.2 := by
  induction ms generalizing c with
  | nil => exact .inl rfl
  | cons m ms ih =>
    simp only [lastEnd]
    rcases ih m.2 with h | ⟨x, hx, h⟩
    · exact .inr ⟨m, by simp, h⟩
    · exact .inr ⟨x, by simp [hx], h⟩

theorem aligned_prefix {a b : List Nat} {i : Nat} (h : AlignedAt (a ++ b) i) (hi : i ≤ (utf16Encode a).length) :
    AlignedAt a i ∨ i = (utf16Encode a).length := by
  obtain ⟨x, y, e, rfl⟩ := h
  by_cases hl : x.length ≤ a.length
  · have : x <+: a := List.prefix_of_prefix_length_le ⟨y, e.symm⟩ ⟨b, rfl⟩ hl
    obtain ⟨t, rfl⟩ := this
    exact .inl ⟨x, t, rfl, rfl⟩
  · have : a <+: x := List.prefix_of_prefix_length_le ⟨b, rfl⟩ ⟨y, e.symm⟩ (by omega)
    obtain ⟨t, rfl⟩ := this
    right
    rw [utf16Encode_append, List.length_append] at hi ⊢
    omega

theorem chunks_of (ps : List (List Nat)) (cs : List Nat)
    (h : ∀ p ∈ ps, ∃ ch, p = utf16Encode ch ∧ ∀ c ∈ ch, c ∈ cs) :
    ∃ chs : List (List Nat), ps = chs.map utf16Encode ∧ ∀ ch ∈ chs, ∀ c ∈ ch, c ∈ cs := by
  induction ps with
  | nil => exact ⟨[], rfl, by simp⟩
  | cons p ps ih =>
    obtain ⟨ch, e, hch⟩ := h p (by simp)
    obtain ⟨chs, e2, h2⟩ := ih (fun q hq => h q (by simp [hq]))
    refine ⟨ch :: chs, by rw [e, e2]; rfl, ?_⟩
    intro x hx
    rcases List.mem_cons.mp hx with rfl | hx
    · exact hch
    · exact h2 x hx

/-- The pieces of a regex split by any engine, as code points. -/
theorem run_chunks (en : Engine) (e : Roberta.Env) (hf : RegexContract e.matches_) (cs : List Nat)
    (hcs : ∀ c ∈ cs, IsScalar c) :
    ∃ (a b : List Nat) (chs : List (List Nat)), cs = a ++ b ∧
      (splitRun en.open_ (utf16Encode cs) (en.run e (utf16Encode cs)) []).1 = chs.map utf16Encode ∧
      chs.flatten = a ∧
      (utf16Encode a).length = reach en.open_ (en.run e (utf16Encode cs)) (utf16Encode cs).length := by
  cases ho : en.open_ with
  | false => exact ⟨[], cs, [], rfl, by simp [splitRun], rfl, by simp [reach]; rfl⟩
  | true =>
    cases hb : en.failed (utf16Encode cs) with
    | false =>
      obtain ⟨chs, h1, h2⟩ := regex_chunks e.matches_ hf cs hcs
      refine ⟨cs, [], chs, by simp, ?_, h2, by simp [reach, Engine.run, hb]⟩
      unfold Engine.run
      rw [hb, splitRun_regexSplit, h1]
    | true =>
      have hm := hf.ordered (utf16Encode cs)
      have hal := hf.aligned cs hcs
      obtain ⟨k1, k2, k3, k4⟩ := lastEnd_bound _ _ _ hm
      have hk : AlignedAt cs (lastEnd (e.matches_ (utf16Encode cs)) 0) := by
        rcases lastEnd_mem (e.matches_ (utf16Encode cs)) 0 with h | ⟨m, hm, h⟩
        · rw [h]; exact ⟨[], cs, rfl, rfl⟩
        · rw [h]; exact (hal m hm).2
      obtain ⟨a, b, e1, e2⟩ := hk
      have hsa : ∀ c ∈ a, IsScalar c := fun c hc => hcs c (by rw [e1]; simp [hc])
      have htake : (utf16Encode cs).take (utf16Encode a).length = utf16Encode a := by
        rw [e1, utf16Encode_append, List.take_left' rfl]
      by_cases h0 : cs = []
      · subst h0
        obtain ⟨rfl, rfl⟩ : a = [] ∧ b = [] := by simpa using e1.symm
        exact ⟨[], [], [], rfl, by simp [splitRun, utf16Encode], rfl, by simp [reach, Engine.run, hb, e2]⟩
      have hlen : (utf16Encode cs).length ≠ 0 := by
        intro h
        exact h0 (utf16Encode_inj hcs (b := []) (by simp) (List.length_eq_zero_iff.mp h))
      have hsplit : (splitRun true (utf16Encode cs) (en.run e (utf16Encode cs)) []).1 =
          (Unicode.splitLoop (utf16Encode a) 0 0 [] (e.matches_ (utf16Encode cs))).1 := by
        unfold splitRun Engine.run
        simp only [Bool.not_true, Bool.false_eq_true, if_false, hlen, hb]
        rw [splitRunLoop_true _ _ _ _ _ _ e2 hm, htake]
      rw [e2] at k3 k4
      have hala : ∀ m ∈ e.matches_ (utf16Encode cs), AlignedAt a m.1 ∧ AlignedAt a m.2 := by
        intro m hmm
        have h1 := hal m hmm
        rw [e1] at h1
        have h2 := k4 m hmm
        constructor
        · rcases aligned_prefix h1.1 h2.1 with h | h
          · exact h
          · rw [h]; exact aligned_end a
        · rcases aligned_prefix h1.2 h2.2 with h | h
          · exact h
          · rw [h]; exact aligned_end a
      obtain ⟨pieces, p1, p2⟩ := C90_split_counterexample (utf16Encode cs) (en.run e (utf16Encode cs)) [] hm hb
        (fun h => hlen (by rw [h]; rfl))
      have p3 : (splitRun true (utf16Encode cs) (en.run e (utf16Encode cs)) []).1 = pieces := by rw [p1]; simp
      have p4 : pieces.flatten = utf16Encode a := by
        rw [p2]
        show (utf16Encode cs).take (lastEnd (e.matches_ (utf16Encode cs)) 0) = _
        rw [e2, htake]
      obtain ⟨chs, c1, c2⟩ := chunks_of pieces a (by
        rw [← p3, hsplit]
        exact splitLoop_chunks a 0 _ ⟨[], a, rfl, rfl⟩ hala)
      refine ⟨a, b, chs, e1, by rw [p3, c1], ?_, by simp [reach, Engine.run, hb, e2]⟩
      apply utf16Encode_inj _ hsa
      · rw [← p4, c1]; exact utf16Encode_flatten chs
      · intro c hc
        obtain ⟨ch, h4, h5⟩ := List.mem_flatten.mp hc
        exact hsa c (c2 ch h4 c h5)

/-- With a plain text of which the engine sees the code points `a`. -/
theorem plainPieceE_ok {r : RVocab} {l tcs : List (List Nat)} (hi : Inited r.v l tcs r.bpe) (en : Engine)
    {e : Roberta.Env} {N : Nat} (he : EnvOK e N) (cs : List Nat) (hs : ∀ c ∈ cs, IsScalar c)
    (hlen : (utf8Encode cs).length ≤ N) (hsig : e.signed = true → ∀ x ∈ utf8Encode cs, x < 0x80)
    (hc : ByteComplete l (utf8Encode cs)) (result : List Nat) (cache : Cache)
    (hcache : CacheOK (tcs.map utf16Encode) cache) :
    ∃ a b ids cache', cs = a ++ b ∧
      (utf16Encode a).length = reach en.open_ (en.run e (utf16Encode cs)) (utf16Encode cs).length ∧
      plainPieceE en e r (utf16Encode cs) cache result = .ok (some (result ++ ids), cache') ∧
      CacheOK (tcs.map utf16Encode) cache' ∧ Spells l ids (byteChars (utf8Encode a)) := by
  obtain ⟨a, b, chs, h0, h1, h2, h3⟩ := run_chunks en e he.regex cs hs
  subst h2
  have hsub : ∀ x ∈ utf8Encode chs.flatten, x ∈ utf8Encode cs := by
    intro x hx; rw [h0, utf8Encode_append]; simp [hx]
  have hsa : ∀ c ∈ chs.flatten, IsScalar c := fun c hc => hs c (by rw [h0]; simp only [List.mem_append]; exact .inl hc)
  have hb := utf8_bytes chs.flatten hsa
  have hlen' : (utf8Encode chs.flatten).length ≤ N := by
    have : (utf8Encode cs).length = (utf8Encode chs.flatten).length + (utf8Encode b).length := by
      rw [← List.length_append, ← utf8Encode_append, ← h0]
    omega
  obtain ⟨new, cache1, g1, g2, g3, g4⟩ := bpeLoop_ok hi he chs
    (fun ch hch c hc => hsa c (List.mem_flatten.mpr ⟨ch, hch, hc⟩)) hlen' (fun h x hx => hsig h x (hsub x hx))
    (fun x hx => hc x (hsub x hx)) [] cache hcache
  obtain ⟨ids, ds, k1, k2, k3, k4⟩ := idLoop_ok hi.holds hi.utf8 new g4 result
  refine ⟨chs.flatten, b, ids, cache1, h0, h3, ?_, g2, ?_⟩
  · unfold plainPieceE
    rw [h1, g1, res_bind_ok]
    simp only [List.nil_append]
    rw [k1, res_bind_ok]
  · have : ds = byteChars (utf8Encode chs.flatten) := by
      apply utf16Encode_inj k4 (byteChars_scalar hb)
      rw [k3, g3, byteChars_utf16 hb]
    rw [← this]; exact k2

theorem pieceLoopE_ok {r : RVocab} {l tcs : List (List Nat)} (hi : Inited r.v l tcs r.bpe) (en : Engine)
    {e : Roberta.Env} {N : Nat} (he : EnvOK e N) (mask : List Nat) (pieces : List (Bool × List Nat))
    (hsp : ∀ p ∈ pieces, p.1 = true → p.2 ∈ l ∧ ∀ c ∈ p.2, c < 0x80)
    (hpl : ∀ p ∈ pieces, p.1 = false → (∃ cs, p.2 = utf8Encode cs ∧ ∀ c ∈ cs, IsScalar c) ∧
      p.2.length ≤ N ∧ (e.signed = true → ∀ x ∈ p.2, x < 0x80) ∧ ByteComplete l p.2)
    (cache : Cache) (hcache : CacheOK (tcs.map utf16Encode) cache) (result : List Nat) :
    ∃ seen idss, pieceLoopE en e r mask pieces cache result = .ok (some (result ++ idss.flatten)) ∧
      SeenPieces en.open_ (en.run e) (keptPieces e.ws mask pieces) seen ∧ PieceIds l seen idss := by
  induction pieces generalizing cache result with
  | nil => exact ⟨[], [], by simp [pieceLoopE], trivial, rfl⟩
  | cons p ps ih =>
    have ih := ih (fun q hq => hsp q (by simp [hq])) (fun q hq => hpl q (by simp [hq]))
    obtain ⟨sp, s⟩ := p
    cases sp with
    | true =>
      obtain ⟨hl, hasc⟩ := hsp (true, s) (by simp) rfl
      simp only at hl hasc
      obtain ⟨i, hix⟩ := List.getElem?_of_mem hl
      have hid := tokenToId_mem hi.holds _ i hix
      have hlt : i < INVALID := by
        have := (List.getElem?_eq_some_iff.mp hix).1
        have := hi.holds.2.2.1
        omega
      have hssc : ∀ c ∈ s, IsScalar c := fun c hc => by have := hasc c hc; left; omega
      obtain ⟨seen, ids, h1, h2, h3⟩ := ih cache hcache (result ++ [i])
      refine ⟨(true, s) :: seen, [i] :: ids, ?_, ⟨⟨rfl, rfl⟩, h2⟩, ⟨i, rfl, hix⟩, h3⟩
      simp only [pieceLoopE]
      have : specialPiece e.ws r.v (nextIsMask mask ps) s result = .ok (some (result ++ [i])) := by
        unfold specialPiece
        rw [hid, if_neg (by omega : ¬ i = INVALID)]
        split
        · obtain ⟨cs', g, _⟩ := subtextUnits_ok e.ws true s hssc
          rw [utf8_ascii s hasc] at g
          rw [g]; rfl
        · rfl
      rw [this, res_bind_ok]
      simp only
      rw [h1]; simp
    | false =>
      obtain ⟨⟨cs, e1, hcs⟩, hN, hsig, hbc⟩ := hpl (false, s) (by simp) rfl
      simp only at e1 hN hsig hbc
      subst e1
      obtain ⟨cs', g1, g2, g3⟩ := subtextUnits_ok e.ws (nextIsMask mask ps) cs hcs
      obtain ⟨tl, htl⟩ := g2
      have hcs' : ∀ c ∈ cs', IsScalar c := fun c hc => hcs c (by rw [← htl]; simp [hc])
      have hsub : ∀ x ∈ utf8Encode cs', x ∈ utf8Encode cs := by
        intro x hx; rw [← htl, utf8Encode_append]; simp [hx]
      have hlen' : (utf8Encode cs').length ≤ N := by
        have : (utf8Encode cs).length = (utf8Encode cs').length + (utf8Encode tl).length := by
          rw [← htl, utf8Encode_append, List.length_append]
        omega
      obtain ⟨a, b, ids1, cache1, q1, q2, k1, k2, k3⟩ := plainPieceE_ok hi en he cs' hcs' hlen'
        (fun h x hx => hsig h x (hsub x hx)) (fun x hx => hbc x (hsub x hx)) result cache hcache
      obtain ⟨seen, ids, h1, h2, h3⟩ := ih cache1 k2 (result ++ ids1)
      refine ⟨(false, utf8Encode a) :: seen, ids1 :: ids, ?_, ⟨⟨rfl, ?_⟩, h2⟩, k3, h3⟩
      · simp only [pieceLoopE]
        rw [g1, res_bind_ok, k1, res_bind_ok]
        simp only
        rw [h1]; simp
      · rw [nextIsMask_eq] at g3
        simp only [Bool.false_eq_true, if_false]
        exact ⟨a, b, by rw [← q1]; exact hcs', by rw [← q1]; exact g3.symm, rfl, by rw [← q1]; exact q2⟩

/-! ## C94 -/

/-- C94, exact behaviour (signed `char` only with ASCII texts; the alphabet of the text is in the vocabulary):
whatever the engine does, tokenization reports success.  The ids are those of the special tokens and of the
part of each plain piece up to the place where the engine stops. -/
theorem C94_exact (m : Meta) (merge : Option MergeTensor)
    (order : List (Str × Nat) → List (Str × Nat)) (hord : ∀ m, (order m).Perm m) (v : VocabT)
    (l tcs : List (List Nat)) (hv : Holds v l) (hu : Utf8Vocab l tcs) (e : Roberta.Env) (r : RVocab)
    (hinit : init e.signed m merge order v = .ok (some r)) (hsp : AsciiSpecials l r.special)
    (setOrder : List (List Nat) → List (List Nat)) (ho : SetOrder setOrder)
    (cs : List Nat) (hcs : ∀ c ∈ cs, IsScalar c) (he : EnvOK e (utf8Encode cs).length)
    (hf : (utf8Encode cs).length ≤ e.fuel) (hs : e.signed = true → ∀ c ∈ cs, c < 0x80)
    (hb : ByteComplete l (utf8Encode cs)) (en : Engine) :
    ∃ pieces seen idss, tokenizeE en e r setOrder (utf8Encode cs) = .ok (some idss.flatten) ∧
      Cut (specialStrings l r.special) (utf8Encode cs) pieces ∧
      SeenPieces en.open_ (en.run e) (keptPieces e.ws (l[r.special.mask]?.getD []) pieces) seen ∧
      PieceIds l seen idss := by
  obtain ⟨hi, hrv⟩ : Inited r.v l tcs r.bpe ∧ r.v = v := by
    unfold init at hinit
    split at hinit
    · cases hinit
    · have := initBpe_inited hord hv hu hinit
      exact ⟨this.1, this.2.1⟩
  have hv' : Holds r.v l := hrv ▸ hv
  have hspec := specialStrings_spec hsp
  have hk : [] ∉ setOrder (specialStrings l r.special) := fun h => (hspec [] ((ho _ _).mp h)).2.1 rfl
  obtain ⟨pieces, h1, h2⟩ := splitLoop_ok _ hk e.fuel (utf8Encode cs) hf
  have h2 := Cut.congr (ho _) h2
  obtain ⟨s, hm, hm2, hm3⟩ := hsp r.special.mask (by simp [specialIds])
  have hasc : ∀ p ∈ pieces, p.1 = true → p.2 ≠ [] ∧ ∀ c ∈ p.2, c < 0x80 :=
    fun p hp ht => (hspec p.2 (h2.special p hp ht)).2
  obtain ⟨seen, idss, k1, k2, k3⟩ := pieceLoopE_ok hi en he s pieces
    (fun p hp ht => ⟨(hspec p.2 (h2.special p hp ht)).1, (hasc p hp ht).2⟩)
    (by
      intro p hp ht
      obtain ⟨c1, g1, g2⟩ := plain_utf8 pieces cs h2.concat hasc h2.maximal p hp ht
      have hsub : ∀ x ∈ p.2, x ∈ utf8Encode cs := by
        intro x hx
        rw [← h2.concat]
        exact List.mem_flatten.mpr ⟨p.2, List.mem_map_of_mem hp, hx⟩
      refine ⟨⟨c1, g1, fun c hc => hcs c (g2 c hc)⟩, ?_, ?_, fun x hx => hb x (hsub x hx)⟩
      · rw [← h2.concat]
        exact (List.sublist_flatten_of_mem (List.mem_map_of_mem (f := (·.2)) hp)).length_le
      · intro h x hx
        have := hsub x hx
        rw [utf8_ascii cs (hs h)] at this
        exact hs h x this) [] (cacheOK_nil _) []
  refine ⟨pieces, seen, idss, ?_, h2, by rw [hm]; exact k2, k3⟩
  unfold tokenizeE tokenizeWithE
  rw [specialTokens_ok hv' hsp, res_bind_ok, h1, res_bind_ok, ascii_special hv' hm hm3, res_bind_ok, k1]
  simp

example (signed : Bool) : ∃ r, init (robEnv signed).signed robMeta (some robMerge) id robV = .ok (some r) ∧
    AsciiSpecials robTokens r.special ∧ (∀ c ∈ ascii "ab a", IsScalar c) ∧
    EnvOK (robEnv signed) 10 ∧ (utf8Encode (ascii "ab a")).length ≤ 10 ∧
    (∀ c ∈ ascii "ab a", c < 0x80) ∧ ByteComplete robTokens (utf8Encode (ascii "ab a")) := by
  obtain ⟨b, hb⟩ := rob_init signed
  exact ⟨_, hb, rob_specials, by decide, robEnv_ok signed, by decide, by decide,
    by simp only [ByteComplete]; decide +kernel⟩

/-- C94 if the expression compiles and the engine never gives up: tokenization is that of C32, C65, C71.
(Missing: engines that fail, see the counterexamples.) -/
theorem C94_partial (en : Engine) (ho : en.open_ = true) (hn : ∀ u, en.failed u = false) (e : Roberta.Env)
    (r : RVocab) (setOrder : List (List Nat) → List (List Nat)) (text : List Nat) :
    tokenizeE en e r setOrder text = Roberta.tokenize e r setOrder text := by
  have hp : ∀ u cache result, plainPieceE en e r u cache result = plainPiece e r u cache result := by
    intro u cache result
    unfold plainPieceE plainPiece Engine.run
    rw [ho, hn, splitRun_regexSplit]
  have hl : ∀ mask pieces cache result,
      pieceLoopE en e r mask pieces cache result = pieceLoop e r mask pieces cache result := by
    intro mask pieces
    induction pieces with
    | nil => intro cache result; rfl
    | cons p ps ih =>
      intro cache result
      obtain ⟨sp, s⟩ := p
      cases sp <;> simp only [pieceLoopE, pieceLoop, hp, ih] <;> rfl
  unfold tokenizeE Roberta.tokenize tokenizeWithE tokenizeWith
  simp only [hl]

example : (⟨true, fun _ => false⟩ : Engine).open_ = true ∧ ∀ u, (⟨true, fun _ => false⟩ : Engine).failed u = false :=
  ⟨rfl, fun _ => rfl⟩

/-- A text without special tokens is a single plain piece. -/
theorem cut_plain {specials : List (List Nat)} {text : List Nat} {pieces : List (Bool × List Nat)}
    (h : Cut specials text pieces) (hne : text ≠ []) (hno : ∀ s ∈ specials, ¬ s <:+: text) :
    pieces = [(false, text)] := by
  have hall : ∀ p ∈ pieces, p.1 = false := by
    intro p hp
    cases hb : p.1 with
    | false => rfl
    | true =>
      refine absurd ?_ (hno p.2 (h.special p hp hb))
      rw [← h.concat]
      obtain ⟨a, b, rfl⟩ := List.append_of_mem hp
      exact ⟨(a.map (·.2)).flatten, (b.map (·.2)).flatten, by simp⟩
  cases pieces with
  | nil => exact absurd h.concat.symm (by simpa using hne)
  | cons p ps =>
    obtain ⟨b, t⟩ := p
    have hb := hall (b, t) (by simp)
    simp only at hb
    subst hb
    cases ps with
    | nil => have := h.concat; simp at this; rw [this]
    | cons q ps =>
      have := h.maximal [] (false, t) q ps rfl
      have hq := hall q (by simp)
      simp_all

/-- Ids spell only one sequence. -/
theorem spell_unique (p q : List (List Nat)) (hp : ∀ x ∈ p, ∀ c ∈ x, IsScalar c) (hq : ∀ x ∈ q, ∀ c ∈ x, IsScalar c)
    (h : p.map (fun x => some (utf8Encode x)) = q.map (fun x => some (utf8Encode x))) : p = q := by
  induction p generalizing q with
  | nil => cases q with
    | nil => rfl
    | cons y q => simp at h
  | cons x p ih =>
    cases q with
    | nil => simp at h
    | cons y q =>
      simp only [List.map_cons, List.cons.injEq, Option.some.injEq] at h
      have h1 := utf8Decode_encode x (hp x (by simp))
      rw [h.1, utf8Decode_encode y (hq y (by simp))] at h1
      rw [ih q (fun z hz => hp z (by simp [hz])) (fun z hz => hq z (by simp [hz])) h.2, Option.some.inj h1]

/-- C94 refuted: if the engine gives up on a text without special tokens after the code points `a`, the rest `b`
of the text is lost, and tokenization reports success. -/
theorem C94_truncated_counterexample (m : Meta) (merge : Option MergeTensor)
    (order : List (Str × Nat) → List (Str × Nat)) (hord : ∀ m, (order m).Perm m) (v : VocabT)
    (l tcs : List (List Nat)) (hv : Holds v l) (hu : Utf8Vocab l tcs) (e : Roberta.Env) (r : RVocab)
    (hinit : init e.signed m merge order v = .ok (some r)) (hsp : AsciiSpecials l r.special)
    (setOrder : List (List Nat) → List (List Nat)) (ho : SetOrder setOrder)
    (a b : List Nat) (hcs : ∀ c ∈ a ++ b, IsScalar c) (he : EnvOK e (utf8Encode (a ++ b)).length)
    (hf : (utf8Encode (a ++ b)).length ≤ e.fuel) (hs : e.signed = true → ∀ c ∈ a ++ b, c < 0x80)
    (hb : ByteComplete l (utf8Encode (a ++ b))) (hne : b ≠ [])
    (hno : ∀ s ∈ specialStrings l r.special, ¬ s <:+: utf8Encode (a ++ b)) (en : Engine)
    (hen : en.open_ = true) (hfail : en.failed (utf16Encode (a ++ b)) = true)
    (hend : lastEnd (e.matches_ (utf16Encode (a ++ b))) 0 = (utf16Encode a).length) :
    ∃ ids, tokenizeE en e r setOrder (utf8Encode (a ++ b)) = .ok (some ids) ∧
      Spells l ids (byteChars (utf8Encode a)) ∧ ¬ Spells l ids (byteChars (utf8Encode (a ++ b))) := by
  obtain ⟨pieces, seen, idss, h1, h2, h3, h4⟩ := C94_exact m merge order hord v l tcs hv hu e r hinit hsp setOrder ho
    (a ++ b) hcs he hf hs hb en
  have hne' : utf8Encode (a ++ b) ≠ [] := by
    intro h
    have h0 := utf8Decode_encode (a ++ b) hcs
    rw [h] at h0
    have : a ++ b = [] := (Option.some.inj h0).symm
    exact hne (List.append_eq_nil_iff.mp this).2
  obtain rfl := cut_plain h2 hne' hno
  simp only [keptPieces, List.head?_nil, Option.any_none, keptBytes, Bool.false_eq_true, if_false] at h3
  match seen, h3 with
  | [q], h3 =>
    obtain ⟨⟨q1, a', b', q2, q3, q4, q5⟩, _⟩ := h3
    have e1 : a ++ b = a' ++ b' := by
      have x1 := utf8Decode_encode (a ++ b) hcs
      have x2 := utf8Decode_encode (a' ++ b') q2
      simp only at q3
      rw [q3, x2] at x1
      exact (Option.some.inj x1).symm
    have e2 : a' = a := by
      rw [← e1, hen] at q5
      simp only [reach, Engine.run, hfail, if_true] at q5
      rw [hend] at q5
      have x : utf16Encode a' = utf16Encode a := by
        have y := congrArg utf16Encode e1
        rw [utf16Encode_append, utf16Encode_append] at y
        exact ((List.append_inj y q5.symm).1).symm
      exact utf16Encode_inj (fun c hc => q2 c (by simp [hc])) (fun c hc => hcs c (by simp [hc])) x
    subst e2
    obtain ⟨qb, qs⟩ := q
    simp only at q1 q4
    subst q1 q4
    match idss, h4 with
    | [ids], h4 =>
      refine ⟨ids, by simpa using h1, h4.1, ?_⟩
      rintro ⟨p1, x1, x2, x3⟩
      obtain ⟨p2, y1, y2, y3⟩ := h4.1
      have hpp := spell_unique p1 p2 x1 y1 (x2.symm.trans y2)
      rw [hpp, y3] at x3
      have hlen := congrArg List.length x3
      simp only [byteChars, List.length_map, utf8Encode_append, List.length_append] at hlen
      have hbs : utf8Encode b = [] := List.length_eq_zero_iff.mp (by omega)
      have h0 := utf8Decode_encode b (fun c hc => hcs c (by simp [hc]))
      rw [hbs] at h0
      exact hne (Option.some.inj h0).symm

/-- The words of "ab a" for an engine that finds the first one. -/
def firstWord (t : List Nat) : List (Nat × Nat) := if t = utf16Encode (ascii "ab a") then [(0, 2)] else []

theorem firstWord_ok : RegexContract firstWord where
  ordered := by
    intro t
    unfold firstWord
    split
    · rename_i h; subst h; decide
    · simp [Matches]
  aligned := by
    intro cs hcs m hm
    unfold firstWord at hm
    split at hm
    · rename_i h
      have : cs = ascii "ab a" := utf16Encode_inj hcs (by decide) h
      subst this
      simp only [List.mem_singleton] at hm
      subst hm
      exact ⟨⟨[], _, rfl, rfl⟩, ⟨ascii "ab", ascii " a", by decide, by decide⟩⟩
    · simp at hm

example (signed : Bool) : ∃ r, init signed robMeta (some robMerge) id robV = .ok (some r) ∧
    EnvOK { robEnv signed with matches_ := firstWord } 10 ∧ ascii " a" ≠ [] ∧
    (∀ s ∈ specialStrings robTokens r.special, ¬ s <:+: utf8Encode (ascii "ab" ++ ascii " a")) ∧
    ByteComplete robTokens (utf8Encode (ascii "ab" ++ ascii " a")) ∧
    lastEnd (firstWord (utf16Encode (ascii "ab" ++ ascii " a"))) 0 = (utf16Encode (ascii "ab")).length := by
  obtain ⟨b, hb⟩ := rob_init signed
  exact ⟨_, hb, ⟨firstWord_ok, (robEnv_ok signed).pick, (robEnv_ok signed).fuel⟩, by decide,
    by simp only; decide +kernel, by simp only [ByteComplete]; decide +kernel, by decide +kernel⟩

/-- C94 refuted: if the expression cannot be compiled, tokenization reports success with the ids of the special
tokens only; all other text is lost. -/
theorem C94_closed_counterexample (r : RVocab) (l : List (List Nat)) (hv : Holds r.v l)
    (hsp : AsciiSpecials l r.special) (e : Roberta.Env) (setOrder : List (List Nat) → List (List Nat))
    (ho : SetOrder setOrder) (cs : List Nat) (hcs : ∀ c ∈ cs, IsScalar c) (hf : (utf8Encode cs).length ≤ e.fuel)
    (en : Engine) (hen : en.open_ = false) :
    ∃ pieces ids, tokenizeE en e r setOrder (utf8Encode cs) = .ok (some ids) ∧
      Cut (specialStrings l r.special) (utf8Encode cs) pieces ∧
      ids.map (l[·]?) = (pieces.filter (·.1)).map (fun p => some p.2) := by
  have hspec := specialStrings_spec hsp
  have hk : [] ∉ setOrder (specialStrings l r.special) := fun h => (hspec [] ((ho _ _).mp h)).2.1 rfl
  obtain ⟨pieces, h1, h2⟩ := splitLoop_ok _ hk e.fuel (utf8Encode cs) hf
  have h2 := Cut.congr (ho _) h2
  obtain ⟨s, hm, hm2, hm3⟩ := hsp r.special.mask (by simp [specialIds])
  have hasc : ∀ p ∈ pieces, p.1 = true → p.2 ≠ [] ∧ ∀ c ∈ p.2, c < 0x80 :=
    fun p hp ht => (hspec p.2 (h2.special p hp ht)).2
  have hplain : ∀ p ∈ pieces, p.1 = false → ∃ ds, p.2 = utf8Encode ds ∧ ∀ c ∈ ds, IsScalar c := by
    intro p hp ht
    obtain ⟨c1, g1, g2⟩ := plain_utf8 pieces cs h2.concat hasc h2.maximal p hp ht
    exact ⟨c1, g1, fun c hc => hcs c (g2 c hc)⟩
  have hin : ∀ p ∈ pieces, p.1 = true → p.2 ∈ l := fun p hp ht => (hspec p.2 (h2.special p hp ht)).1
  have key : ∀ ps : List (Bool × List Nat), (∀ p ∈ ps, p ∈ pieces) → ∀ cache result,
      ∃ ids, pieceLoopE en e r s ps cache result = .ok (some (result ++ ids)) ∧
        ids.map (l[·]?) = (ps.filter (·.1)).map (fun p => some p.2) := by
    intro ps
    induction ps with
    | nil => intro _ cache result; exact ⟨[], by simp [pieceLoopE], rfl⟩
    | cons p ps ih =>
      intro hps cache result
      have ih := ih (fun q hq => hps q (by simp [hq]))
      have hp := hps p (by simp)
      obtain ⟨sp, t⟩ := p
      cases sp with
      | true =>
        obtain ⟨i, hix⟩ := List.getElem?_of_mem (hin _ hp rfl)
        simp only at hix
        have hid := tokenToId_mem hv _ i hix
        have hlt : i < INVALID := by
          have := (List.getElem?_eq_some_iff.mp hix).1
          have := hv.2.2.1
          omega
        have ha := (hasc _ hp rfl).2
        simp only at ha
        have hssc : ∀ c ∈ t, IsScalar c := fun c hc => by have := ha c hc; left; omega
        obtain ⟨ids, g1, g2⟩ := ih cache (result ++ [i])
        refine ⟨i :: ids, ?_, by simp [g2, hix]⟩
        simp only [pieceLoopE]
        have : specialPiece e.ws r.v (nextIsMask s ps) t result = .ok (some (result ++ [i])) := by
          unfold specialPiece
          rw [hid, if_neg (by omega : ¬ i = INVALID)]
          split
          · obtain ⟨cs', g, _⟩ := subtextUnits_ok e.ws true t hssc
            rw [utf8_ascii t ha] at g
            rw [g]; rfl
          · rfl
        rw [this, res_bind_ok]
        simp only
        rw [g1]; simp
      | false =>
        obtain ⟨ds, d1, d2⟩ := hplain _ hp rfl
        simp only at d1
        subst d1
        obtain ⟨cs', u1, _⟩ := subtextUnits_ok e.ws (nextIsMask s ps) ds d2
        obtain ⟨ids, g1, g2⟩ := ih cache result
        refine ⟨ids, ?_, by simp [g2]⟩
        simp only [pieceLoopE]
        rw [u1, res_bind_ok]
        have : plainPieceE en e r (utf16Encode cs') cache result = .ok (some result, cache) := by
          unfold plainPieceE splitRun
          simp [hen, bpeLoop, idLoop, res_bind_ok]
        rw [this, res_bind_ok]
        exact g1
  obtain ⟨ids, k1, k2⟩ := key pieces (fun _ h => h) [] []
  refine ⟨pieces, ids, ?_, h2, k2⟩
  unfold tokenizeE tokenizeWithE
  rw [specialTokens_ok hv hsp, res_bind_ok, h1, res_bind_ok, ascii_special hv hm hm3, res_bind_ok, k1]
  simp

example : Holds robV robTokens ∧ AsciiSpecials robTokens robSpecial ∧ SetOrder id ∧ (∀ c ∈ ascii "ab<mask>", IsScalar c) ∧
    (utf8Encode (ascii "ab<mask>")).length ≤ (robEnv true).fuel ∧ (⟨false, fun _ => false⟩ : Engine).open_ = false :=
  ⟨robV_holds, rob_specials, fun _ _ => Iff.rfl, by decide, by decide, rfl⟩

end Berts.Props
