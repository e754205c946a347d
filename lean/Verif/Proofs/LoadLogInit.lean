import Verif.Proofs.LoadLogVocab

/-! # Lemmas about the messages of `init_vocab` -/

namespace Berts.Load

open Berts.Vocab Berts.Log Berts.Format Berts.Spec
open Berts.Bert (runLines runLines_append runLines_one bind_assoc' ok_bind')
open Berts.Bpe (Str Bpe)

variable {α β : Type}

/-! ## RoBERTa -/

theorem fmt_noMerge (t : List Nat) :
    vformat (bytes! "merge data ({}) is not found") [textArg t] =
    some (bytes! "merge data (" ++ t ++ bytes! ") is not found") := by
  formats (lits (bytes! "merge data (") ++ .field 0 [] :: lits (bytes! ") is not found"))

theorem fmt_mergeShape (n : Nat) :
    vformat (bytes! "invalid shape: merge_data={}") [numArg n] =
    some (bytes! "invalid shape: merge_data=" ++ decimal n) := by
  formats (lits (bytes! "invalid shape: merge_data=") ++ [.field 0 []])

theorem fmt_mergeType (n : Nat) :
    vformat (bytes! "invalid type of merge_data: {}") [numArg n] =
    some (bytes! "invalid type of merge_data: " ++ decimal n) := by
  formats (lits (bytes! "invalid type of merge_data: ") ++ [.field 0 []])

theorem fmt_mergeSize (n : Nat) :
    vformat (bytes! "invalid size of merge_data: {}") [numArg n] =
    some (bytes! "invalid size of merge_data: " ++ decimal n) := by
  formats (lits (bytes! "invalid size of merge_data: ") ++ [.field 0 []])

theorem fmt_mergeCount (n : Nat) :
    vformat (bytes! "  merge count: {}") [numArg n] = some (bytes! "  merge count: " ++ decimal n) := by
  formats (lits (bytes! "  merge count: ") ++ [.field 0 []])

theorem fmt_bpeId (n : Nat) :
    vformat (bytes! "token id {} is not found in vocab") [numArg n] =
    some (bytes! "token id " ++ decimal n ++ bytes! " is not found in vocab") := by
  formats (lits (bytes! "token id ") ++ .field 0 [] :: lits (bytes! " is not found in vocab"))

theorem fmt_bpeToken (t : List Nat) :
    vformat (bytes! "merged token {} is not found in vocab") [textArg t] =
    some (bytes! "merged token " ++ t ++ bytes! " is not found in vocab") := by
  formats (lits (bytes! "merged token ") ++ .field 0 [] :: lits (bytes! " is not found in vocab"))

section

variable {C : Prop} {pre : List (Int × List Nat)}

/-- A formatted error and the end. -/
theorem Tells.fail {f m : List Nat} {args : List Arg} {a : β} {E : β → List (Int × List Nat) → Prop}
    (h : vformat f args = some m) (hc : C → Calm pre) (he : E a (pre ++ [line 1 m])) :
    Tells C (sayF .error f args >>= fun _ => Pure.pure a) (.ok a) pre E :=
  Tells.after (says_sayF h) (Tells.pure (fun c => (hc c).append (calm_info m)) he)

theorem words_length : ∀ l : List Nat, (words l).length = l.length / 4
  | [] => rfl
  | [_] => by simp [words]
  | [_, _] => by simp [words]
  | [_, _, _] => by simp [words]
  | _ :: _ :: _ :: _ :: l => by
    rw [words, List.length_cons, words_length l]
    simp only [List.length_cons]
    omega

theorem checkMergeL_tells (t : Option LT) (hc : C → Calm pre) :
    Tells C (checkMergeL t) (.ok (Roberta.checkMerge (t.map mergeT))) pre
      fun r ls => r.isSome → ∃ m, t = some m ∧ ls = pre ++ [line 0 (bytes! "  merge count: " ++ decimal (m.data.length / 12))] := by
  unfold checkMergeL
  cases t with
  | none => exact Tells.fail (fmt_noMerge _) hc (by simp)
  | some t =>
    simp only [Option.map_some, Roberta.checkMerge, mergeT]
    by_cases h1 : t.ndims ≠ 1
    · rw [if_pos h1, if_pos h1]
      exact Tells.fail (fmt_mergeShape _) hc (by simp)
    · rw [if_neg h1, if_neg h1]
      by_cases h2 : t.type = 18
      · rw [if_neg (show ¬ t.type ≠ 18 by simp [h2]), if_neg (show ¬ (!t.type == 18) = true by simp [h2])]
        by_cases h3 : (words t.data).length % 3 ≠ 0
        · rw [if_pos h3, if_pos h3]
          exact Tells.fail (fmt_mergeSize _) hc (by simp)
        · rw [if_neg h3, if_neg h3]
          refine Tells.after (says_sayF (v := .debug) (fmt_mergeCount _)) (Tells.pure ?_ fun _ => ⟨t, rfl, ?_⟩)
          · exact fun c => (hc c).append (calm_debug _)
          · rw [words_length, Nat.div_div_eq_div_mul]
      · rw [if_pos (show t.type ≠ 18 from h2), if_pos (show (!t.type == 18) = true by simp [h2])]
        exact Tells.fail (fmt_mergeType _) hc (by simp)

theorem encodeUnits_ok (l : List Nat) : Roberta.encodeUnits l = .ok (Spec.unitText l) := by
  obtain ⟨w, h⟩ := Bert.good_encode (Bert.good_ofUnits l)
  unfold Roberta.encodeUnits
  rw [h]
  rfl

open Berts.Spec (MergeError) in
theorem addMergesL_tells (start : Nat) (b : Bpe) (i : Nat) (ms : List (Nat × Nat)) (hc : C → Calm pre) :
    Tells C (addMergesL start b i ms) (Bpe.Bpe.addMerges start b i ms) pre fun r ls =>
      (r.1 = true → ls = pre) ∧
      (r.1 = false → ∃ m, MergeError b.idToToken b.tokenToId b.concat ms m ∧ ls = pre ++ [line 1 m]) := by
  induction ms generalizing b i with
  | nil => exact Tells.pure hc ⟨fun _ => rfl, by simp⟩
  | cons p ms ih =>
    obtain ⟨id0, id1⟩ := p
    unfold addMergesL Bpe.Bpe.addMerges
    cases h0 : b.idToToken id0 with
    | none => exact Tells.fail (fmt_bpeId _) hc ⟨by simp, fun _ => ⟨_, .first h0, rfl⟩⟩
    | some t0 =>
      cases h1 : b.idToToken id1 with
      | none => exact Tells.fail (fmt_bpeId _) hc ⟨by simp, fun _ => ⟨_, .second h0 h1, rfl⟩⟩
      | some t1 =>
        refine Tells.lift_bind hc fun t ht => ?_
        cases h2 : b.tokenToId t with
        | none =>
          simp only
          rw [encodeUnits_ok t]
          refine Tells.after (says_lift (.ok _)) ?_
          rw [List.append_nil]
          exact Tells.fail (fmt_bpeToken _) hc ⟨by simp, fun _ => ⟨_, .merged h0 h1 ht h2, rfl⟩⟩
        | some id =>
          refine (ih { b with merge := Bpe.assign b.merge (id0, id1) ((start + i) % 2 ^ 32, id) } (i + 1)).mono ?_
          rintro r ls - ⟨k1, k2⟩
          refine ⟨k1, fun h => ?_⟩
          obtain ⟨m, k3, k4⟩ := k2 h
          exact ⟨m, .later h0 h1 ht h2 k3, k4⟩

/-- The lines of `load_vocab` of byte pair encoding. -/
def bpeLines : List (Int × List Nat) :=
  [line 0 (bytes! "loading BPE vocab"), line 0 (bytes! "  merge"), line 0 (bytes! "finish loading BPE vocab")]

theorem loadVocabL_tells (b : Bpe) (vocab : List (Str × Nat)) (ms : List (Nat × Nat)) (hc : C → Calm pre) :
    Tells C (loadVocabL b vocab ms) (b.loadVocab vocab ms) pre fun r ls => r.1 = true → ls = pre ++ bpeLines := by
  unfold loadVocabL Bpe.Bpe.loadVocab
  refine Tells.after (says_say .debug _) ?_
  refine Tells.after (says_say .debug _) ?_
  have hr : ∀ r : Res (Bool × Bpe), r = r.bind fun o => .ok o := fun r => by cases r <;> rfl
  rw [hr (Bpe.Bpe.addMerges _ _ _ _)]
  refine (addMergesL_tells _ _ _ ms fun c => ((hc c).append (calm_debug _)).append (calm_debug _)).bind ?_
  rintro ⟨ok, b'⟩ ls _ hls ⟨h1, -⟩
  cases ok with
  | false => exact Tells.pure hls (by simp)
  | true =>
    have := h1 rfl
    subst this
    refine Tells.after (says_say .debug _) (Tells.pure (fun c => (hls c).append (calm_debug _)) fun _ => ?_)
    simp only [List.append_assoc]
    rfl

theorem initBpeL_tells (merge : Option LT) (order : List (Str × Nat) → List (Str × Nat)) (v : VocabT) (sp : Special)
    (hc : C → Calm pre) :
    Tells C (initBpeL merge order v sp)
      ((Roberta.initBpe (merge.map mergeT) order v sp).bind fun r => .ok (r.map .roberta)) pre
      fun x ls => ∀ y, x = some y → (∃ m, merge = some m ∧ ls = pre ++ noToken v.idToTok sp.unk ++
        (line 0 (bytes! "  merge count: " ++ decimal (m.data.length / 12)) :: bpeLines)) ∧ ∃ b, y = .roberta ⟨v, sp, b⟩ := by
  unfold initBpeL Roberta.initBpe
  simp only [bind_assoc']
  refine Tells.after (idToTokenL_says v sp.unk) ?_
  have hc1 := fun c => (hc c).append (calm_low (noToken_low v.idToTok sp.unk))
  refine Tells.lift_bind hc1 fun unkBytes _ => ?_
  refine Tells.lift_bind hc1 fun unk _ => ?_
  refine Tells.lift_bind hc1 fun units _ => ?_
  obtain ⟨l0, s0, c0, e0⟩ := checkMergeL_tells (C := C) merge hc1
  refine Tells.after s0 ?_
  have e0 := e0 _ rfl
  cases hck : Roberta.checkMerge (merge.map mergeT) with
  | none => exact Tells.pure c0 (by rintro y ⟨⟩)
  | some ms =>
    rw [hck] at e0
    obtain ⟨m, hm, e0⟩ := e0 rfl
    simp only [bind_assoc']
    refine (loadVocabL_tells _ _ ms c0).bind fun r ls hr hls he => ?_
    obtain ⟨b, r⟩ := r
    cases b with
    | false =>
      refine Tells.after (says_say _ _) (Tells.pure ?_ (by rintro y ⟨⟩))
      exact fun c => (hls c).append (calm_one fun _ => (by decide : Plain (bytes! "failed to load bpe vocab")))
    | true =>
      have he := he rfl
      subst he
      refine Tells.pure hls ?_
      intro y hy
      cases Option.some.inj hy
      refine ⟨⟨m, hm, ?_⟩, r, rfl⟩
      rw [e0]
      simp only [List.append_assoc]
      rfl

theorem robertaToIdL_says (signed : Bool) (v : VocabT) (t : List Nat)
    (h1 : Roberta.encodeBytes signed t = .ok t) (h2 : Roberta.encodeUnits t = .ok t) :
    Says (robertaToIdL signed v t) (.ok (Roberta.literalId signed v t)) (missing v.hasToken t) ∧
    Roberta.literalId signed v t = v.tokenToId t := by
  have h3 : Roberta.literalId signed v t = v.tokenToId t := by
    unfold Roberta.literalId Roberta.tokenToId
    rw [h1, ok_bind', h2]
    rfl
  refine ⟨?_, h3⟩
  unfold robertaToIdL
  rw [h1, h3]
  have h4 : Says (lift (Roberta.encodeUnits t) >>= fun bs => toIdL (v.tokenToId bs) (v.hasToken bs) bs)
      (.ok (v.tokenToId t)) (missing v.hasToken t) := by
    rw [h2]
    exact (says_lift (.ok t)).then (toIdL_says v t)
  exact (says_lift (.ok t)).then h4

/-- The lines about the seven ids of RoBERTa. -/
def sevenLines (V : List (List Nat)) (bos eos cls mask pad sep unk : Nat) : List (Int × List Nat) :=
  noToken V bos ++ (noToken V eos ++ (noToken V cls ++ (noToken V mask ++ (noToken V pad ++ (noToken V sep ++
  (noToken V unk ++ ([idLine V (bytes! "  bos_id:  ") bos] ++ ([idLine V (bytes! "  eos_id:  ") eos] ++
  ([idLine V (bytes! "  cls_id:  ") cls] ++ ([idLine V (bytes! "  mask_id: ") mask] ++
  ([idLine V (bytes! "  pad_id:  ") pad] ++ ([idLine V (bytes! "  sep_id:  ") sep] ++
  [idLine V (bytes! "  unk_id:  ") unk]))))))))))))

theorem sevenLines_low (V : List (List Nat)) (bos eos cls mask pad sep unk : Nat) :
    ∀ l ∈ sevenLines V bos eos cls mask pad sep unk, l.1 ≤ 1 := by
  intro l hl
  unfold sevenLines at hl
  simp only [List.mem_append, List.mem_singleton] at hl
  rcases hl with h | h | h | h | h | h | h | h | h | h | h | h | h | h
  all_goals first
    | exact noToken_low _ _ _ h
    | (subst h; exact Int.le_refl 1)

theorem says_id {f what : List Nat} {id : Nat} (v : VocabT) (t : List Nat) (ht : t = v.idToToken id)
    (h : vformat f [numArg id, textArg t] = some (what ++ decimal id ++ bytes! " (" ++ t ++ bytes! ")")) :
    Says (sayF .info f [numArg id, textArg t]) (.ok ()) [idLine v.idToTok what id] := by
  refine Says.congr (says_sayF h) rfl ?_
  unfold idLine
  rw [ht, idToToken_at]

theorem seven_says (v : VocabT) (bos eos cls mask pad sep unk : Nat) :
    Says (sayWhen 1 do
      let bosT ← Bert.idToTokenL v bos
      let eosT ← Bert.idToTokenL v eos
      let clsT ← Bert.idToTokenL v cls
      let maskT ← Bert.idToTokenL v mask
      let padT ← Bert.idToTokenL v pad
      let sepT ← Bert.idToTokenL v sep
      let unkT ← Bert.idToTokenL v unk
      sayF .info (bytes! "  bos_id:  {} ({})") [numArg bos, textArg bosT]
      sayF .info (bytes! "  eos_id:  {} ({})") [numArg eos, textArg eosT]
      sayF .info (bytes! "  cls_id:  {} ({})") [numArg cls, textArg clsT]
      sayF .info (bytes! "  mask_id: {} ({})") [numArg mask, textArg maskT]
      sayF .info (bytes! "  pad_id:  {} ({})") [numArg pad, textArg padT]
      sayF .info (bytes! "  sep_id:  {} ({})") [numArg sep, textArg sepT]
      sayF .info (bytes! "  unk_id:  {} ({})") [numArg unk, textArg unkT]) (.ok ())
      (sevenLines v.idToTok bos eos cls mask pad sep unk) := by
  refine Says.when ?_ (sevenLines_low _ _ _ _ _ _ _ _)
  unfold sevenLines
  refine (idToTokenL_says v bos).then ((idToTokenL_says v eos).then ((idToTokenL_says v cls).then
    ((idToTokenL_says v mask).then ((idToTokenL_says v pad).then ((idToTokenL_says v sep).then
    ((idToTokenL_says v unk).then ?_))))))
  exact (says_id v _ rfl (fmt_id5 _ _).2.2.2.2.2.1).then ((says_id v _ rfl (fmt_id5 _ _).2.2.2.2.2.2).then
    ((says_id v _ rfl (fmt_id5 _ _).1).then ((says_id v _ rfl (fmt_id5 _ _).2.1).then
    ((says_id v _ rfl (fmt_id5 _ _).2.2.1).then ((says_id v _ rfl (fmt_id5 _ _).2.2.2.1).then
    (says_id v _ rfl (fmt_id5 _ _).2.2.2.2.1))))))

theorem robertaInitL_tells (signed : Bool) (order : List (Str × Nat) → List (Str × Nat)) (g : Gguf) (ts : List LT)
    (v : VocabT) (hc : C → Calm pre) :
    Tells C (robertaInitL signed order g ts v) (robertaInit signed order g ts v) pre
      fun x ls => ∀ y, x = some y → tokensOf y = v.idToTok ∧
        (Holds v v.idToTok → ls = pre ++ (vocabLines g y ++ mergeLines ts y)) := by
  unfold robertaInitL robertaInit robertaMeta
  simp only [bind_assoc', ok_bind']
  have l1 := robertaToIdL_says signed v (ascii "<s>") (by cases signed <;> decide +kernel) (by decide +kernel)
  have l2 := robertaToIdL_says signed v (ascii "</s>") (by cases signed <;> decide +kernel) (by decide +kernel)
  have l3 := robertaToIdL_says signed v (ascii "<mask>") (by cases signed <;> decide +kernel) (by decide +kernel)
  have l4 := robertaToIdL_says signed v (ascii "<pad>") (by cases signed <;> decide +kernel) (by decide +kernel)
  have l5 := robertaToIdL_says signed v (ascii "<unk>") (by cases signed <;> decide +kernel) (by decide +kernel)
  refine Tells.look l1.1 (by rintro a ⟨⟩) hc ⟨by decide, by decide, by rintro a ⟨⟩⟩ fun m1 e1 hc1 => ?_
  refine Tells.look l2.1 (by rintro a ⟨⟩) hc1 ⟨by decide, by decide, by rintro a ⟨⟩⟩ fun m2 e2 hc2 => ?_
  refine Tells.look l1.1 (by rintro a ⟨⟩) hc2 ⟨by decide, by decide, by rintro a ⟨⟩⟩ fun m3 e3 hc3 => ?_
  refine Tells.look l3.1 (by rintro a ⟨⟩) hc3 ⟨by decide, by decide, by rintro a ⟨⟩⟩ fun m4 e4 hc4 => ?_
  refine Tells.look l4.1 (by rintro a ⟨⟩) hc4 ⟨by decide, by decide, by rintro a ⟨⟩⟩ fun m5 e5 hc5 => ?_
  refine Tells.look l2.1 (by rintro a ⟨⟩) hc5 ⟨by decide, by decide, by rintro a ⟨⟩⟩ fun m6 e6 hc6 => ?_
  refine Tells.look l5.1 (by rintro a ⟨⟩) hc6 ⟨by decide, by decide, by rintro a ⟨⟩⟩ fun m7 e7 hc7 => ?_
  unfold Roberta.init Vocab.robertaSpecials
  simp only
  generalize getTokenId m1 (Roberta.literalId signed v) (some (ascii "<s>")) none = bos0
  generalize getTokenId m2 (Roberta.literalId signed v) (some (ascii "</s>")) none = eos0
  generalize getTokenId m3 (Roberta.literalId signed v) (some (ascii "<s>")) none = cls0
  generalize getTokenId m4 (Roberta.literalId signed v) (some (ascii "<mask>")) none = mask
  generalize getTokenId m5 (Roberta.literalId signed v) (some (ascii "<pad>")) none = pad
  generalize getTokenId m6 (Roberta.literalId signed v) (some (ascii "</s>")) none = sep0
  generalize getTokenId m7 (Roberta.literalId signed v) (some (ascii "<unk>")) none = unk
  generalize (if bos0 = INVALID then cls0 else bos0) = bos
  generalize (if eos0 = INVALID then sep0 else eos0) = eos
  generalize (if cls0 = INVALID then bos else cls0) = cls
  generalize (if sep0 = INVALID then eos else sep0) = sep
  refine Tells.after (seven_says v _ _ _ _ _ _ _) ?_
  have hc8 := fun c => (hc7 c).append (calm_low (sevenLines_low v.idToTok bos eos cls mask pad sep unk))
  by_cases hi : bos = INVALID ∨ eos = INVALID ∨ cls = INVALID ∨ mask = INVALID ∨ pad = INVALID ∨ sep = INVALID ∨
      unk = INVALID
  · rw [if_pos hi, if_pos hi]
    exact Tells.pure hc8 (by rintro y ⟨⟩)
  · rw [if_neg hi, if_neg hi]
    refine (initBpeL_tells _ order v ⟨cls, mask, pad, sep, unk, bos, eos⟩ hc8).mono ?_
    rintro a ls _ he y hy
    obtain ⟨⟨m, hm, rfl⟩, b, rfl⟩ := he y hy
    refine ⟨rfl, fun hv => ?_⟩
    unfold mergeLines
    simp only [hm]
    have hf := hasToken_iff hv
    have hid := holds_id hv
    unfold vocabLines
    simp only
    rw [look_search e1 (hf _) (l1.2 ▸ hid _) (by rintro a ⟨⟩), look_search e2 (hf _) (l2.2 ▸ hid _) (by rintro a ⟨⟩),
      look_search e3 (hf _) (l1.2 ▸ hid _) (by rintro a ⟨⟩), look_search e4 (hf _) (l3.2 ▸ hid _) (by rintro a ⟨⟩),
      look_search e5 (hf _) (l4.2 ▸ hid _) (by rintro a ⟨⟩), look_search e6 (hf _) (l2.2 ▸ hid _) (by rintro a ⟨⟩),
      look_search e7 (hf _) (l5.2 ▸ hid _) (by rintro a ⟨⟩)]
    unfold sevenLines bpeLines
    simp only [List.append_assoc, Option.toList, List.flatMap_cons, List.flatMap_nil, List.cons_append, List.nil_append]

/-! ## The tokens -/

theorem fmt_exists (t : List Nat) :
    vformat (bytes! "  token {} already exists") [textArg t] =
    some (bytes! "  token " ++ t ++ bytes! " already exists") := by
  formats (lits (bytes! "  token ") ++ .field 0 [] :: lits (bytes! " already exists"))

theorem fmt_failAdd (t : List Nat) :
    vformat (bytes! "failed to add token: {}") [textArg t] = some (bytes! "failed to add token: " ++ t) := by
  formats (lits (bytes! "failed to add token: ") ++ [.field 0 []])

/-- What is true of the vocabulary while tokens are added. -/
structure Filled (v : VocabT) : Prop where
  has : ∀ t, v.hasToken t = true ↔ t ∈ v.idToTok
  holds : v.idToTok.length ≤ INVALID → Holds v v.idToTok

theorem filled_new : Filled VocabT.new :=
  ⟨by intro t; simp [VocabT.new, VocabT.hasToken], fun _ => holds_new⟩

theorem Filled.add {v : VocabT} (h : Filled v) {t : List Nat} (ht : v.hasToken t = false) :
    (v.addToken t).1 = true ∧ (v.addToken t).2.idToTok = v.idToTok ++ [t] ∧ Filled (v.addToken t).2 := by
  have hn : t ∉ v.idToTok := fun hm => by rw [(h.has t).mpr hm] at ht; cases ht
  have he : (v.addToken t).2.idToTok = v.idToTok ++ [t] := by simp [VocabT.addToken, ht]
  refine ⟨by simp [VocabT.addToken, ht], he, ?_, ?_⟩
  · intro x
    rw [he]
    have : (v.addToken t).2.hasToken x = (decide (x = t) || v.hasToken x) := by
      have hk : (v.addToken t).2.tokToId =
          fun x => if x = t then some (v.idToTok.length % 2 ^ 32) else v.tokToId x := by simp [VocabT.addToken, ht]
      unfold VocabT.hasToken
      rw [hk]
      by_cases hx : x = t <;> simp [hx]
    rw [this]
    simp only [Bool.or_eq_true, decide_eq_true_eq, h.has x, List.mem_append, List.mem_singleton]
    exact or_comm
  · intro hl
    rw [he] at hl ⊢
    simp only [List.length_append, List.length_singleton] at hl
    exact (addToken_new (h.holds (by omega)) t hn (by omega)).2

theorem addTokenL_eq (v : VocabT) (t : List Nat) : v.addTokenL t =
    (if v.hasToken t then (sayF .warn (bytes! "  token {} already exists") [textArg t] >>= fun _ => pure (v.addToken t))
     else pure (v.addToken t) : LogM (Bool × VocabT)) := by
  funext s
  unfold VocabT.addTokenL
  split
  · rw [bindM]
    unfold sayF
    rw [bind_assoc']
    rfl
  · rfl

/-- The repeated tokens of a vocabulary of which `old` is known already are printed as they are. -/
def RepeatsPlain (old : List (List Nat)) (ls data : List Nat) : Prop :=
  ∀ t, 2 ≤ (old ++ cut ls data).count t → Plain t

theorem readTokensL_tells (data : List Nat) (ls : List Nat) (p : Nat) (v : VocabT) (hv : Filled v)
    (hC : C → RepeatsPlain v.idToTok ls (data.drop p)) (hc : C → Calm pre) :
    Tells C (readTokensL data ls p v) (readTokens data ls p v) pre
      fun r l => ∀ v', r.1 = some v' → l = pre ∧ Filled v' ∧ v'.idToTok.length = v.idToTok.length + ls.length := by
  induction ls generalizing p v with
  | nil =>
    refine Tells.pure hc ?_
    intro v' h
    cases Option.some.inj h
    exact ⟨rfl, hv, rfl⟩
  | cons n ls ih =>
    unfold readTokensL readTokens
    simp only
    generalize hn : (if n = 0 then 256 else n) = len
    by_cases hf : p + len ≤ data.length
    · rw [if_pos hf, if_pos hf]
      have hcut : cut (n :: ls) (data.drop p) = (data.drop p).take len :: cut ls (data.drop (p + len)) := by
        rw [cut, hn, List.drop_drop]
      unfold RepeatsPlain at hC
      rw [hcut] at hC
      generalize (data.drop p).take len = t at hC ⊢
      rw [addTokenL_eq]
      cases ht : v.hasToken t with
      | true =>
        have hm := (hv.has t).mp ht
        have ha : v.addToken t = (false, v) := by simp [VocabT.addToken, ht]
        rw [if_pos rfl, ha]
        simp only
        refine Tells.after ((says_sayF (fmt_exists t)).then (says_pure _)) ?_
        refine Tells.fail (fmt_failAdd t) ?_ (by rintro v' ⟨⟩)
        intro c
        refine (hc c).append (calm_one fun _ => ?_)
        have hp : Plain t := hC c t (by
          rw [List.count_append, List.count_cons_self]
          have := List.count_pos_iff.mpr hm
          omega)
        exact plain_append (plain_append (by decide : Plain (bytes! "  token ")) hp)
          (by decide : Plain (bytes! " already exists"))
      | false =>
        obtain ⟨h1, h2, h3⟩ := hv.add ht
        rw [if_neg (by simp)]
        generalize v.addToken t = r at h1 h2 h3
        obtain ⟨b, v1⟩ := r
        cases h1
        simp only
        refine Tells.after (says_pure _) ?_
        rw [List.append_nil]
        simp only at h2
        refine (ih (p + len) v1 h3 ?_).mono ?_
        · intro c x hx
          refine hC c x ?_
          rw [h2] at hx
          simpa using hx
        · intro r l _ h v' hv'
          obtain ⟨k1, k2, k3⟩ := h v' hv'
          refine ⟨k1, k2, ?_⟩
          rw [k3, h2, List.length_append, List.length_singleton, List.length_cons]
          omega
    · rw [if_neg hf, if_neg hf]
      exact Tells.lift hc (by rintro a ⟨⟩)

/-! ## `init_vocab` -/

theorem fmt_noKey (t : List Nat) :
    vformat (bytes! "key {} is not found") [textArg t] = some (bytes! "key " ++ t ++ bytes! " is not found") := by
  formats (lits (bytes! "key ") ++ .field 0 [] :: lits (bytes! " is not found"))

theorem fmt_vocabShape (n m : Nat) :
    vformat (bytes! "invalid shape: vocab_size={}, vocab_data={}") [numArg n, numArg m] =
    some (bytes! "invalid shape: vocab_size=" ++ decimal n ++ bytes! ", vocab_data=" ++ decimal m) := by
  formats (lits (bytes! "invalid shape: vocab_size=") ++ .field 0 [] ::
    (lits (bytes! ", vocab_data=") ++ [.field 1 []]))

theorem fmt_sizeType (n : Nat) :
    vformat (bytes! "invalid type of vocab_size: {}") [numArg n] =
    some (bytes! "invalid type of vocab_size: " ++ decimal n) := by
  formats (lits (bytes! "invalid type of vocab_size: ") ++ [.field 0 []])

theorem fmt_dataType (n : Nat) :
    vformat (bytes! "invalid type of vocab_data: {}") [numArg n] =
    some (bytes! "invalid type of vocab_data: " ++ decimal n) := by
  formats (lits (bytes! "invalid type of vocab_data: ") ++ [.field 0 []])

theorem fmt_vocabCount (n : Nat) :
    vformat (bytes! "  vocab count: {}") [numArg n] = some (bytes! "  vocab count: " ++ decimal n) := by
  formats (lits (bytes! "  vocab count: ") ++ [.field 0 []])

/-- The first lines about the vocabulary. -/
def startLines (n : Nat) : List (Int × List Nat) :=
  [line 1 (bytes! "loading vocab"), line 0 (bytes! "  vocab count: " ++ decimal n)]

theorem vocabEnd_tells {g : Gguf} {ts : List LT} {v : VocabT} (hv : Filled v) {o : Option VocabR} {ls : List (Int × List Nat)}
    (hls : C → Calm ls)
    (he : ∀ y, o = some y → tokensOf y = v.idToTok ∧ (Holds v v.idToTok →
      ls = pre ++ startLines v.idToTok.length ++ (vocabLines g y ++ mergeLines ts y))) :
    Tells C (match o with
      | none => do
        say .error (bytes! "fail to build vocab")
        pure none
      | some v => do
        say .info (bytes! "finish loading vocab")
        pure (some v)) (.ok o) ls
      fun x ls => ∀ y, x = some y → (tokensOf y).length ≤ INVALID → ls = pre ++ (startLines (tokensOf y).length ++
        vocabLines g y ++ mergeLines ts y ++ [line 1 (bytes! "finish loading vocab")]) := by
  cases o with
  | none =>
    refine Tells.after (says_say _ _) (Tells.pure ?_ (by rintro y ⟨⟩))
    exact fun c => (hls c).append (calm_one fun _ => (by decide : Plain (bytes! "fail to build vocab")))
  | some y =>
    obtain ⟨h5, h6⟩ := he y rfl
    refine Tells.after (says_say _ _) (Tells.pure ?_ ?_)
    · exact fun c => (hls c).append (calm_info _)
    · intro y' hy hl
      cases Option.some.inj hy
      rw [h5] at hl
      rw [h6 (hv.holds hl), h5]
      simp only [List.append_assoc]
      rfl

theorem vocabInitL_tells (signed : Bool) (order : List (Str × Nat) → List (Str × Nat)) (arch : Nat) (g : Gguf)
    (ts : List LT) (hC : C → VocabPlain ts) (hc : C → Calm pre) :
    Tells C (vocabInitL signed order arch g ts) (vocabInit signed order arch g ts) pre
      fun x ls => ∀ y, x = some y → (tokensOf y).length ≤ INVALID → ls = pre ++ (startLines (tokensOf y).length ++
        vocabLines g y ++ mergeLines ts y ++ [line 1 (bytes! "finish loading vocab")]) := by
  unfold vocabInitL vocabInit Vocab.initVocab
  refine Tells.after (says_say .info (bytes! "loading vocab")) ?_
  have hc1 : C → Calm (pre ++ [line Sev.info.val (bytes! "loading vocab")]) := fun c => (hc c).append (calm_info _)
  cases hst : getTensor ts (ascii "berts.vocab.size") with
  | none => exact Tells.fail (fmt_noKey _) hc1 (by rintro y ⟨⟩)
  | some st =>
    cases hdt : getTensor ts (ascii "berts.vocab.data") with
    | none => exact Tells.fail (fmt_noKey _) hc1 (by rintro y ⟨⟩)
    | some dt =>
      simp only [Option.map_some, blob]
      by_cases h1 : st.ndims ≠ 1 ∨ dt.ndims ≠ 1
      · rw [if_pos h1, if_pos h1]
        exact Tells.fail (fmt_vocabShape _ _) hc1 (by rintro y ⟨⟩)
      rw [if_neg h1, if_neg h1]
      by_cases h2 : st.type = 16
      · rw [if_neg (show ¬ st.type ≠ 16 by simp [h2]), if_neg (show ¬ (!st.type == 16) = true by simp [h2])]
        by_cases h3 : dt.type = 16
        · rw [if_neg (show ¬ dt.type ≠ 16 by simp [h3]), if_neg (show ¬ (!dt.type == 16) = true by simp [h3])]
          refine Tells.after (says_sayF (v := .debug) (fmt_vocabCount _)) ?_
          have hr := readTokensL_tells (C := C) (pre := pre ++ [line Sev.info.val (bytes! "loading vocab")] ++
              [line 0 (bytes! "  vocab count: " ++ decimal st.data.length)])
            dt.data st.data 0 VocabT.new filled_new
            (fun c t ht => hC c st dt hst hdt t (by simpa [VocabT.new] using ht))
            (fun c => (hc1 c).append (calm_debug _))
          change Tells C _ (Res.bind (Res.bind (readTokens dt.data st.data 0 VocabT.new) _) _) _ _
          rw [bind_assoc']
          refine hr.bind ?_
          rintro ⟨o, p⟩ ls _ hls he
          cases o with
          | none => exact Tells.pure hls (by rintro y ⟨⟩)
          | some v =>
            obtain ⟨rfl, hv, hlen⟩ := he v rfl
            have hst : pre ++ [line Sev.info.val (bytes! "loading vocab")] ++
                [line 0 (bytes! "  vocab count: " ++ decimal st.data.length)] = pre ++ startLines v.idToTok.length := by
              rw [hlen, List.append_assoc]
              simp [VocabT.new, startLines, line, Sev.val]
            simp only
            by_cases h4 : p ≠ dt.data.length
            · rw [if_pos h4, if_pos h4]
              refine Tells.after (says_say _ _) (Tells.pure ?_ (by rintro y ⟨⟩))
              exact fun c => (hls c).append (calm_one fun _ => (by decide : Plain (bytes! "something wrong")))
            · rw [if_neg h4, if_neg h4]
              change Tells C _ (if arch = 0 then bertInit g v else robertaInit signed order g ts v) _ _
              have hr : ∀ r : Res (Option VocabR), r = r.bind fun o => .ok o := fun r => by cases r <;> rfl
              by_cases ha : arch = 0
              · rw [if_pos ha, if_pos ha, hr (bertInit g v)]
                exact (bertInitL_tells g v hls).bind fun o l _ hl he => vocabEnd_tells hv hl fun y hy => by
                  obtain ⟨⟨_, _, _, rfl⟩, h5, h6⟩ := he y hy
                  exact ⟨h5, fun hh => by rw [h6 hh, hst, mergeLines, List.append_nil]⟩
              · rw [if_neg ha, if_neg ha, hr (robertaInit signed order g ts v)]
                exact (robertaInitL_tells signed order g ts v hls).bind fun o l _ hl he =>
                  vocabEnd_tells hv hl fun y hy => by
                    obtain ⟨h5, h6⟩ := he y hy
                    exact ⟨h5, fun hh => by rw [h6 hh, hst]⟩
        · rw [if_pos (show dt.type ≠ 16 from h3), if_pos (show (!dt.type == 16) = true by simp [h3])]
          exact Tells.fail (fmt_dataType _) hc1 (by rintro y ⟨⟩)
      · rw [if_pos (show st.type ≠ 16 from h2), if_pos (show (!st.type == 16) = true by simp [h2])]
        exact Tells.fail (fmt_sizeType _) hc1 (by rintro y ⟨⟩)

end

end Berts.Load
