import Verif.Proofs.LoadLog

/-! # Lemmas about the messages about the vocabulary -/

namespace Berts.Load

open Berts.Vocab Berts.Log Berts.Format Berts.Spec
open Berts.Bert (runLines runLines_append runLines_one bind_assoc' ok_bind')

variable {α β : Type}

/-! ## Special tokens -/

/-- The line about a token that is not found. -/
def missing (found : List Nat → Bool) (t : List Nat) : List (Int × List Nat) :=
  if found t then [] else [line 1 (bytes! "token " ++ t ++ bytes! " is not found")]

theorem toIdL_says (v : VocabT) (t : List Nat) :
    Says (toIdL (v.tokenToId t) (v.hasToken t) t) (.ok (v.tokenToId t)) (missing v.hasToken t) := by
  unfold toIdL missing
  split
  · exact says_pure _
  · rename_i h
    refine Says.congr ((says_sayF (fmt_notFound t)).then (says_pure _)) ?_ rfl
    unfold VocabT.tokenToId
    unfold VocabT.hasToken at h
    cases hh : v.tokToId t with
    | none => rfl
    | some i => rw [hh] at h; exact absurd rfl h

/-- The lines of `get_token_id` for the id `m` of the metadata. -/
def lookLines (toId : List Nat → Nat) (found : List Nat → Bool) (key : List Nat) (a1 : List Nat)
    (a2 : Option (List Nat)) (m : Option Nat) : List (Int × List Nat) :=
  if m.getD INVALID = INVALID then
    [line 2 (key ++ bytes! " is not defined; use " ++ a1 ++ bytes! " instead")] ++ missing found a1 ++
    (if toId a1 = INVALID then
      match a2 with
      | none => [line 1 (a1 ++ bytes! " does not exist in vocab")]
      | some a2 =>
        [line 2 (a1 ++ bytes! " is not defined; use " ++ a2 ++ bytes! " instead")] ++ missing found a2 ++
        (if toId a2 = INVALID then [line 1 (a2 ++ bytes! " does not exist in vocab")] else [])
     else [])
  else []

theorem getTokenIdL_says {g : Gguf} {key : String} {toId : List Nat → LogM Nat} {tId : List Nat → Nat}
    {found : List Nat → Bool} {a1 : List Nat} {a2 : Option (List Nat)}
    (h1 : Says (toId a1) (.ok (tId a1)) (missing found a1))
    (h2 : ∀ a, a2 = some a → Says (toId a) (.ok (tId a)) (missing found a)) {m : Option Nat}
    (hm : u32Opt g key = .ok m) :
    Says (getTokenIdL g key toId a1 a2) (.ok (getTokenId m tId (some a1) a2))
      (lookLines tId found (ascii key) a1 a2 m) := by
  unfold getTokenIdL lookLines getTokenId
  rw [hm]
  rw [← List.nil_append (if m.getD INVALID = INVALID then _ else _)]
  refine (says_lift (Res.ok m)).then ?_
  simp only
  split
  · rw [List.append_assoc]
    refine (says_sayF (fmt_instead _ _)).then (h1.then ?_)
    split
    · cases a2 with
      | none =>
        rw [← List.append_nil [_]]
        exact (says_sayF (fmt_notExist _)).then (says_pure _)
      | some a2 =>
        simp only
        rw [List.append_assoc]
        refine (says_sayF (fmt_instead _ _)).then ((h2 a2 rfl).then ?_)
        split
        · rename_i h
          rw [← List.append_nil [_], h]
          exact (says_sayF (fmt_notExist _)).then (says_pure _)
        · exact says_pure _
    · exact says_pure _
  · exact says_pure _

theorem plain_append {a b : List Nat} (ha : Plain a) (hb : Plain b) : Plain (a ++ b) :=
  ⟨by simp [ha.1, hb.1], by simp [ha.2, hb.2]⟩

theorem calm_missing (found : List Nat → Bool) (t : List Nat) : Calm (missing found t) := by
  unfold missing
  split
  · exact calm_nil
  · exact calm_info _

theorem calm_instead {a b : List Nat} (ha : Plain a) (hb : Plain b) :
    Calm [line 2 (a ++ bytes! " is not defined; use " ++ b ++ bytes! " instead")] :=
  calm_one fun _ => plain_append (plain_append (plain_append ha (by decide : Plain (bytes! " is not defined; use "))) hb)
    (by decide : Plain (bytes! " instead"))

theorem calm_look (tId : List Nat → Nat) (found : List Nat → Bool) {key a1 : List Nat} {a2 : Option (List Nat)}
    (hk : Plain key) (h1 : Plain a1) (h2 : ∀ a, a2 = some a → Plain a) (m : Option Nat) :
    Calm (lookLines tId found key a1 a2 m) := by
  unfold lookLines
  split
  · refine ((calm_instead hk h1).append (calm_missing _ _)).append ?_
    split
    · cases a2 with
      | none => exact calm_info _
      | some a2 =>
        refine ((calm_instead h1 (h2 a2 rfl)).append (calm_missing _ _)).append ?_
        split
        · exact calm_info _
        · exact calm_nil
    · exact calm_nil
  · exact calm_nil

/-- The lines of the specification. -/
theorem look_search {g : Gguf} {key : String} {tId : List Nat → Nat} {found : List Nat → Bool} {a1 : List Nat}
    {a2 : Option (List Nat)} {V : List (List Nat)} {m : Option Nat} (hm : u32Opt g key = .ok m)
    (h1 : found a1 = true ↔ a1 ∈ V) (h1' : tId a1 = INVALID ↔ a1 ∉ V)
    (h2 : ∀ a, a2 = some a → (found a = true ↔ a ∈ V) ∧ (tId a = INVALID ↔ a ∉ V)) :
    lookLines tId found (ascii key) a1 a2 m = searchLines V g key (a1 :: a2.toList) := by
  have hmain : lookLines tId found (ascii key) a1 a2 none = fallbackLines V (ascii key) (a1 :: a2.toList) := by
    unfold lookLines missing
    rw [if_pos (show none.getD INVALID = INVALID from rfl)]
    by_cases hv : a1 ∈ V
    · rw [if_pos (h1.mpr hv), if_neg (fun h => h1'.mp h hv)]
      simp [fallbackLines, hv]
    · rw [if_neg (fun h => hv (h1.mp h)), if_pos (h1'.mpr hv)]
      cases a2 with
      | none => simp [fallbackLines, hv]
      | some a2 =>
        obtain ⟨g1, g2⟩ := h2 a2 rfl
        by_cases hv2 : a2 ∈ V
        · simp only [if_pos (g1.mpr hv2), if_neg (fun h => g2.mp h hv2)]
          simp [fallbackLines, hv, hv2]
        · simp only [if_neg (fun h => hv2 (g1.mp h)), if_pos (g2.mpr hv2)]
          simp [fallbackLines, hv, hv2]
  unfold u32Opt find at hm
  unfold searchLines valueOf
  split at hm
  · rename_i hk
    rw [hk]
    cases Res.ok.inj hm
    exact hmain
  · rename_i n hk
    rw [hk]
    cases Res.ok.inj hm
    simp only
    by_cases hn : n = INVALID
    · rw [if_pos hn, ← hmain]
      unfold lookLines
      simp [hn]
    · rw [if_neg hn]
      unfold lookLines
      simp [hn]
  · cases hm

section

variable {C : Prop} {pre : List (Int × List Nat)} {E : β → List (Int × List Nat) → Prop}

theorem Tells.look {g : Gguf} {key : String} {toId : List Nat → LogM Nat} {tId : List Nat → Nat}
    {found : List Nat → Bool} {a1 : List Nat} {a2 : Option (List Nat)}
    (h1 : Says (toId a1) (.ok (tId a1)) (missing found a1))
    (h2 : ∀ a, a2 = some a → Says (toId a) (.ok (tId a)) (missing found a)) {k : Nat → LogM β} {q : Option Nat → Res β}
    (hc : C → Calm pre)
    (hp : Plain (ascii key) ∧ Plain a1 ∧ ∀ a, a2 = some a → Plain a)
    (hk : ∀ m, u32Opt g key = .ok m →
      (C → Calm (pre ++ lookLines tId found (ascii key) a1 a2 m)) →
      Tells C (k (getTokenId m tId (some a1) a2)) (q m) (pre ++ lookLines tId found (ascii key) a1 a2 m) E) :
    Tells C (getTokenIdL g key toId a1 a2 >>= k) ((u32Opt g key).bind q) pre E := by
  by_cases hr : ∀ m, u32Opt g key ≠ .ok m
  · have hs : Says (getTokenIdL g key toId a1 a2) ((u32Opt g key).bind fun _ => .ok 0) [] := by
      unfold getTokenIdL
      exact (says_lift _).stop hr _ _
    have hq : (u32Opt g key).bind q = ((u32Opt g key).bind fun _ => (.ok 0 : Res Nat)).bind fun _ =>
        (u32Opt g key).bind q := by
      cases h : u32Opt g key with
      | ok m => exact absurd h (hr m)
      | ub => rfl
      | abort => rfl
      | hang => rfl
    refine ⟨[], ?_, by simpa using hc, fun b hb => absurd hb (bind_not_ok hr q b)⟩
    rw [hq]
    exact hs.stop (bind_not_ok hr _) _ _
  · have ⟨m, hm⟩ : ∃ a, u32Opt g key = .ok a := Classical.byContradiction fun hn => hr fun a ha => hn ⟨a, ha⟩
    have := hk m hm fun c => (hc c).append (calm_look tId found hp.1 hp.2.1 hp.2.2 m)
    rw [hm, ok_bind']
    exact Tells.after (getTokenIdL_says h1 h2 hm) this

end

theorem idToTokenL_says (v : VocabT) (id : Nat) :
    Says (Bert.idToTokenL v id) (.ok (v.idToToken id)) (noToken v.idToTok id) := by
  by_cases h : v.idToTok.length ≤ id
  · have h1 : Bert.idToTokenL v id = (sayF .error (bytes! "token id {} is not found (max={})")
        [numArg id, numArg v.idToTok.length] >>= fun _ => pure []) := by
      funext s
      rw [bindM]
      unfold Bert.idToTokenL sayF
      rw [if_pos h, bind_assoc']
      rfl
    rw [h1]
    refine Says.congr ((says_sayF (fmt_noId ..)).then (says_pure _)) ?_ ?_
    · unfold VocabT.idToToken
      rw [if_pos h]
    · unfold noToken
      rw [if_neg (by omega)]
      rfl
  · have h1 : Bert.idToTokenL v id = (pure (v.idToToken id) : LogM (List Nat)) := by
      funext s
      unfold Bert.idToTokenL
      rw [if_neg h]
      rfl
    rw [h1]
    refine Says.congr (says_pure _) rfl ?_
    unfold noToken
    rw [if_pos (by omega)]

theorem noToken_low (V : List (List Nat)) (id : Nat) : ∀ l ∈ noToken V id, l.1 ≤ 1 := by
  unfold noToken
  split
  · simp
  · intro l hl
    rw [List.mem_singleton] at hl
    subst hl
    exact Int.le_refl 1

theorem idToToken_at (v : VocabT) (id : Nat) : v.idToToken id = tokenAt v.idToTok id := by
  unfold VocabT.idToToken tokenAt
  rw [List.getD_eq_getElem?_getD]
  split
  · rename_i h
    rw [List.getElem?_eq_none h]
    rfl
  · rfl

/-! ## BERT -/

theorem fmt_id5 (x : Nat) (t : List Nat) :
    (vformat (bytes! "  cls_id:  {} ({})") [numArg x, textArg t] =
      some (bytes! "  cls_id:  " ++ decimal x ++ bytes! " (" ++ t ++ bytes! ")")) ∧
    (vformat (bytes! "  mask_id: {} ({})") [numArg x, textArg t] =
      some (bytes! "  mask_id: " ++ decimal x ++ bytes! " (" ++ t ++ bytes! ")")) ∧
    (vformat (bytes! "  pad_id:  {} ({})") [numArg x, textArg t] =
      some (bytes! "  pad_id:  " ++ decimal x ++ bytes! " (" ++ t ++ bytes! ")")) ∧
    (vformat (bytes! "  sep_id:  {} ({})") [numArg x, textArg t] =
      some (bytes! "  sep_id:  " ++ decimal x ++ bytes! " (" ++ t ++ bytes! ")")) ∧
    (vformat (bytes! "  unk_id:  {} ({})") [numArg x, textArg t] =
      some (bytes! "  unk_id:  " ++ decimal x ++ bytes! " (" ++ t ++ bytes! ")")) ∧
    (vformat (bytes! "  bos_id:  {} ({})") [numArg x, textArg t] =
      some (bytes! "  bos_id:  " ++ decimal x ++ bytes! " (" ++ t ++ bytes! ")")) ∧
    (vformat (bytes! "  eos_id:  {} ({})") [numArg x, textArg t] =
      some (bytes! "  eos_id:  " ++ decimal x ++ bytes! " (" ++ t ++ bytes! ")")) := by
  refine ⟨?_, ?_, ?_, ?_, ?_, ?_, ?_⟩
  · formats (lits (bytes! "  cls_id:  ") ++ .field 0 [] :: (lits (bytes! " (") ++ .field 1 [] :: lits (bytes! ")")))
  · formats (lits (bytes! "  mask_id: ") ++ .field 0 [] :: (lits (bytes! " (") ++ .field 1 [] :: lits (bytes! ")")))
  · formats (lits (bytes! "  pad_id:  ") ++ .field 0 [] :: (lits (bytes! " (") ++ .field 1 [] :: lits (bytes! ")")))
  · formats (lits (bytes! "  sep_id:  ") ++ .field 0 [] :: (lits (bytes! " (") ++ .field 1 [] :: lits (bytes! ")")))
  · formats (lits (bytes! "  unk_id:  ") ++ .field 0 [] :: (lits (bytes! " (") ++ .field 1 [] :: lits (bytes! ")")))
  · formats (lits (bytes! "  bos_id:  ") ++ .field 0 [] :: (lits (bytes! " (") ++ .field 1 [] :: lits (bytes! ")")))
  · formats (lits (bytes! "  eos_id:  ") ++ .field 0 [] :: (lits (bytes! " (") ++ .field 1 [] :: lits (bytes! ")")))

theorem showId_says (v : VocabT) (f what : List Nat) (id : Nat)
    (h : ∀ t, vformat f [numArg id, textArg t] = some (what ++ decimal id ++ bytes! " (" ++ t ++ bytes! ")")) :
    Says (showId v f id) (.ok ()) (noToken v.idToTok id ++ [idLine v.idToTok what id]) := by
  unfold showId
  refine (idToTokenL_says v id).then ?_
  refine Says.congr (says_sayF (h _)) rfl ?_
  unfold idLine
  rw [idToToken_at]

theorem idLine_low (V : List (List Nat)) (what : List Nat) (id : Nat) : (idLine V what id).1 ≤ 1 := Int.le_refl 1

/-- The lines about the five ids of BERT. -/
def fiveLines (V : List (List Nat)) (cls mask pad sep unk : Nat) : List (Int × List Nat) :=
  (noToken V cls ++ [idLine V (bytes! "  cls_id:  ") cls]) ++
  ((noToken V mask ++ [idLine V (bytes! "  mask_id: ") mask]) ++
  ((noToken V pad ++ [idLine V (bytes! "  pad_id:  ") pad]) ++
  ((noToken V sep ++ [idLine V (bytes! "  sep_id:  ") sep]) ++
  (noToken V unk ++ [idLine V (bytes! "  unk_id:  ") unk]))))

theorem fiveLines_low (V : List (List Nat)) (cls mask pad sep unk : Nat) :
    ∀ l ∈ fiveLines V cls mask pad sep unk, l.1 ≤ 1 := by
  have h : ∀ (what : List Nat) (id : Nat) (l), l ∈ noToken V id ++ [idLine V what id] → l.1 ≤ 1 := by
    intro what id l hl
    rcases List.mem_append.mp hl with h | h
    · exact noToken_low V id l h
    · rw [List.mem_singleton] at h
      subst h
      exact idLine_low V what id
  intro l hl
  unfold fiveLines at hl
  rcases List.mem_append.mp hl with hl | hl
  · exact h _ _ l hl
  rcases List.mem_append.mp hl with hl | hl
  · exact h _ _ l hl
  rcases List.mem_append.mp hl with hl | hl
  · exact h _ _ l hl
  rcases List.mem_append.mp hl with hl | hl
  · exact h _ _ l hl
  · exact h _ _ l hl

theorem five_says (v : VocabT) (cls mask pad sep unk : Nat) :
    Says (sayWhen 1 do
      showId v (bytes! "  cls_id:  {} ({})") cls
      showId v (bytes! "  mask_id: {} ({})") mask
      showId v (bytes! "  pad_id:  {} ({})") pad
      showId v (bytes! "  sep_id:  {} ({})") sep
      showId v (bytes! "  unk_id:  {} ({})") unk) (.ok ()) (fiveLines v.idToTok cls mask pad sep unk) := by
  refine Says.when ?_ (fiveLines_low _ _ _ _ _ _)
  unfold fiveLines
  exact (showId_says v _ _ _ fun t => (fmt_id5 _ t).1).then
    ((showId_says v _ _ _ fun t => (fmt_id5 _ t).2.1).then
    ((showId_says v _ _ _ fun t => (fmt_id5 _ t).2.2.1).then
    ((showId_says v _ _ _ fun t => (fmt_id5 _ t).2.2.2.1).then
    (showId_says v _ _ _ fun t => (fmt_id5 _ t).2.2.2.2.1))))

theorem cond_says (basic : Bool) (c : Bert.TokInfo) :
    Says (sayWhen 1 (condL basic c)) (.ok ()) (optionLines basic c) := by
  refine Says.when ?_ ?_
  · unfold condL
    exact (says_sayF (fmt_bool _)).then (says_sayF (fmt_cond ..))
  · intro l hl
    unfold optionLines at hl
    rcases List.mem_cons.mp hl with rfl | hl
    · exact Int.le_refl 1
    · rw [List.mem_singleton] at hl
      subst hl
      exact Int.le_refl 1

theorem calm_option (basic : Bool) (c : Bert.TokInfo) : Calm (optionLines basic c) := by
  refine calm_low ?_
  intro l hl
  unfold optionLines at hl
  rcases List.mem_cons.mp hl with rfl | hl
  · exact Int.le_refl 1
  · rw [List.mem_singleton] at hl
    subst hl
    exact Int.le_refl 1

theorem bertToIdL_says (v : VocabT) (t : List Nat) :
    Says (bertToIdL v t) (.ok (v.tokenToId t)) (missing v.hasToken t) := toIdL_says v t

theorem holds_id {v : VocabT} (h : Holds v v.idToTok) (t : List Nat) : v.tokenToId t = INVALID ↔ t ∉ v.idToTok := by
  constructor
  · intro hi hm
    obtain ⟨i, hi'⟩ := List.getElem?_of_mem hm
    rw [tokenToId_mem h t i hi'] at hi
    have := (List.getElem?_eq_some_iff.mp hi').1
    have := h.2.2.1
    omega
  · exact tokenToId_not_mem h t

theorem boolOr_basic {g : Gguf} {b : Bool} (h : boolOr g "berts.do_basic_tokenize" true = .ok b) : basicOf g = b := by
  unfold boolOr find at h
  unfold basicOf valueOf
  split at h
  · rename_i hk; rw [hk]; exact Res.ok.inj h
  · rename_i hk; rw [hk]; exact Res.ok.inj h
  · cases h

theorem bertInitL_tells {C : Prop} {pre : List (Int × List Nat)} (g : Gguf) (v : VocabT) (hc : C → Calm pre) :
    Tells C (bertInitL g v) (bertInit g v) pre
      fun x ls => ∀ y, x = some y → (∃ v sp cond, y = .bert v sp cond) ∧ tokensOf y = v.idToTok ∧
        (Holds v v.idToTok → ls = pre ++ vocabLines g y) := by
  unfold bertInitL bertInit bertMeta
  simp only [bind_assoc', ok_bind']
  have hs : ∀ t, Says (bertToIdL v t) (.ok (v.tokenToId t)) (missing v.hasToken t) := bertToIdL_says v
  refine Tells.look (hs _) (fun a _ => hs a) hc ⟨by decide, by decide, by rintro a ⟨⟩; decide⟩ fun m1 e1 hc1 => ?_
  refine Tells.look (hs _) (fun a _ => hs a) hc1 ⟨by decide, by decide, by rintro a ⟨⟩; decide⟩ fun m2 e2 hc2 => ?_
  refine Tells.look (hs _) (fun a _ => hs a) hc2 ⟨by decide, by decide, by rintro a ⟨⟩; decide⟩ fun m3 e3 hc3 => ?_
  refine Tells.look (hs _) (fun a _ => hs a) hc3 ⟨by decide, by decide, by rintro a ⟨⟩; decide⟩ fun m4 e4 hc4 => ?_
  refine Tells.look (hs _) (fun a _ => hs a) hc4 ⟨by decide, by decide, by rintro a ⟨⟩; decide⟩ fun m5 e5 hc5 => ?_
  refine Tells.after (five_says v _ _ _ _ _) ?_
  have hc6 := fun c => (hc5 c).append (calm_low (fiveLines_low v.idToTok
    (getTokenId m1 v.tokenToId (some (ascii "[CLS]")) (some (ascii "<s>")))
    (getTokenId m2 v.tokenToId (some (ascii "[MASK]")) (some (ascii "<mask>")))
    (getTokenId m3 v.tokenToId (some (ascii "[PAD]")) (some (ascii "<pad>")))
    (getTokenId m4 v.tokenToId (some (ascii "[SEP]")) (some (ascii "</s>")))
    (getTokenId m5 v.tokenToId (some (ascii "[UNK]")) (some (ascii "<unk>")))))
  unfold bertIds Vocab.bertSpecials
  simp only
  generalize hcls : getTokenId m1 v.tokenToId (some (ascii "[CLS]")) (some (ascii "<s>")) = cls at *
  generalize hmask : getTokenId m2 v.tokenToId (some (ascii "[MASK]")) (some (ascii "<mask>")) = mask at *
  generalize hpad : getTokenId m3 v.tokenToId (some (ascii "[PAD]")) (some (ascii "<pad>")) = pad at *
  generalize hsep : getTokenId m4 v.tokenToId (some (ascii "[SEP]")) (some (ascii "</s>")) = sep at *
  generalize hunk : getTokenId m5 v.tokenToId (some (ascii "[UNK]")) (some (ascii "<unk>")) = unk at *
  by_cases hi : cls = INVALID ∨ mask = INVALID ∨ pad = INVALID ∨ sep = INVALID ∨ unk = INVALID
  · have hm : INVALID ∈ [cls, mask, pad, sep, unk] := by
      rcases hi with h | h | h | h | h <;> simp [h]
    rw [if_pos hi, if_pos hm]
    exact Tells.pure hc6 (by rintro y ⟨⟩)
  · have hm : INVALID ∉ [cls, mask, pad, sep, unk] := by
      intro hm
      apply hi
      simp only [List.mem_cons, List.not_mem_nil, or_false] at hm
      rcases hm with h | h | h | h | h <;> simp [← h]
    rw [if_neg hi, if_neg hm, if_neg hi]
    unfold bertCond
    simp only [bind_assoc', ok_bind']
    refine Tells.lift_bind hc6 fun lower e6 => ?_
    refine Tells.lift_bind hc6 fun basic e7 => ?_
    refine Tells.lift_bind hc6 fun cjk e8 => ?_
    refine Tells.lift_bind hc6 fun strip e9 => ?_
    refine Tells.after (cond_says _ _) ?_
    generalize hcond : ({ (if basic then Bert.basicInfo else Bert.noBasicInfo) with
      lowerCase := lower, addCjk := cjk, stripAcc := strip } : Bert.TokInfo) = cond
    have hc7 := fun c => (hc6 c).append (calm_option basic cond)
    by_cases h0 : v.tokenCount = 0
    · rw [if_pos h0, if_pos h0]
      refine Tells.after (says_say _ _) (Tells.pure ?_ (by rintro y ⟨⟩))
      exact fun c => (hc7 c).append (calm_one fun _ => (by decide : Plain (bytes! "fail to build vocab")))
    · rw [if_neg h0, if_neg h0]
      refine Tells.pure hc7 ?_
      rintro y hy
      cases Option.some.inj hy
      refine ⟨⟨_, _, _, rfl⟩, rfl, fun hv => ?_⟩
      have hf := hasToken_iff hv
      have hid := holds_id hv
      unfold vocabLines
      simp only
      rw [look_search e1 (hf _) (hid _) fun a _ => ⟨hf _, hid _⟩, look_search e2 (hf _) (hid _) fun a _ => ⟨hf _, hid _⟩,
        look_search e3 (hf _) (hid _) fun a _ => ⟨hf _, hid _⟩, look_search e4 (hf _) (hid _) fun a _ => ⟨hf _, hid _⟩,
        look_search e5 (hf _) (hid _) fun a _ => ⟨hf _, hid _⟩, boolOr_basic e7]
      unfold fiveLines
      simp only [List.append_assoc, Option.toList]

end Berts.Load
