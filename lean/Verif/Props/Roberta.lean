import Verif.Proofs.RobertaTok
import Verif.Proofs.RobertaRef

/-! # Properties of the RoBERTa vocabulary and tokenizer: C28–C33, C63–C65 -/

namespace Berts.Props

open Berts.Unicode Berts.Vocab Berts.Bpe Berts.Spec Berts.Roberta

/-! ## C28 -/

/-- C28: the table is GPT-2's byte alphabet, and it has exactly 256 entries. -/
theorem C28_table : byteEncoder.length = 256 ∧ ∀ b, b < 256 → byteEncoder[b]? = some (byteChar b) :=
  ⟨byteEncoder_length, byteEncoder_spec⟩

/-- C28: printable bytes stand for themselves; no character of the alphabet is blank or a control
character; different bytes have different characters. -/
theorem C28_alphabet (b c : Nat) (hb : byteEncoder[b]? = some c) :
    (Printable b → c = b) ∧ ¬ BlankOrControl c ∧ c < 0x144 ∧
      ∀ b', byteEncoder[b']? = some c → b' = b := by
  have hlt : ∀ {x y : Nat}, byteEncoder[x]? = some y → x < 256 ∧ y = byteChar x := by
    intro x y h
    have h1 := (List.getElem?_eq_some_iff.mp h).1
    rw [byteEncoder_length] at h1
    rw [byteEncoder_spec x h1] at h
    exact ⟨h1, (Option.some.inj h).symm⟩
  obtain ⟨h1, h2⟩ := hlt hb
  refine ⟨?_, ?_, h2 ▸ byteChar_lt b h1, ?_⟩
  · intro hp; rw [h2, byteChar, if_pos hp]
  · have : ∀ x, x < 256 → ¬ BlankOrControl (byteChar x) := by decide +kernel
    rw [h2]; exact this b h1
  · intro b' hb'
    obtain ⟨h3, h4⟩ := hlt hb'
    exact byteChar_inj h3 h1 (h4.symm.trans h2)

/-- C28: two byte strings with the same encoding are equal (here for unsigned `char`; the encoding
of a byte string is always defined then). -/
theorem C28_recoverable (a b u : List Nat) (ha : Bytes a) (hb : Bytes b)
    (h1 : encodeBytes false a = .ok u) (h2 : encodeBytes false b = .ok u) : a = b := by
  rw [encodeBytes_ok ha (by simp)] at h1
  rw [encodeBytes_ok hb (by simp)] at h2
  simp only [Res.ok.injEq] at h1 h2
  exact byteChars_inj ha hb (h1.trans h2.symm)

example : byteEncoder[0x20]? = some 0x120 := by decide
example : Bytes [0, 32, 255] ∧ encodeBytes false [0, 32, 255] = .ok [0x100, 0x120, 0xff] := by decide

/-! ## C29 -/

/-- Bytes that `id_to_token` decodes correctly. -/
def SafeByte (b : Nat) : Prop := ¬ (b = 0x7f ∨ (0x80 ≤ b ∧ b ≤ 0xa0) ∨ b = 0xad)

instance : DecidablePred SafeByte := fun b => by unfold SafeByte; infer_instance

/-- The character of a byte has the byte as its lower half exactly for safe bytes. -/
theorem safeByte_iff : ∀ b, b < 256 → (byteChar b % 256 = b ↔ SafeByte b) := by decide +kernel

theorem map_safe {bs : List Nat} (hb : Bytes bs) (hs : ∀ b ∈ bs, SafeByte b) :
    bs.map (fun b => byteChar b % 256) = bs := by
  conv => rhs; rw [← List.map_id bs]
  apply List.map_congr_left
  intro b hbm
  exact (safeByte_iff b (hb b hbm)).mpr (hs b hbm)

/-- C29, exact behaviour: for an entry that is the encoding of the byte string `bs`, `id_to_token`
returns `bs` if and only if all its bytes are safe. -/
theorem C29_id_to_token_iff (v : VocabT) (id : Nat) (bs : List Nat) (hb : Bytes bs)
    (he : v.idToToken id = utf8Encode (byteChars bs)) :
    idToToken v id = .ok bs ↔ ∀ b ∈ bs, SafeByte b := by
  rw [idToToken_cps (byteChars_scalar hb) he]
  simp only [Res.ok.injEq, byteChars, List.map_map]
  constructor
  · intro h b hbm
    rw [← safeByte_iff b (hb b hbm)]
    have : ∀ (l m : List Nat), l.map (fun b => byteChar b % 256) = m → l = m →
        ∀ b ∈ l, byteChar b % 256 = b := by
      intro l m h1 h2
      subst h2
      intro b hb
      have h3 := List.map_eq_map_iff (f := fun b => byteChar b % 256) (g := fun x => x) (l := l)
      rw [List.map_id'] at h3
      exact h3.mp h1 b hb
    exact this bs bs h rfl b hbm
  · exact map_safe hb

/-- C29 (partial: only for entries made of safe bytes): `id_to_token` returns the byte string whose
encoding is the vocabulary entry. -/
theorem C29_id_to_token_partial (v : VocabT) (id : Nat) (bs : List Nat) (hb : Bytes bs)
    (hs : ∀ b ∈ bs, SafeByte b) (he : v.idToToken id = utf8Encode (byteChars bs)) :
    idToToken v id = .ok bs := (C29_id_to_token_iff v id bs hb he).mpr hs

/-- C29 (partial: for signed `char` only ASCII strings): `token_to_id` finds the entry that is the
encoding of the given byte string. -/
theorem C29_token_to_id_partial (signed : Bool) (v : VocabT) (l : List (List Nat)) (hv : Holds v l)
    (bs : List Nat) (hb : Bytes bs) (hs : signed = true → ∀ b ∈ bs, b < 0x80) :
    (∀ i, l[i]? = some (utf8Encode (byteChars bs)) → tokenToId signed v bs = .ok i) ∧
    (utf8Encode (byteChars bs) ∉ l → tokenToId signed v bs = .ok INVALID) := by
  have key : tokenToId signed v bs = .ok (v.tokenToId (utf8Encode (byteChars bs))) := by
    unfold tokenToId
    rw [encodeBytes_ok hb hs, res_bind_ok]
    have := encodeUnits_ok (byteChars bs) (byteChars_scalar hb)
    rw [byteChars_utf16 hb] at this
    rw [this]; rfl
  rw [key]
  constructor
  · intro i hi; rw [tokenToId_mem hv _ i hi]
  · intro hn; rw [tokenToId_not_mem hv _ hn]

/-- C29 (partial): both directions together. -/
theorem C29_round_trip_partial (signed : Bool) (v : VocabT) (l : List (List Nat)) (hv : Holds v l)
    (id : Nat) (bs : List Nat) (hb : Bytes bs) (hsafe : ∀ b ∈ bs, SafeByte b)
    (hs : signed = true → ∀ b ∈ bs, b < 0x80) (he : l[id]? = some (utf8Encode (byteChars bs))) :
    idToToken v id = .ok bs ∧ tokenToId signed v bs = .ok id := by
  refine ⟨C29_id_to_token_partial v id bs hb hsafe ?_, (C29_token_to_id_partial signed v l hv bs hb hs).1 id he⟩
  have hlt := (List.getElem?_eq_some_iff.mp he).1
  unfold VocabT.idToToken
  rw [if_neg (by rw [hv.1]; omega), hv.1, he]; rfl

/-! ### Example vocabulary -/

/-- `<s> </s> <mask> <pad> <unk> a b ab Ġ ġ Ġa é`, the last one as the two encoded bytes of `é`. -/
def robTokens : List (List Nat) :=
  [ascii "<s>", ascii "</s>", ascii "<mask>", ascii "<pad>", ascii "<unk>", [97], [98], [97, 98],
   utf8Encode [0x120], utf8Encode [0x121], utf8Encode [0x120, 97], utf8Encode [0xc3], utf8Encode [0xa9]]

def robV : VocabT := VocabT.new.run (robTokens.map .add)

def robMeta : Meta := ⟨none, none, none, none, none, none, none⟩

def robMerge : MergeTensor := ⟨true, 1, [5, 6, 0, 8, 5, 1]⟩

theorem robV_holds : Holds robV robTokens := by
  have h := holds_run VocabT.new [] holds_new (robTokens.map .add) (by decide)
  have e : (robTokens.map Op.add).foldl (fun l o => match o with
      | .add t => if t ∈ l then l else l ++ [t]
      | .clear => []) [] = robTokens := by decide +kernel
  exact e ▸ h

def robCps : List (List Nat) :=
  [ascii "<s>", ascii "</s>", ascii "<mask>", ascii "<pad>", ascii "<unk>", [97], [98], [97, 98],
   [0x120], [0x121], [0x120, 97], [0xc3], [0xa9]]

theorem rob_utf8 : Utf8Vocab robTokens robCps := ⟨by decide +kernel, by decide +kernel⟩

/-- A regex engine that matches every unit that is not a surrogate on its own. -/
def robEnv (signed : Bool) : Roberta.Env :=
  ⟨signed, fun _ => [], fun c => c == 32, ⟨fun _ => 0, heapPick, 1000⟩, 100⟩

/-- The special tokens of the example vocabulary. -/
def robSpecial : Special := ⟨0, 2, 3, 1, 4, 0, 1⟩

theorem rob_init (signed : Bool) : ∃ b, init signed robMeta (some robMerge) id robV = .ok (some ⟨robV, robSpecial, b⟩) := by
  have h1 : robertaSpecials robMeta (literalId signed robV) = some robSpecial := by
    cases signed <;> decide +kernel
  have h2 : ∀ x : Res (Option RVocab), (match x with
      | .ok (some r) => decide (r.bpe.vocab.length = 13)
      | _ => false) = true → ∃ r, x = .ok (some r) := by
    intro x
    cases x with
    | ok o => cases o with
      | some r => exact fun _ => ⟨r, rfl⟩
      | none => intro h; simp at h
    | ub => intro h; simp at h
    | abort => intro h; simp at h
    | hang => intro h; simp at h
  unfold init
  rw [h1]
  simp only
  obtain ⟨r, hr⟩ := h2 (initBpe (some robMerge) id robV robSpecial) (by decide +kernel)
  have := initBpe_inited (fun m => List.Perm.refl m) robV_holds rob_utf8 hr
  refine ⟨r.bpe, ?_⟩
  rw [hr]
  obtain ⟨v, sp, b⟩ := r
  obtain ⟨_, h3, h4⟩ := this
  simp only at h3 h4
  rw [h3, h4]

example : Bytes [32, 97] ∧ (∀ b ∈ [32, 97], SafeByte b) ∧ (∀ b ∈ [32, 97], b < 0x80) ∧
    robTokens[10]? = some (utf8Encode (byteChars [32, 97])) := by decide +kernel

/-- C29 fails for the entry `ġ`, the encoding of the byte 0x7f: `id_to_token` returns `!`, the
token of another id. -/
theorem C29_decode_counterexample :
    robV.idToToken 9 = utf8Encode (byteChars [0x7f]) ∧ idToToken robV 9 = .ok (ascii "!") ∧
    tokenToId false robV (ascii "!") = .ok INVALID := by decide +kernel

/-! ## C30 -/

/-- C30, exact behaviour of the table lookups: encoding a byte string is defined if and only if
`char` is unsigned or the string is ASCII. -/
theorem C30_encode_iff (signed : Bool) (bs : List Nat) (hb : Bytes bs) :
    (∃ u, encodeBytes signed bs = .ok u) ↔ (signed = true → ∀ b ∈ bs, b < 0x80) := by
  constructor
  · rintro ⟨u, h⟩ hs
    subst hs
    induction bs generalizing u with
    | nil => simp
    | cons c bs ih =>
      unfold encodeBytes at h
      obtain ⟨a, h1, h2⟩ := bind_eq_ok h
      obtain ⟨us, h3, _⟩ := bind_eq_ok h2
      have hc : c < 0x80 := by
        apply Nat.lt_of_not_le
        intro hge
        unfold encodeByte at h1
        rw [if_pos ⟨rfl, hge⟩] at h1
        cases h1
      intro b hbm
      rcases List.mem_cons.mp hbm with rfl | hbm
      · exact hc
      · exact ih (fun x hx => hb x (by simp [hx])) us h3 b hbm
  · intro hs
    exact ⟨_, encodeBytes_ok hb hs⟩

/-- C30: the same condition decides whether `token_to_id` is defined. -/
theorem C30_token_to_id_iff (signed : Bool) (v : VocabT) (bs : List Nat) (hb : Bytes bs) :
    (∃ i, tokenToId signed v bs = .ok i) ↔ (signed = true → ∀ b ∈ bs, b < 0x80) := by
  rw [← C30_encode_iff signed bs hb]
  constructor
  · rintro ⟨i, h⟩
    obtain ⟨u, h1, _⟩ := bind_eq_ok h
    exact ⟨u, h1⟩
  · rintro ⟨u, h⟩
    obtain ⟨bs', h2⟩ := encodeUnits_ne_ub u
    exact ⟨_, by unfold tokenToId; rw [h, res_bind_ok, h2]; rfl⟩

/-- The ids of the special tokens. -/
def specialIds (sp : Special) : List Nat := [sp.bos, sp.eos, sp.cls, sp.mask, sp.pad, sp.sep, sp.unk]

/-- The special tokens are non-empty ASCII entries of the vocabulary. -/
def AsciiSpecials (l : List (List Nat)) (sp : Special) : Prop :=
  ∀ id ∈ specialIds sp, ∃ s, l[id]? = some s ∧ s ≠ [] ∧ ∀ c ∈ s, c < 0x80

/-- The strings of the special tokens. -/
def specialStrings (l : List (List Nat)) (sp : Special) : List (List Nat) :=
  (specialIds sp).map (fun id => l[id]?.getD [])

theorem ascii_special {v : VocabT} {l : List (List Nat)} (hv : Holds v l) {id : Nat} {s : List Nat}
    (h : l[id]? = some s) (ha : ∀ c ∈ s, c < 0x80) : idToToken v id = .ok s := by
  have hlt := (List.getElem?_eq_some_iff.mp h).1
  have hsc : ∀ c ∈ s, IsScalar c := fun c hc => by have := ha c hc; left; omega
  have e : v.idToToken id = utf8Encode s := by
    unfold VocabT.idToToken
    rw [if_neg (by rw [hv.1]; omega), hv.1, h, utf8_ascii s ha]; rfl
  rw [idToToken_cps hsc e]
  congr 1
  conv => rhs; rw [← List.map_id' s]
  apply List.map_congr_left
  intro c hc
  have := ha c hc
  omega

theorem specialTokens_ok {v : VocabT} {l : List (List Nat)} (hv : Holds v l) {sp : Special}
    (ha : AsciiSpecials l sp) : specialTokens v sp = .ok (specialStrings l sp) := by
  have key : ∀ id ∈ specialIds sp, idToToken v id = .ok (l[id]?.getD []) := by
    intro id hid
    obtain ⟨s, h1, _, h3⟩ := ha id hid
    rw [ascii_special hv h1 h3, h1]; rfl
  unfold specialTokens
  simp only [specialIds, List.mem_cons, List.not_mem_nil, or_false, forall_eq_or_imp, forall_eq] at key
  obtain ⟨k1, k2, k3, k4, k5, k6, k7⟩ := key
  rw [k1, k2, k3, k4, k5, k6, k7]
  rfl

theorem specialStrings_spec {l : List (List Nat)} {sp : Special} (ha : AsciiSpecials l sp) :
    ∀ s ∈ specialStrings l sp, s ∈ l ∧ s ≠ [] ∧ ∀ c ∈ s, c < 0x80 := by
  intro s hs
  obtain ⟨id, hid, rfl⟩ := List.mem_map.mp hs
  obtain ⟨s, h1, h2, h3⟩ := ha id hid
  rw [h1]
  exact ⟨List.mem_of_getElem? h1, h2, h3⟩

/-- `setOrder` lists the elements of the set in some order. -/
def SetOrder (setOrder : List (List Nat) → List (List Nat)) : Prop :=
  ∀ l k, k ∈ setOrder l ↔ k ∈ l

theorem Cut.congr {k k' : List (List Nat)} (h : ∀ x, x ∈ k ↔ x ∈ k') {text : List Nat}
    {p : List (Bool × List Nat)} (c : Cut k text p) : Cut k' text p :=
  ⟨c.concat, fun q hq ht => (h _).mp (c.special q hq ht), c.plain,
    fun pre q post e hf a x b e2 s hs => c.none_inside pre q post e hf a x b e2 s ((h s).mpr hs),
    c.maximal⟩

/-- C30 (partial: for signed `char` only ASCII texts; the special tokens are ASCII): tokenizing a
UTF-8 text returns, without undefined behaviour, for every vocabulary. -/
theorem C30_tokenize_partial (r : RVocab) (l : List (List Nat)) (hv : Holds r.v l)
    (hsp : AsciiSpecials l r.special) (e : Roberta.Env) (setOrder : List (List Nat) → List (List Nat))
    (ho : SetOrder setOrder) (cs : List Nat) (hcs : ∀ c ∈ cs, IsScalar c)
    (he : EnvOK e (utf8Encode cs).length) (hf : (utf8Encode cs).length ≤ e.fuel)
    (hs : e.signed = true → ∀ c ∈ cs, c < 0x80) :
    ∃ o, Roberta.tokenize e r setOrder (utf8Encode cs) = .ok o := by
  have hspec := specialStrings_spec hsp
  have hk : [] ∉ setOrder (specialStrings l r.special) := fun h => (hspec [] ((ho _ _).mp h)).2.1 rfl
  obtain ⟨pieces, h1, h2⟩ := splitLoop_ok _ hk e.fuel (utf8Encode cs) hf
  have h2 := Cut.congr (ho _) h2
  obtain ⟨s, hm, hm2, hm3⟩ := hsp r.special.mask (by simp [specialIds])
  unfold Roberta.tokenize tokenizeWith
  rw [specialTokens_ok hv hsp, res_bind_ok, h1, res_bind_ok, ascii_special hv hm hm3, res_bind_ok]
  have hasc : ∀ p ∈ pieces, p.1 = true → p.2 ≠ [] ∧ ∀ c ∈ p.2, c < 0x80 :=
    fun p hp ht => (hspec p.2 (h2.special p hp ht)).2
  apply pieceLoop_defined r he s pieces (fun p hp ht => (hasc p hp ht).2)
  intro p hp ht
  obtain ⟨c1, g1, g2⟩ := plain_utf8 pieces cs h2.concat hasc h2.maximal p hp ht
  have hsub : ∀ x ∈ p.2, x ∈ utf8Encode cs := by
    intro x hx
    rw [← h2.concat]
    exact List.mem_flatten.mpr ⟨p.2, List.mem_map_of_mem hp, hx⟩
  refine ⟨⟨c1, g1, fun c hc => hcs c (g2 c hc)⟩, ?_, ?_⟩
  · rw [← h2.concat]
    exact (List.sublist_flatten_of_mem (List.mem_map_of_mem (f := (·.2)) hp)).length_le
  · intro h x hx
    have := hsub x hx
    rw [utf8_ascii cs (hs h)] at this
    exact hs h x this

theorem robEnv_ok (signed : Bool) : EnvOK (robEnv signed) 10 := by
  refine ⟨⟨fun text => by simp [robEnv, Matches], fun cs _ m hm => by simp [robEnv] at hm⟩, heapPick_right.any, by decide +revert⟩

theorem rob_specials : AsciiSpecials robTokens robSpecial := by
  intro id hid
  simp only [specialIds, robSpecial, List.mem_cons, List.not_mem_nil, or_false] at hid
  rcases hid with rfl | rfl | rfl | rfl | rfl | rfl | rfl
  all_goals exact ⟨_, rfl, by decide, by decide⟩

example : SetOrder id ∧ AsciiSpecials robTokens robSpecial ∧ EnvOK (robEnv true) 10 ∧
    (∀ c ∈ [97, 98], c < 0x80) := ⟨fun _ _ => Iff.rfl, rob_specials, robEnv_ok true, by decide⟩

/-- C30 fails where `char` is signed: tokenizing or looking up `é` is undefined behaviour. -/
theorem C30_signed_counterexample (r : RVocab) (h : init true robMeta (some robMerge) id robV = .ok (some r)) :
    utf8Decode [0xc3, 0xa9] = some [0xe9] ∧
    Roberta.tokenize (robEnv true) r id [0xc3, 0xa9] = .ub ∧ tokenToId true robV [0xc3, 0xa9] = .ub := by
  obtain ⟨b, hb⟩ := rob_init true
  rw [hb] at h
  simp only [Res.ok.injEq, Option.some.injEq] at h
  subst h
  refine ⟨by decide, ?_, by decide⟩
  have h1 : splitLoop (specialStrings robTokens robSpecial) 100 [0xc3, 0xa9] [] [] =
      .ok [(false, [0xc3, 0xa9])] := by decide +kernel
  have h2 : subtextUnits (fun c => c == 32) false [0xc3, 0xa9] = .ok [0xe9] := by decide
  have h3 : (regexSplit [0xe9] [] []).1 = [[0xe9]] := by decide
  have h4 : (encodeUnits [0xe9]) = .ok [0xc3, 0xa9] := by decide
  unfold Roberta.tokenize tokenizeWith
  rw [specialTokens_ok robV_holds rob_specials, res_bind_ok]
  simp only [robEnv, id]
  rw [h1, res_bind_ok, ascii_special robV_holds (s := ascii "<mask>") rfl (by decide), res_bind_ok]
  simp only [pieceLoop, nextIsMask]
  rw [h2, res_bind_ok]
  simp only [plainPiece]
  rw [h3]
  simp only [bpeLoop]
  rw [h4, res_bind_ok]
  rfl

/-! ## C31 -/

/-- A larger iteration allowance changes nothing once the loop has returned. -/
theorem splitLoop_mono (keeps : List (List Nat)) (fuel k : Nat) (rest tmp : List Nat)
    (out p : List (Bool × List Nat)) (h : splitLoop keeps fuel rest tmp out = .ok p) :
    splitLoop keeps (fuel + k) rest tmp out = .ok p := by
  fun_induction splitLoop keeps fuel rest tmp out with
  | case1 => unfold Roberta.splitLoop; exact h
  | case2 => cases h
  | case3 fuel c rest tmp out keep hk ih =>
    rw [Nat.succ_add]; unfold Roberta.splitLoop; rw [hk]; exact ih h
  | case4 fuel c rest tmp out hk ih =>
    rw [Nat.succ_add]; unfold Roberta.splitLoop; rw [hk]; exact ih h

/-- C31 (partial: the empty string is not among the special tokens): the loop terminates after at
most one iteration per byte, for every visiting order `keeps` of the set, and cuts the text. -/
theorem C31_split_partial (keeps : List (List Nat)) (hk : [] ∉ keeps) (text : List Nat) :
    ∃ pieces, Cut keeps text pieces ∧
      ∀ fuel, text.length ≤ fuel → splitLoop keeps fuel text [] [] = .ok pieces := by
  obtain ⟨pieces, h1, h2⟩ := splitLoop_ok keeps hk text.length text (Nat.le_refl _)
  refine ⟨pieces, h2, fun fuel hf => ?_⟩
  obtain ⟨k, rfl⟩ := Nat.exists_eq_add_of_le hf
  exact splitLoop_mono _ _ k _ _ _ _ h1

/-- C31: if no special token is a prefix of another, the visiting order has no effect. -/
theorem C31_order (keeps keeps' : List (List Nat)) (hmem : ∀ k, k ∈ keeps ↔ k ∈ keeps')
    (hfree : ∀ k ∈ keeps, ∀ k' ∈ keeps, k <+: k' → k = k') (fuel : Nat) (text : List Nat) :
    splitLoop keeps fuel text [] [] = splitLoop keeps' fuel text [] [] :=
  splitLoop_order keeps keeps' hmem hfree fuel text [] []

/-- C31, exact condition: every text is split in finitely many steps if and only if the empty string
is not among the special tokens. -/
theorem C31_terminates_iff (keeps : List (List Nat)) :
    (∀ text, ∃ fuel pieces, splitLoop keeps fuel text [] [] = .ok pieces) ↔ [] ∉ keeps := by
  constructor
  · intro h h0
    obtain ⟨x, hx⟩ : ∃ x : Nat, ∀ k ∈ keeps, k ≠ [] → ¬ k <+: [x] := by
      refine ⟨keeps.flatten.sum + 1, fun k hk hne hp => ?_⟩
      have hle : ∀ (L : List Nat) (y : Nat), y ∈ L → y ≤ L.sum := by
        intro L y hy
        induction L with
        | nil => simp at hy
        | cons z L ih =>
          rcases List.mem_cons.mp hy with rfl | hy
          · simp
          · have := ih hy; simp only [List.sum_cons]; omega
      cases k with
      | nil => exact hne rfl
      | cons y k =>
        have hy : y = keeps.flatten.sum + 1 := by
          obtain ⟨t, ht⟩ := hp
          simp only [List.cons_append, List.cons.injEq] at ht
          exact ht.1
        have := hle keeps.flatten y (List.mem_flatten.mpr ⟨_, hk, by simp⟩)
        omega
    obtain ⟨fuel, pieces, h1⟩ := h [x]
    rw [splitLoop_stuck keeps h0 [x] (by simp) hx fuel [] []] at h1
    cases h1
  · intro h0 text
    obtain ⟨p, _, h⟩ := C31_split_partial keeps h0 text
    exact ⟨text.length, p, h _ (Nat.le_refl _)⟩

example : [] ∉ specialStrings robTokens robSpecial ∧
    (∀ k ∈ specialStrings robTokens robSpecial, ∀ k' ∈ specialStrings robTokens robSpecial,
      k <+: k' → k = k') := by decide +kernel

/-- A model file whose metadata names a padding token that the vocabulary does not have. -/
def hangMeta : Meta := ⟨none, none, some 100, none, none, none, none⟩

/-- BPE is set up in the same way whatever the other special tokens are. -/
theorem rob_initBpe (signed : Bool) (sp : Special) (hsp : sp.unk = robSpecial.unk) :
    ∃ b, initBpe (some robMerge) id robV sp = .ok (some ⟨robV, sp, b⟩) := by
  obtain ⟨b, hb⟩ := rob_init signed
  have h0 : robertaSpecials robMeta (literalId signed robV) = some robSpecial := by cases signed <;> decide +kernel
  unfold init at hb
  rw [h0] at hb
  refine ⟨b, ?_⟩
  simp only [initBpe] at hb ⊢
  obtain ⟨u1, g1, hb⟩ := bind_eq_ok hb
  obtain ⟨u2, g2, hb⟩ := bind_eq_ok hb
  obtain ⟨u3, g3, hb⟩ := bind_eq_ok hb
  rw [hsp, g1, res_bind_ok, g2, res_bind_ok, g3, res_bind_ok]
  cases hc : checkMerge (some robMerge) with
  | none => rw [hc] at hb; cases hb
  | some ms =>
    rw [hc] at hb
    simp only at hb ⊢
    obtain ⟨u4, g4, hb⟩ := bind_eq_ok hb
    rw [g4, res_bind_ok]
    simp only [Res.ok.injEq] at hb ⊢
    split at hb
    · next hr => rw [if_pos hr]; simp_all
    · cases hb

/-- C31 fails: with such a file `init` succeeds, but tokenizing `a` never returns, for every
iteration order of the set. -/
theorem C31_hang_counterexample :
    ∃ r, init true hangMeta (some robMerge) id robV = .ok (some r) ∧
      ∀ (setOrder : List (List Nat) → List (List Nat)) (e : Roberta.Env), SetOrder setOrder →
        Roberta.tokenize e r setOrder (ascii "a") = .hang := by
  have h1 : robertaSpecials hangMeta (literalId true robV) = some { robSpecial with pad := 100 } := by
    decide +kernel
  obtain ⟨b, h2⟩ := rob_initBpe true { robSpecial with pad := 100 } rfl
  refine ⟨⟨robV, { robSpecial with pad := 100 }, b⟩, by unfold init; rw [h1]; exact h2, ?_⟩
  intro setOrder e ho
  have h3 : specialTokens robV { robSpecial with pad := 100 } =
      .ok [ascii "<s>", ascii "</s>", ascii "<s>", ascii "<mask>", [], ascii "</s>", ascii "<unk>"] := by
    decide +kernel
  unfold Roberta.tokenize tokenizeWith
  simp only
  rw [h3, res_bind_ok, splitLoop_stuck _ ((ho _ _).mpr (by simp)) _ (by decide)]
  · rfl
  · intro k hk hne
    have hk := (ho _ _).mp hk
    simp only [List.mem_cons, List.not_mem_nil, or_false] at hk
    rcases hk with rfl | rfl | rfl | rfl | rfl | rfl | rfl
    all_goals first | exact absurd rfl hne | decide

/-! ## C32 -/

/-- C32 and C65, general form (partial: signed `char` only with ASCII texts): any text, with or
without special tokens, is cut at the special tokens; each special token becomes its own id, and the
entries of the other ids spell the remaining text (without the blanks before a mask token) in the
byte alphabet.  `l` is the vocabulary, `setOrder` the iteration order of the hash set, `order` the
iteration order of the hash map given to BPE. -/
theorem C65_special_ids_partial (m : Meta) (merge : Option MergeTensor)
    (order : List (Str × Nat) → List (Str × Nat)) (hord : ∀ m, (order m).Perm m) (v : VocabT)
    (l tcs : List (List Nat)) (hv : Holds v l) (hu : Utf8Vocab l tcs) (e : Roberta.Env) (r : RVocab)
    (hinit : init e.signed m merge order v = .ok (some r)) (hsp : AsciiSpecials l r.special)
    (setOrder : List (List Nat) → List (List Nat)) (ho : SetOrder setOrder)
    (cs : List Nat) (hcs : ∀ c ∈ cs, IsScalar c) (he : EnvOK e (utf8Encode cs).length)
    (hf : (utf8Encode cs).length ≤ e.fuel) (hs : e.signed = true → ∀ c ∈ cs, c < 0x80)
    (hb : ByteComplete l (utf8Encode cs)) :
    ∃ pieces idss, Roberta.tokenize e r setOrder (utf8Encode cs) = .ok (some idss.flatten) ∧
      Cut (specialStrings l r.special) (utf8Encode cs) pieces ∧
      PieceIds l (keptPieces e.ws (l[r.special.mask]?.getD []) pieces) idss := by
  obtain ⟨hi, hrv⟩ : Inited r.v l tcs r.bpe ∧ r.v = v := by
    unfold init at hinit
    split at hinit
    · cases hinit
    · have := initBpe_inited hord hv hu hinit
      exact ⟨this.1, this.2.1⟩
  have hv' : Holds r.v l := hrv ▸ hv
  have hspec := specialStrings_spec hsp
  have hk : [] ∉ setOrder (specialStrings l r.special) := fun h => (hspec [] ((ho _ _).mp h)).2.1 rfl
  obtain ⟨pieces, h1, h2⟩ := splitLoop_ok _ hk e.fuel (utf8Encode cs) hf
  have h2 := Cut.congr (ho _) h2
  obtain ⟨s, hm, hm2, hm3⟩ := hsp r.special.mask (by simp [specialIds])
  have hasc : ∀ p ∈ pieces, p.1 = true → p.2 ≠ [] ∧ ∀ c ∈ p.2, c < 0x80 :=
    fun p hp ht => (hspec p.2 (h2.special p hp ht)).2
  obtain ⟨idss, k1, k2⟩ := pieceLoop_ok hi he s pieces
    (fun p hp ht => ⟨(hspec p.2 (h2.special p hp ht)).1, (hasc p hp ht).2⟩)
    (by
      intro p hp ht
      obtain ⟨c1, g1, g2⟩ := plain_utf8 pieces cs h2.concat hasc h2.maximal p hp ht
      have hsub : ∀ x ∈ p.2, x ∈ utf8Encode cs := by
        intro x hx
        rw [← h2.concat]
        exact List.mem_flatten.mpr ⟨p.2, List.mem_map_of_mem hp, hx⟩
      refine ⟨⟨c1, g1, fun c hc => hcs c (g2 c hc)⟩, ?_, ?_, fun x hx => hb x (hsub x hx)⟩
      · rw [← h2.concat]
        exact (List.sublist_flatten_of_mem (List.mem_map_of_mem (f := (·.2)) hp)).length_le
      · intro h x hx
        have := hsub x hx
        rw [utf8_ascii cs (hs h)] at this
        exact hs h x this) [] (cacheOK_nil _) []
  refine ⟨pieces, idss, ?_, h2, by rw [hm]; exact k2⟩
  unfold Roberta.tokenize tokenizeWith
  rw [specialTokens_ok hv' hsp, res_bind_ok, h1, res_bind_ok, ascii_special hv' hm hm3, res_bind_ok, k1]
  simp

/-! ## C71 -/

/-- C65 fails for special tokens that are not ASCII: with the entry `Ã` as mask token, `Ã` is no text that can be
tokenized at all.  `id_to_token` (see C29) makes the single byte 0xc3 of it, which is the first byte of the text
and not in the vocabulary. -/
theorem C65_nonascii_counterexample (signed : Bool) :
    ∃ r, init signed ⟨none, some 11, none, none, none, none, none⟩ (some robMerge) id robV = .ok (some r) ∧
      robTokens[r.special.mask]? = some (utf8Encode [0xc3]) ∧
      Roberta.tokenize (robEnv signed) r id (utf8Encode [0xc3]) = .ok none := by
  have h1 : robertaSpecials ⟨none, some 11, none, none, none, none, none⟩ (literalId signed robV) =
      some { robSpecial with mask := 11 } := by
    cases signed <;> decide +kernel
  obtain ⟨b, h2⟩ := rob_initBpe signed { robSpecial with mask := 11 } rfl
  refine ⟨⟨robV, { robSpecial with mask := 11 }, b⟩, by unfold init; rw [h1]; exact h2,
    by show robTokens[11]? = _; decide +kernel, ?_⟩
  have h3 : specialTokens robV { robSpecial with mask := 11 } =
      .ok [ascii "<s>", ascii "</s>", ascii "<s>", [0xc3], ascii "<pad>", ascii "</s>", ascii "<unk>"] := by
    decide +kernel
  have h4 : splitLoop [ascii "<s>", ascii "</s>", ascii "<s>", [0xc3], ascii "<pad>", ascii "</s>", ascii "<unk>"] 100
      (utf8Encode [0xc3]) [] [] = .ok [(true, [0xc3]), (false, [0x83])] := by decide +kernel
  have h5 : idToToken robV 11 = .ok [0xc3] := by decide +kernel
  have h6 : specialPiece (robEnv signed).ws robV false [0xc3] [] = .ok none := by
    have : robV.tokenToId [0xc3] = INVALID := by decide +kernel
    simp [specialPiece, this, res_bind_ok]
  unfold Roberta.tokenize tokenizeWith
  simp only
  rw [h3, res_bind_ok]
  show ((Roberta.splitLoop _ 100 _ [] []).bind _) = _
  simp only [id]
  rw [h4, res_bind_ok, h5, res_bind_ok]
  simp only [pieceLoop, nextIsMask, Bool.false_and]
  rw [h6, res_bind_ok]

/-- C71 (partial: signed `char` only with ASCII texts; the alphabet of the text is in the
vocabulary; the regular expression and the iteration orders are parameters): the ids are those of
reference byte-level BPE.  The merges `pairs` are those that the file lists, `tbl` is any textbook
table of them (the last of two equal pairs counts); the text is cut at the special tokens, each plain
piece at the matches of the regular expression, and each word is tokenized by the reference
algorithm. -/
theorem C71_reference_partial (m : Meta) (merge : Option MergeTensor)
    (order : List (Str × Nat) → List (Str × Nat)) (hord : ∀ m, (order m).Perm m) (v : VocabT)
    (l tcs : List (List Nat)) (hv : Holds v l) (hu : Utf8Vocab l tcs) (e : Roberta.Env) (r : RVocab)
    (hinit : init e.signed m merge order v = .ok (some r)) (hsp : AsciiSpecials l r.special)
    (hpick : RightPick e.bpe.pick) (hmax : ∀ t, merge = some t → t.data.length ≤ 3 * 2 ^ 32) :
    ∃ data pairs, merge = some ⟨true, 1, data⟩ ∧ MergeFile tcs data pairs ∧
      ∀ (tbl : MergeTable Str), IsTableOf pairs tbl →
      ∀ (setOrder : List (List Nat) → List (List Nat)), SetOrder setOrder →
      ∀ cs, (∀ c ∈ cs, IsScalar c) → EnvOK e (utf8Encode cs).length → (utf8Encode cs).length ≤ e.fuel →
        (e.signed = true → ∀ c ∈ cs, c < 0x80) → ByteComplete l (utf8Encode cs) →
      ∃ pieces idss, Roberta.tokenize e r setOrder (utf8Encode cs) = .ok (some idss.flatten) ∧
        Cut (specialStrings l r.special) (utf8Encode cs) pieces ∧
        RefPieces l tbl e.matches_ (keptPieces e.ws (l[r.special.mask]?.getD []) pieces) idss := by
  obtain ⟨hi, hrv, hrs, hib⟩ : Inited r.v l tcs r.bpe ∧ r.v = v ∧
      ∃ sp, r.special = sp ∧ initBpe merge order v sp = .ok (some r) := by
    unfold init at hinit
    split at hinit
    · cases hinit
    · have := initBpe_inited hord hv hu hinit
      exact ⟨this.1, this.2.1, _, this.2.2, hinit⟩
  obtain ⟨rfl, hib⟩ := hib
  have hv' : Holds r.v l := hrv ▸ hv
  obtain ⟨us, hun, _, hua⟩ := hsp r.special.unk (by simp [specialIds])
  obtain ⟨data, pairs, hm, hmf, hw⟩ := initBpe_ref hord hv hu hib (ascii_special hv hun hua) hua
  have hlen : pairs.length ≤ 2 ^ 32 := by
    have h1 := hmax _ hm
    have h2 := hmf.1
    simp only at h1
    omega
  refine ⟨data, pairs, hm, hmf, ?_⟩
  intro tbl htbl setOrder ho cs hcs he hf hs hb
  have hw := hw hlen tbl htbl e.bpe hpick
  have hspec := specialStrings_spec hsp
  have hk : [] ∉ setOrder (specialStrings l r.special) := fun h => (hspec [] ((ho _ _).mp h)).2.1 rfl
  obtain ⟨pieces, h1, h2⟩ := splitLoop_ok _ hk e.fuel (utf8Encode cs) hf
  have h2 := Cut.congr (ho _) h2
  obtain ⟨s, hm, hm2, hm3⟩ := hsp r.special.mask (by simp [specialIds])
  have hasc : ∀ p ∈ pieces, p.1 = true → p.2 ≠ [] ∧ ∀ c ∈ p.2, c < 0x80 :=
    fun p hp ht => (hspec p.2 (h2.special p hp ht)).2
  obtain ⟨idss, k1, k2⟩ := pieceLoop_ref hi he hw s pieces
    (fun p hp ht => ⟨(hspec p.2 (h2.special p hp ht)).1, (hasc p hp ht).2⟩)
    (by
      intro p hp ht
      obtain ⟨c1, g1, g2⟩ := plain_utf8 pieces cs h2.concat hasc h2.maximal p hp ht
      have hsub : ∀ x ∈ p.2, x ∈ utf8Encode cs := by
        intro x hx
        rw [← h2.concat]
        exact List.mem_flatten.mpr ⟨p.2, List.mem_map_of_mem hp, hx⟩
      refine ⟨⟨c1, g1, fun c hc => hcs c (g2 c hc)⟩, ?_, ?_, fun x hx => hb x (hsub x hx)⟩
      · rw [← h2.concat]
        exact (List.sublist_flatten_of_mem (List.mem_map_of_mem (f := (·.2)) hp)).length_le
      · intro h x hx
        have := hsub x hx
        rw [utf8_ascii cs (hs h)] at this
        exact hs h x this) [] (cacheOK_nil _) (cacheRef_nil _) []
  refine ⟨pieces, idss, ?_, h2, by rw [hm]; exact k2⟩
  unfold Roberta.tokenize tokenizeWith
  rw [specialTokens_ok hv' hsp, res_bind_ok, h1, res_bind_ok, ascii_special hv' hm hm3, res_bind_ok, k1]
  simp

theorem each_unique {α β : Type} {R : α → β → Prop} {as : List α} {bs cs : List β}
    (hR : ∀ a ∈ as, ∀ b c, R a b → R a c → b = c) (h1 : Each R as bs) (h2 : Each R as cs) : bs = cs := by
  induction as generalizing bs cs with
  | nil => cases bs <;> cases cs <;> first | rfl | exact h1.elim | exact h2.elim
  | cons a as ih =>
    cases bs with
    | nil => exact h1.elim
    | cons b bs => cases cs with
      | nil => exact h2.elim
      | cons c cs =>
        rw [hR a (by simp) b c h1.1 h2.1, ih (fun a ha => hR a (by simp [ha])) h1.2 h2.2]

theorem idOf_unique {l : List (List Nat)} (hn : l.Nodup) {as bs : List Nat} {toks : List (List Nat)}
    (h1 : Each (IdOf l) as toks) (h2 : Each (IdOf l) bs toks) : as = bs := by
  induction toks generalizing as bs with
  | nil => cases as <;> cases bs <;> first | rfl | exact h1.elim | exact h2.elim
  | cons t toks ih =>
    cases as with
    | nil => exact h1.elim
    | cons a as => cases bs with
      | nil => exact h2.elim
      | cons b bs =>
        obtain ⟨⟨tc, s1, e1, g1⟩, r1⟩ := h1
        obtain ⟨⟨tc', s2, e2, g2⟩, r2⟩ := h2
        have := utf16Encode_inj s1 s2 (e1 ▸ e2)
        subst this
        rw [ih r1 r2, (List.getElem?_inj (List.getElem?_eq_some_iff.mp g1).1 hn).mp (g1.trans g2.symm)]

theorem utf8Encode_inj {a b : List Nat} (ha : ∀ c ∈ a, IsScalar c) (hb : ∀ c ∈ b, IsScalar c)
    (h : utf8Encode a = utf8Encode b) : a = b := by
  have h1 := utf8Decode_encode a ha
  rw [h, utf8Decode_encode b hb] at h1
  simpa using h1.symm

theorem map_utf16_inj {a b : List (List Nat)} (ha : ∀ c ∈ a.flatten, IsScalar c)
    (hb : ∀ c ∈ b.flatten, IsScalar c) (h : a.map utf16Encode = b.map utf16Encode) : a = b := by
  induction a generalizing b with
  | nil => cases b with
    | nil => rfl
    | cons => simp at h
  | cons x a ih => cases b with
    | nil => simp at h
    | cons y b =>
      simp only [List.map_cons, List.cons.injEq] at h
      rw [utf16Encode_inj (fun c hc => ha c (by simp [hc])) (fun c hc => hb c (by simp [hc])) h.1,
        ih (fun c hc => ha c (by simp only [List.flatten_cons, List.mem_append]; exact .inr hc))
          (fun c hc => hb c (by simp only [List.flatten_cons, List.mem_append]; exact .inr hc)) h.2]

/-- C71, the description is exact: the pieces have only one list of reference ids. -/
theorem C71_unique (l : List (List Nat)) (hn : l.Nodup) (tbl : MergeTable Str)
    (f : List Nat → List (Nat × Nat)) (pieces : List (Bool × List Nat)) (idss idss' : List (List Nat))
    (h1 : RefPieces l tbl f pieces idss) (h2 : RefPieces l tbl f pieces idss') : idss = idss' := by
  refine each_unique ?_ h1 h2
  intro p _ a b ha hb
  obtain ⟨sp, s⟩ := p
  cases sp with
  | true =>
    obtain ⟨i, rfl, g1⟩ := ha
    obtain ⟨j, rfl, g2⟩ := hb
    rw [(List.getElem?_inj (List.getElem?_eq_some_iff.mp g1).1 hn).mp (g1.trans g2.symm)]
  | false =>
    obtain ⟨cs, c1, c2, w, ts, w0, w1, w2, w3⟩ := ha
    obtain ⟨cs', c1', c2', w', ts', w0', w1', w2', w3'⟩ := hb
    have := utf8Encode_inj c1 c1' (c2.symm.trans c2')
    subst this
    have := map_utf16_inj (by rw [w0]; exact c1) (by rw [w0']; exact c1) (w1.trans w1'.symm)
    subst this
    have := each_unique (fun a _ b c (h : ByteBpe tbl (utf8Encode a) b) h' => refBpe_unique h h') w2 w2'
    subst this
    exact idOf_unique hn w3 w3'

/-- The hypotheses are met by the example vocabulary and the text `ab a`; its merges are `a b` and
`Ġ a`. -/
example (signed : Bool) : ∃ r, init (robEnv signed).signed robMeta (some robMerge) id robV = .ok (some r) ∧
    AsciiSpecials robTokens r.special ∧ RightPick (robEnv signed).bpe.pick ∧
    (∀ t, some robMerge = some t → t.data.length ≤ 3 * 2 ^ 32) ∧
    MergeFile robCps robMerge.data [([97], [98]), ([0x120], [97])] ∧
    (∀ c ∈ ascii "ab a", IsScalar c) ∧ EnvOK (robEnv signed) 10 ∧ (utf8Encode (ascii "ab a")).length ≤ 10 ∧
    (∀ c ∈ ascii "ab a", c < 0x80) ∧ ByteComplete robTokens (utf8Encode (ascii "ab a")) ∧
    robTokens.Nodup := by
  obtain ⟨b, hb⟩ := rob_init signed
  refine ⟨_, hb, rob_specials, heapPick_right, by rintro t ⟨⟩; decide, ⟨rfl, ?_⟩, by decide, robEnv_ok signed,
    by decide, by decide, by simp only [ByteComplete]; decide +kernel, by decide +kernel⟩
  intro k p hk
  match k, hk with
  | 0, hk =>
    simp only [List.getElem?_cons_zero, Option.some.injEq] at hk
    exact ⟨5, 6, [97], [98], rfl, rfl, by decide +kernel, by decide +kernel, by subst hk; decide⟩
  | 1, hk =>
    simp only [List.getElem?_cons_succ, List.getElem?_cons_zero, Option.some.injEq] at hk
    exact ⟨8, 5, [0x120], [97], rfl, rfl, by decide +kernel, by decide +kernel, by subst hk; decide⟩
  | k + 2, hk => simp at hk

/-- A text without special tokens has only one cut. -/
theorem Cut.trivial {k : List (List Nat)} {text : List Nat} {p : List (Bool × List Nat)}
    (c : Cut k text p) (hn : ∀ s ∈ k, ¬ s <:+: text) :
    p = if text = [] then [] else [(false, text)] := by
  have hall : ∀ q ∈ p, q.1 = false := by
    intro q hq
    cases hq1 : q.1 with
    | false => rfl
    | true =>
      exfalso
      apply hn _ (c.special q hq hq1)
      rw [← c.concat]
      obtain ⟨a, b, rfl⟩ := List.append_of_mem hq
      exact ⟨(a.map (·.2)).flatten, (b.map (·.2)).flatten, by simp⟩
  match p, c, hall with
  | [], c, _ =>
    have := c.concat
    simp only [List.map_nil, List.flatten_nil] at this
    rw [← this]; simp
  | [q], c, hall =>
    have := c.concat
    simp only [List.map_cons, List.map_nil, List.flatten_cons, List.flatten_nil,
      List.append_nil] at this
    have h1 := hall q (by simp)
    have h2 := c.plain q (by simp) h1
    rw [this] at h2
    rw [if_neg h2]
    obtain ⟨x, y⟩ := q
    simp_all
  | q :: q' :: p, c, hall =>
    have := c.maximal [] q q' p rfl
    rw [hall q (by simp), hall q' (by simp)] at this
    simp at this

/-- C32 (partial: signed `char` only with ASCII texts): for a text without special tokens the entries
of the produced ids spell the text in the byte alphabet. -/
theorem C32_spelled_partial (m : Meta) (merge : Option MergeTensor)
    (order : List (Str × Nat) → List (Str × Nat)) (hord : ∀ m, (order m).Perm m) (v : VocabT)
    (l tcs : List (List Nat)) (hv : Holds v l) (hu : Utf8Vocab l tcs) (e : Roberta.Env) (r : RVocab)
    (hinit : init e.signed m merge order v = .ok (some r)) (hsp : AsciiSpecials l r.special)
    (setOrder : List (List Nat) → List (List Nat)) (ho : SetOrder setOrder)
    (cs : List Nat) (hcs : ∀ c ∈ cs, IsScalar c) (he : EnvOK e (utf8Encode cs).length)
    (hf : (utf8Encode cs).length ≤ e.fuel) (hs : e.signed = true → ∀ c ∈ cs, c < 0x80)
    (hb : ByteComplete l (utf8Encode cs))
    (hn : ∀ s ∈ specialStrings l r.special, ¬ s <:+: utf8Encode cs) :
    ∃ ids, Roberta.tokenize e r setOrder (utf8Encode cs) = .ok (some ids) ∧
      Spells l ids (byteChars (utf8Encode cs)) := by
  obtain ⟨pieces, idss, h1, h2, h3⟩ := C65_special_ids_partial m merge order hord v l tcs hv hu e r
    hinit hsp setOrder ho cs hcs he hf hs hb
  refine ⟨_, h1, ?_⟩
  have := Cut.trivial h2 hn
  split at this
  · next h0 =>
    subst this
    simp only [keptPieces, PieceIds] at h3
    subst h3
    rw [h0]
    exact spells_nil l
  · subst this
    cases idss with
    | nil => simp [keptPieces, PieceIds] at h3
    | cons ids idss =>
      simp only [keptPieces, PieceIds, List.head?_nil, Option.any_none, keptBytes] at h3
      rw [h3.2]
      simpa using h3.1

theorem spells_decode {v : VocabT} {l : List (List Nat)} (hv : Holds v l) {ids cs : List Nat}
    (h : Spells l ids cs) : ∃ strs : List (List Nat),
      ids.map (idToToken v) = strs.map Res.ok ∧ strs.flatten = cs.map (· % 256) := by
  obtain ⟨parts, h1, h2, rfl⟩ := h
  refine ⟨parts.map (·.map (· % 256)), ?_, by simp [List.map_flatten]⟩
  induction ids generalizing parts with
  | nil => cases parts with
    | nil => rfl
    | cons => simp at h2
  | cons i ids ih => cases parts with
    | nil => simp at h2
    | cons p parts =>
      simp only [List.map_cons, List.cons.injEq] at h2
      have ih := ih parts (fun q hq => h1 q (by simp [hq])) h2.2
      simp only [List.map_cons, List.cons.injEq]
      refine ⟨?_, ih⟩
      apply idToToken_cps (h1 p (by simp))
      have hlt := (List.getElem?_eq_some_iff.mp h2.1).1
      unfold VocabT.idToToken
      rw [if_neg (by rw [hv.1]; omega), hv.1, h2.1]; rfl

/-- C32 (partial: the text has only safe bytes, and signed `char` only with ASCII texts): the
strings of the produced ids concatenate to the text. -/
theorem C32_lossless_partial (m : Meta) (merge : Option MergeTensor)
    (order : List (Str × Nat) → List (Str × Nat)) (hord : ∀ m, (order m).Perm m) (v : VocabT)
    (l tcs : List (List Nat)) (hv : Holds v l) (hu : Utf8Vocab l tcs) (e : Roberta.Env) (r : RVocab)
    (hinit : init e.signed m merge order v = .ok (some r)) (hsp : AsciiSpecials l r.special)
    (setOrder : List (List Nat) → List (List Nat)) (ho : SetOrder setOrder)
    (cs : List Nat) (hcs : ∀ c ∈ cs, IsScalar c) (he : EnvOK e (utf8Encode cs).length)
    (hf : (utf8Encode cs).length ≤ e.fuel) (hs : e.signed = true → ∀ c ∈ cs, c < 0x80)
    (hb : ByteComplete l (utf8Encode cs))
    (hn : ∀ s ∈ specialStrings l r.special, ¬ s <:+: utf8Encode cs)
    (hsafe : ∀ b ∈ utf8Encode cs, SafeByte b) :
    ∃ ids, ∃ strs : List (List Nat), Roberta.tokenize e r setOrder (utf8Encode cs) = .ok (some ids) ∧
      ids.map (idToToken r.v) = strs.map Res.ok ∧ strs.flatten = utf8Encode cs := by
  obtain ⟨ids, h1, h2⟩ := C32_spelled_partial m merge order hord v l tcs hv hu e r hinit hsp setOrder
    ho cs hcs he hf hs hb hn
  have hrv : r.v = v := by
    unfold init at hinit
    split at hinit
    · cases hinit
    · exact (initBpe_inited hord hv hu hinit).2.1
  obtain ⟨strs, h3, h4⟩ := spells_decode (v := r.v) (hrv ▸ hv) h2
  refine ⟨ids, strs, h1, h3, ?_⟩
  rw [h4, byteChars, List.map_map]
  exact map_safe (utf8_bytes cs hcs) hsafe

/-- The hypotheses are met by the example vocabulary and the text `ab a`, whatever `char` is. -/
example (signed : Bool) : ∃ r, init (robEnv signed).signed robMeta (some robMerge) id robV = .ok (some r) ∧
    AsciiSpecials robTokens r.special ∧ (∀ c ∈ ascii "ab a", IsScalar c) ∧
    EnvOK (robEnv signed) 10 ∧ (utf8Encode (ascii "ab a")).length ≤ 10 ∧
    (∀ c ∈ ascii "ab a", c < 0x80) ∧ ByteComplete robTokens (utf8Encode (ascii "ab a")) ∧
    (∀ s ∈ specialStrings robTokens r.special, ¬ s <:+: utf8Encode (ascii "ab a")) ∧
    (∀ b ∈ utf8Encode (ascii "ab a"), SafeByte b) := by
  obtain ⟨b, hb⟩ := rob_init signed
  exact ⟨_, hb, rob_specials, by decide, robEnv_ok signed, by decide, by decide,
    by simp only [ByteComplete]; decide +kernel, by simp only; decide +kernel, by decide +kernel⟩

/-- C32 fails for the text consisting of the byte 0x7f, on every platform: the string of the produced
id is `!`. -/
theorem C32_lossy_counterexample (signed : Bool) : ∃ r ids,
    init signed robMeta (some robMerge) id robV = .ok (some r) ∧
    Roberta.tokenize (robEnv signed) r id [0x7f] = .ok (some ids) ∧
    ids.map (idToToken r.v) = [.ok (ascii "!")] := by
  obtain ⟨b, hb⟩ := rob_init signed
  have hu : utf8Encode [0x7f] = [0x7f] := by decide
  obtain ⟨ids, h1, h2⟩ := C32_spelled_partial robMeta (some robMerge) id (fun m => List.Perm.refl m)
    robV robTokens robCps robV_holds rob_utf8 (robEnv signed) _ hb rob_specials id (fun _ _ => Iff.rfl)
    [0x7f] (by decide) ⟨(robEnv_ok signed).1, (robEnv_ok signed).2, by cases signed <;> decide⟩
    (by cases signed <;> decide) (fun _ => by decide) (by simp only [ByteComplete]; decide +kernel)
    (by simp only; decide +kernel)
  rw [hu] at h1 h2
  refine ⟨_, ids, hb, h1, ?_⟩
  have hids : ids = [9] := by
    obtain ⟨parts, h3, h4, h5⟩ := h2
    have hb : byteChars [0x7f] = [0x121] := by decide
    rw [hb] at h5
    have hne : ∀ p ∈ parts, p ≠ [] := by
      intro p hp he
      subst he
      have : some (utf8Encode []) ∈ ids.map (robTokens[·]?) := by
        rw [h4]; exact List.mem_map.mpr ⟨[], hp, rfl⟩
      obtain ⟨i, _, hi⟩ := List.mem_map.mp this
      have : ([] : List Nat) ∈ robTokens := List.mem_of_getElem? (by simpa [utf8Encode] using hi)
      exact absurd this (by decide +kernel)
    have hp : parts = [[0x121]] := by
      match parts, h5, hne with
      | [], h5, _ => simp at h5
      | [p], h5, _ => simpa using h5
      | p :: q :: ps, h5, hne =>
        have h6 := congrArg List.length h5
        have h7 := List.length_pos_iff.mpr (hne p (by simp))
        have h8 := List.length_pos_iff.mpr (hne q (by simp))
        simp only [List.flatten_cons, List.length_append, List.length_cons, List.length_nil] at h6
        omega
    subst hp
    match ids, h4 with
    | [], h4 => simp at h4
    | [i], h4 =>
      simp only [List.map_cons, List.map_nil, List.cons.injEq, and_true] at h4
      have hlt := (List.getElem?_eq_some_iff.mp h4).1
      have : ∀ i, i < robTokens.length → robTokens[i]? = some (utf8Encode [0x121]) → i = 9 := by
        decide +kernel
      rw [this i hlt h4]
    | i :: j :: ids, h4 => simp at h4
  subst hids
  simp only
  decide +kernel

/-! ## C63 -/

/-- C63: all ids that tokenizing produces are ids of the vocabulary, for every text, every platform
and every metadata. -/
theorem C63_ids_valid (e : Roberta.Env) (r : RVocab) (l : List (List Nat)) (hv : Holds r.v l)
    (setOrder : List (List Nat) → List (List Nat)) (text ids : List Nat)
    (h : Roberta.tokenize e r setOrder text = .ok (some ids)) : ∀ id ∈ ids, id < l.length := by
  unfold Roberta.tokenize tokenizeWith at h
  obtain ⟨_, _, h⟩ := bind_eq_ok h
  obtain ⟨_, _, h⟩ := bind_eq_ok h
  obtain ⟨_, _, h⟩ := bind_eq_ok h
  intro id hid
  rcases pieceLoop_valid hv e _ _ _ _ _ h id hid with h | h
  · simp at h
  · exact h

/-! ## C33 and C64 -/

theorem asI32_small {v : Nat} (h : v < 2 ^ 31) : asI32 v = (v : Int) := by
  unfold asI32
  rw [Nat.mod_eq_of_lt (by omega), if_pos h]

theorem positionsFrom_get (pad v : Nat) (tokens : List Nat) (hv : v + tokens.length ≤ 2 ^ 31)
    (i t : Nat) (h : tokens[i]? = some t) :
    (positionsFrom pad v tokens)[i]? =
      some (if t = pad then 0 else ((v + (tokens.take i).countP (· ≠ pad) : Nat) : Int)) := by
  induction tokens generalizing v i with
  | nil => simp at h
  | cons x xs ih =>
    simp only [List.length_cons] at hv
    cases i with
    | zero =>
      simp only [List.getElem?_cons_zero, Option.some.injEq] at h
      subst h
      unfold positionsFrom
      split
      · simp
      · simp only [List.getElem?_cons_zero, List.take_zero, List.countP_nil, Nat.add_zero]
        rw [asI32_small (by omega)]
    | succ i =>
      simp only [List.getElem?_cons_succ] at h
      unfold positionsFrom
      split
      · next hx =>
        rw [List.getElem?_cons_succ, ih v (by omega) i h]
        simp [List.take_succ_cons, hx]
      · next hx =>
        rw [List.getElem?_cons_succ, ih (v + 1) (by omega) i h]
        simp only [List.take_succ_cons, List.countP_cons, hx, ne_eq, not_false_eq_true, decide_true,
          if_true, Nat.add_assoc, Nat.add_comm 1]

/-- C33 (partial: positions fit `int32_t`): there is one position for each token; a pad gets 0; the
`k`-th token that is not a pad gets `pad + k`. -/
theorem C33_positions_partial (pad : Nat) (tokens : List Nat) (hfit : pad + tokens.length < 2 ^ 31)
    (i t : Nat) (h : tokens[i]? = some t) :
    (t = pad → (positions pad tokens)[i]? = some 0) ∧
    (t ≠ pad → (positions pad tokens)[i]? =
      some ((pad + (tokens.take (i + 1)).countP (· ≠ pad) : Nat) : Int)) := by
  have := positionsFrom_get pad (pad + 1) tokens (by omega) i t h
  unfold positions
  constructor
  · intro ht; rw [this, if_pos ht]
  · intro ht
    rw [this, if_neg ht, List.take_succ, h]
    simp [List.countP_append, ht]
    omega

theorem C33_length (pad : Nat) (tokens : List Nat) : (positions pad tokens).length = tokens.length := by
  unfold positions
  generalize pad + 1 = v
  induction tokens generalizing v with
  | nil => rfl
  | cons t ts ih => unfold positionsFrom; split <;> simp [ih]

/-- C33 (partial: positions fit `int32_t`): tokens that are not pads have different positions, which
grow with the index. -/
theorem C33_distinct_partial (pad : Nat) (tokens : List Nat) (hfit : pad + tokens.length < 2 ^ 31)
    (i j s t : Nat) (hij : i < j) (hi : tokens[i]? = some s) (hj : tokens[j]? = some t)
    (hs : s ≠ pad) (ht : t ≠ pad) (p q : Int) (hp : (positions pad tokens)[i]? = some p)
    (hq : (positions pad tokens)[j]? = some q) : 0 < p ∧ p < q := by
  rw [(C33_positions_partial pad tokens hfit i s hi).2 hs] at hp
  rw [(C33_positions_partial pad tokens hfit j t hj).2 ht] at hq
  have h1 : tokens.take (j + 1) = tokens.take (i + 1) ++ (tokens.take (j + 1)).drop (i + 1) := by
    have := (List.take_append_drop (i + 1) (tokens.take (j + 1))).symm
    rwa [List.take_take, Nat.min_eq_left (by omega)] at this
  have h2 : t ∈ (tokens.take (j + 1)).drop (i + 1) := by
    apply List.mem_of_getElem? (i := j - (i + 1))
    rw [List.getElem?_drop, List.getElem?_take, if_pos (by omega), Nat.add_sub_cancel' (by omega)]
    exact hj
  have h3 : 0 < ((tokens.take (j + 1)).drop (i + 1)).countP (· ≠ pad) := by
    rw [List.countP_pos_iff]; exact ⟨t, h2, by simpa using ht⟩
  have h4 : 0 < (tokens.take (i + 1)).countP (· ≠ pad) := by
    rw [List.countP_pos_iff]
    refine ⟨s, List.mem_of_getElem? (i := i) ?_, by simpa using hs⟩
    rw [List.getElem?_take, if_pos (by omega)]; exact hi
  rw [h1, List.countP_append] at hq
  simp only [Option.some.injEq] at hp hq
  omega

example : 1 + [0, 7, 1, 7, 2].length < 2 ^ 31 ∧ positions 1 [0, 7, 1, 7, 2] = [2, 3, 0, 4, 5] := by decide

/-- C33 fails for a padding id of 2^31 - 1, which metadata can set: the position is negative. -/
theorem C33_wrap_counterexample : positions (2 ^ 31 - 1) [0] = [-2 ^ 31] := by decide

theorem positionsFrom_exact (pad v : Nat) (tokens : List Nat) (i t : Nat) (h : tokens[i]? = some t) :
    (positionsFrom pad v tokens)[i]? =
      some (if t = pad then 0 else asI32 (v + (tokens.take i).countP (· ≠ pad))) := by
  induction tokens generalizing v i with
  | nil => simp at h
  | cons x xs ih =>
    cases i with
    | zero =>
      simp only [List.getElem?_cons_zero, Option.some.injEq] at h
      subst h
      unfold positionsFrom
      split <;> simp
    | succ i =>
      simp only [List.getElem?_cons_succ] at h
      unfold positionsFrom
      split
      · next hx =>
        rw [List.getElem?_cons_succ, ih v i h]
        simp [List.take_succ_cons, hx]
      · next hx =>
        rw [List.getElem?_cons_succ, ih (v + 1) i h]
        simp only [List.take_succ_cons, List.countP_cons, hx, ne_eq, not_false_eq_true, decide_true,
          if_true, Nat.add_assoc, Nat.add_comm 1]

theorem asI32_eq_iff (v : Nat) : asI32 v = (v : Int) ↔ v < 2 ^ 31 := by
  refine ⟨fun h => ?_, asI32_small⟩
  unfold asI32 at h
  split at h <;> omega

theorem exists_last (pad : Nat) (tokens : List Nat) (h : 0 < tokens.countP (· ≠ pad)) :
    ∃ i t, tokens[i]? = some t ∧ t ≠ pad ∧
      (tokens.take (i + 1)).countP (· ≠ pad) = tokens.countP (· ≠ pad) := by
  induction tokens with
  | nil => simp at h
  | cons x xs ih =>
    by_cases hx : 0 < xs.countP (· ≠ pad)
    · obtain ⟨i, t, h1, h2, h3⟩ := ih hx
      refine ⟨i + 1, t, by simpa using h1, h2, ?_⟩
      rw [List.take_succ_cons, List.countP_cons, List.countP_cons, h3]
    · refine ⟨0, x, rfl, ?_, ?_⟩
      · intro hp
        rw [List.countP_cons] at h
        simp [hp] at h hx
        obtain ⟨a, ha, hne⟩ := h
        exact hne (hx a ha)
      · rw [List.countP_cons]
        simp only [List.take_succ_cons, List.take_zero, List.countP_cons, List.countP_nil]
        omega

/-- C33, exactly: all tokens that are not pads get the position `pad + k` if and only if the last of these
positions fits `int32_t` (or there are only pads). -/
theorem C33_iff (pad : Nat) (tokens : List Nat) :
    (∀ i t, tokens[i]? = some t → t ≠ pad → (positions pad tokens)[i]? =
      some ((pad + (tokens.take (i + 1)).countP (· ≠ pad) : Nat) : Int)) ↔
    ((∀ t ∈ tokens, t = pad) ∨ pad + tokens.countP (· ≠ pad) < 2 ^ 31) := by
  have hget : ∀ i t, tokens[i]? = some t → t ≠ pad → (positions pad tokens)[i]? =
      some (asI32 (pad + (tokens.take (i + 1)).countP (· ≠ pad))) := by
    intro i t h ht
    unfold positions
    rw [positionsFrom_exact pad (pad + 1) tokens i t h, if_neg ht, List.take_succ, h]
    simp only [List.countP_append, Option.toList_some, List.countP_singleton, ne_eq, ht,
      not_false_eq_true, decide_true, if_true]
    rw [Nat.add_assoc, Nat.add_comm 1]
  constructor
  · intro h
    by_cases hc : 0 < tokens.countP (· ≠ pad)
    · obtain ⟨i, t, h1, h2, h3⟩ := exists_last pad tokens hc
      have := h i t h1 h2
      rw [hget i t h1 h2, Option.some.injEq, asI32_eq_iff, h3] at this
      exact .inr this
    · left
      intro t ht
      apply Classical.byContradiction
      intro hne
      exact hc (List.countP_pos_iff.mpr ⟨t, ht, by simpa using hne⟩)
  · rintro (h | h) i t hi ht
    · exact absurd (h t (List.mem_of_getElem? hi)) ht
    · rw [hget i t hi ht, Option.some.injEq, asI32_eq_iff]
      have : (tokens.take (i + 1)).countP (· ≠ pad) ≤ tokens.countP (· ≠ pad) :=
        (List.take_sublist _ _).countP_le
      omega

/-- C33, what is computed in general: positions are taken modulo 2^32, as signed numbers; pads get 0. -/
theorem C33_exact (pad : Nat) (tokens : List Nat) (i t : Nat) (h : tokens[i]? = some t) :
    ∃ p : Int, (positions pad tokens)[i]? = some p ∧ -2 ^ 31 ≤ p ∧ p < 2 ^ 31 ∧
      (t = pad → p = 0) ∧
      (t ≠ pad → (p - (pad + (tokens.take (i + 1)).countP (· ≠ pad) : Nat)) % 2 ^ 32 = 0) := by
  unfold positions
  refine ⟨_, positionsFrom_exact pad (pad + 1) tokens i t h, ?_, ?_, ?_, ?_⟩
  · split
    · omega
    · unfold asI32; split <;> omega
  · split
    · omega
    · unfold asI32; split <;> omega
  · intro ht; rw [if_pos ht]
  · intro ht
    rw [if_neg ht, List.take_succ, h]
    simp only [List.countP_append, Option.toList_some, List.countP_singleton, ne_eq, ht,
      not_false_eq_true, decide_true, if_true]
    unfold asI32
    split <;> omega

example : positions (2 ^ 31 - 2) [0, 1, 2 ^ 31 - 2] = [2 ^ 31 - 1, -2 ^ 31, 0] := by decide

/-- The positions of the reference implementation (`create_position_ids_from_input_ids`): the
padding index plus, for tokens that are not pads, the number of such tokens so far. -/
def refPosition (pad : Nat) (tokens : List Nat) (i : Nat) : Nat :=
  pad + (if tokens[i]? = some pad then 0 else (tokens.take (i + 1)).countP (· ≠ pad))

/-- C64 (partial: only for tokens that are not pads): positions are those of the reference. -/
theorem C64_reference_partial (pad : Nat) (tokens : List Nat) (hfit : pad + tokens.length < 2 ^ 31)
    (i t : Nat) (h : tokens[i]? = some t) (ht : t ≠ pad) :
    (positions pad tokens)[i]? = some (refPosition pad tokens i : Int) := by
  rw [(C33_positions_partial pad tokens hfit i t h).2 ht, refPosition, if_neg]
  rw [h]; simpa using ht

/-- C64 fails for every pad token unless the padding id is 0: its position is 0, not the padding id. -/
theorem C64_pad_counterexample (pad : Nat) (hp : 0 < pad) (tokens : List Nat)
    (hfit : pad + tokens.length < 2 ^ 31) (i : Nat) (h : tokens[i]? = some pad) :
    (positions pad tokens)[i]? ≠ some (refPosition pad tokens i : Int) := by
  rw [(C33_positions_partial pad tokens hfit i pad h).1 rfl, refPosition, if_pos h]
  simp only [ne_eq, Option.some.injEq]
  omega

example : [0, 1, 1][1]? = some 1 ∧ positions 1 [0, 1, 1] = [2, 0, 0] := by decide

end Berts.Props
