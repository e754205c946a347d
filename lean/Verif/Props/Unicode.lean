import Verif.Proofs.Unicode

/-! # Properties C01–C08: strings -/

namespace Berts.Props

open Berts.Unicode Berts.Spec

/-! ## C01 -/

/-- C01: on the UTF-16 encoding of scalar values, iteration yields exactly those values. -/
theorem C01_iteration_inverts_utf16 (skip : Bool) (cs : List Nat) (h : ∀ c ∈ cs, IsScalar c) :
    (eachCp skip (utf16Encode cs)).map (·.c) = cs :=
  toCodePoints_encode cs h skip

example : ∀ c ∈ [0x61, 0x3042, 0x1F600, 0x10FFFF, 0], IsScalar c := by decide

/-- C01: on arbitrary units, iteration is the standard decoding with U+FFFD for each ill-formed
unit. -/
theorem C01_iteration_repairs (us : List Nat) :
    (eachCp false us).map (·.c) = (decodeUnits us).map (fun o => o.getD 0xfffd) := by
  rw [eachCp_spec]
  induction decodeUnits us with
  | nil => rfl
  | cons o os ih => cases o <;> simpa using ih

/-- C01: with `skip_invalid`, ill-formed units are dropped. -/
theorem C01_iteration_skips (us : List Nat) :
    (eachCp true us).map (·.c) = (decodeUnits us).filterMap id := by
  rw [eachCp_spec]
  induction decodeUnits us with
  | nil => rfl
  | cons o os ih => cases o <;> simpa using ih

/-- C01: the reported surrogate halves lose no unit: replaying them gives back the string. -/
theorem C01_units_lossless (us : List Nat) : (eachCp false us).flatMap cpUnits = us := by
  simpa [eachCp] using eachCpFrom_units 0 us

-- a lone low, a pair, a lone high at the end
example : (eachCp false [0xdc00, 0xd83d, 0xde00, 0x41, 0xd800]).map (·.c) =
    [0xfffd, 0x1F600, 0x41, 0xfffd] := by decide

/-! ## C02 -/

/-- C02: `==` is equality of the unit sequences. -/
theorem C02_eq_iff {a b : UImpl} {l m : List Nat} (ha : Rep a l) (hb : Rep b m) :
    a.eq b = .ok (decide (l = m)) := eq_rep ha hb

/-- C02: `<=>` is the lexicographic order of the unit sequences. -/
theorem C02_cmp_lexicographic {a b : UImpl} {l m : List Nat} (ha : Rep a l) (hb : Rep b m) :
    (a.cmp b = .ok .lt ↔ LexLt l m) ∧ (a.cmp b = .ok .eq ↔ l = m) ∧
    (a.cmp b = .ok .gt ↔ LexLt m l) ∧ (a.cmp b = .ok .lt ∨ a.cmp b = .ok .eq ∨ a.cmp b = .ok .gt) := by
  rw [cmp_rep ha hb]
  simp only [Res.ok.injEq]
  refine ⟨lexCmp_lt l m, lexCmp_eq l m, lexCmp_gt l m, ?_⟩
  cases lexCmp l m <;> simp

/-- C02: `<=>` agrees with `==`. -/
theorem C02_cmp_agrees_with_eq {a b : UImpl} {l m : List Nat} (ha : Rep a l) (hb : Rep b m) :
    a.cmp b = .ok .eq ↔ a.eq b = .ok true := by
  rw [cmp_rep ha hb, eq_rep ha hb]
  simp [lexCmp_eq]

/-- C02: swapping the operands reverses the answer (antisymmetry, totality). -/
theorem C02_cmp_swap {a b : UImpl} {l m : List Nat} (ha : Rep a l) (hb : Rep b m) (o : Ordering) :
    a.cmp b = .ok o ↔ b.cmp a = .ok o.swap := by
  rw [cmp_rep ha hb, cmp_rep hb ha, lexCmp_swap l m]
  cases lexCmp l m <;> cases o <;> simp [Ordering.swap]

/-- C02: the order is transitive. -/
theorem C02_cmp_trans {a b c : UImpl} {l m n : List Nat} (ha : Rep a l) (hb : Rep b m) (hc : Rep c n)
    (h1 : a.cmp b = .ok .lt) (h2 : b.cmp c = .ok .lt) : a.cmp c = .ok .lt := by
  rw [cmp_rep ha hb, Res.ok.injEq] at h1
  rw [cmp_rep hb hc, Res.ok.injEq] at h2
  rw [cmp_rep ha hc, lexCmp_trans l m n h1 h2]

/-- C02: equal strings hash equally, for any hash of single units. -/
theorem C02_equal_hash (h : Nat → Nat) {a b : UImpl} {l m : List Nat} (ha : Rep a l) (hb : Rep b m)
    (he : a.eq b = .ok true) : ∃ v, a.hash h = .ok v ∧ b.hash h = .ok v := by
  rw [eq_rep ha hb] at he
  have hlm : l = m := by simpa using he
  subst hlm
  have key : ∀ {c : UImpl}, Rep c l → c.hash h = .ok (l.foldl (fun v c => v ^^^ h c) 0) := by
    intro c hc
    unfold UImpl.hash
    rw [hc.2]
    by_cases hl : l = []
    · simp [hl]
    · rw [if_neg hl]; simp only [readUnits_rep hc]; rfl
  exact ⟨_, key ha, key hb⟩

-- strings of any content exist: every constructor from units gives an initialised object
example (l : List Nat) : Rep (UImpl.ofUnits l) l := rep_allocFill _ _
example : (UImpl.ofUnits [97, 98]).cmp (UImpl.ofUnits [97]) = .ok .gt := by
  exact cmp_rep (rep_allocFill _ [97, 98]) (rep_allocFill _ [97])

/-- C02, refuted part: a default-constructed string does not compare as empty; comparing it (even
with itself) reads an uninitialised field. -/
theorem C02_default_counterexample :
    UImpl.default.eq UImpl.default = .ub ∧ UImpl.default.cmp UImpl.default = .ub ∧
    UImpl.default.packsize = .ub ∧ UImpl.default.empty = true := by
  decide

/-! ## C03 -/

/-- C03: `a + b` has the units of `a` followed by those of `b`. -/
theorem C03_plus {a b : UImpl} {l m : List Nat} (ha : Rep a l) (hb : Rep b m) :
    ∃ s, a.plus b = .ok s ∧ Rep s (l ++ m) := plus_rep ha hb

/-- C03: `a += b` appends, including when both are the same object; other objects are untouched. -/
theorem C03_plusAssign (σ : Store) (dst rhs : Nat) {l m : List Nat}
    (ha : Rep (σ dst) l) (hb : Rep (σ rhs) m) :
    ∃ σ', σ.plusAssign dst rhs = .ok σ' ∧ Rep (σ' dst) (l ++ m) ∧ ∀ x, x ≠ dst → σ' x = σ x := by
  unfold Store.plusAssign
  rw [readSize_rep hb]
  simp only [Res.bind_ok]
  by_cases hm : m = []
  · subst hm
    exact ⟨σ, by simp, by simpa using ha, fun _ _ => rfl⟩
  · rw [if_neg (by simpa using hm), readSize_rep ha]
    simp only [Res.bind_ok]
    by_cases hl : l = []
    · subst hl
      rw [if_pos (by rfl)]
      unfold Store.copyAssign
      by_cases hd : dst = rhs
      · exfalso
        subst hd
        have := ha.1.symm.trans hb.1
        simp at this
        exact hm (List.length_eq_zero_iff.mp this.symm)
      · rw [if_neg hd]
        obtain ⟨w, hw, hr, _⟩ := copyFrom_rep (σ dst) hb
        rw [hw]
        refine ⟨σ.set dst w, rfl, by simpa [Store.set] using hr, ?_⟩
        intro x hx; simp [Store.set, hx]
    · rw [if_neg (by simpa using hl)]
      obtain ⟨s, hs, hrs⟩ := plus_rep ha hb
      obtain ⟨w, hw, hrw, _⟩ := copyFrom_rep (σ dst) hrs
      rw [hs]
      simp only [Res.bind_ok, hw]
      refine ⟨σ.set dst w, rfl, by simpa [Store.set] using hrw, ?_⟩
      intro x hx; simp [Store.set, hx]

-- self append
example : ∃ σ', Store.plusAssign (fun _ => UImpl.ofUnits [1, 2]) 0 0 = .ok σ' ∧
    Rep (σ' 0) [1, 2, 1, 2] := by
  obtain ⟨σ', h1, h2, _⟩ := C03_plusAssign (fun _ => UImpl.ofUnits [1, 2]) 0 0
    (l := [1, 2]) (m := [1, 2]) (rep_allocFill _ _) (rep_allocFill _ _)
  exact ⟨σ', h1, h2⟩

/-- C03: copying gives an equal string and changes nothing else (also for self-copies). -/
theorem C03_copyAssign (σ : Store) (dst src : Nat) {l : List Nat} (h : Rep (σ src) l) :
    ∃ σ', σ.copyAssign dst src = .ok σ' ∧ Rep (σ' dst) l ∧ ∀ x, x ≠ dst → σ' x = σ x := by
  unfold Store.copyAssign
  by_cases hd : dst = src
  · subst hd
    exact ⟨σ, by simp, h, fun _ _ => rfl⟩
  · rw [if_neg hd]
    obtain ⟨w, hw, hr, _⟩ := copyFrom_rep (σ dst) h
    rw [hw]
    refine ⟨σ.set dst w, rfl, by simpa [Store.set] using hr, ?_⟩
    intro x hx; simp [Store.set, hx]

/-- C03: moving transfers the value; a distinct source is left empty. -/
theorem C03_moveAssign (σ : Store) (dst src : Nat) {l : List Nat} (h : Rep (σ src) l) :
    ∃ σ', σ.moveAssign dst src = .ok σ' ∧ Rep (σ' dst) l ∧ (dst ≠ src → Rep (σ' src) []) ∧
      ∀ x, x ≠ dst → x ≠ src → σ' x = σ x := by
  unfold Store.moveAssign
  by_cases hd : dst = src
  · subst hd
    exact ⟨σ, by simp, h, fun hne => absurd rfl hne, fun _ _ _ => rfl⟩
  · rw [if_neg hd]
    unfold UImpl.moveFrom
    rw [readSize_rep h]
    refine ⟨_, rfl, ?_, ?_, ?_⟩
    · simp only [Store.set, hd, if_false, if_true]
      exact ⟨rfl, h.2⟩
    · intro _
      simp only [Store.set, if_true]
      exact ⟨rfl, rfl⟩
    · intro x h1 h2; simp [Store.set, h1, h2]

/-! ## C04 -/

/-- C04, refuted: `"ab".starts_with("ac")` and `"ba".ends_with("bc")` answer true. -/
theorem C04_counterexample :
    ((UImpl.ofUnits [97, 98]).startsWith (UImpl.ofUnits [97, 99]) = .ok true ∧ ¬ [97, 99] <+: [97, 98]) ∧
    ((UImpl.ofUnits [98, 97]).endsWith (UImpl.ofUnits [98, 99]) = .ok true ∧ ¬ [98, 99] <:+ [98, 97]) := by
  decide

/-- C04, what `starts_with` really decides: the prefix is not longer and only its first half (plus
the low byte of the middle unit if its length is odd) agrees. -/
theorem C04_startsWith_exact {u p : UImpl} {l m : List Nat} (hu : Rep u l) (hp : Rep p m) :
    ∃ r, u.startsWith p = .ok r ∧
      (r = true ↔ m.length ≤ l.length ∧ m.take (m.length / 2) = l.take (m.length / 2) ∧
        (m.length % 2 = 1 → m[m.length / 2]?.map (· % 256) = l[m.length / 2]?.map (· % 256))) := by
  unfold UImpl.startsWith
  rw [readSize_rep hu, readSize_rep hp]
  simp only [Res.bind_ok]
  by_cases hlen : l.length < m.length
  · rw [if_pos hlen]
    exact ⟨false, rfl, by simp; omega⟩
  · rw [if_neg hlen]
    by_cases hm : m = []
    · subst hm
      exact ⟨true, rfl, by simp⟩
    · have hml : m.length ≠ 0 := by simpa using hm
      have hl : l ≠ [] := by intro h; simp [h] at hlen; exact hm hlen
      rw [hu.2, hp.2, if_neg hl, if_neg hm]
      unfold UImpl.memcmpEq
      rw [if_neg hml]
      simp only [Option.map_some]
      rw [if_pos (by rw [bytesOf_length, bytesOf_length]; omega)]
      refine ⟨_, rfl, ?_⟩
      rw [beq_iff_eq, eq_comm, take_bytes_eq_iff m l m.length (Nat.le_refl _) (by omega)]
      simp; omega

/-- C04, partial: a genuine prefix is always recognised (the converse fails, see the
counterexample; missing: `starts_with` true only for prefixes, and the same for `ends_with`). -/
theorem C04_startsWith_partial {u p : UImpl} {l m : List Nat} (hu : Rep u l) (hp : Rep p m)
    (h : m <+: l) : u.startsWith p = .ok true := by
  obtain ⟨r, hr, hiff⟩ := C04_startsWith_exact hu hp
  rw [hr]
  congr 1
  rw [hiff]
  obtain ⟨t, rfl⟩ := h
  refine ⟨by simp, ?_, ?_⟩
  · rw [List.take_append_of_le_length (by omega)]
  · intro ho
    rw [List.getElem?_append_left (by omega)]

example : Rep (UImpl.ofUnits [97, 98, 99]) [97, 98, 99] ∧ [97, 98] <+: [97, 98, 99] := by decide

/-- C04, what `ends_with` really decides: the suffix is not longer and only its first half (plus the low
byte of the middle unit if its length is odd) agrees with the end of the string. -/
theorem C04_endsWith_exact {u p : UImpl} {l m : List Nat} (hu : Rep u l) (hp : Rep p m) :
    ∃ r, u.endsWith p = .ok r ∧
      (r = true ↔ m.length ≤ l.length ∧
        m.take (m.length / 2) = (l.drop (l.length - m.length)).take (m.length / 2) ∧
        (m.length % 2 = 1 → m[m.length / 2]?.map (· % 256) =
          (l.drop (l.length - m.length))[m.length / 2]?.map (· % 256))) := by
  unfold UImpl.endsWith
  rw [readSize_rep hu, readSize_rep hp]
  simp only [Res.bind_ok]
  by_cases hlen : l.length < m.length
  · rw [if_pos hlen]
    exact ⟨false, rfl, by simp; omega⟩
  · rw [if_neg hlen]
    by_cases hm : m = []
    · subst hm
      exact ⟨true, rfl, by simp⟩
    · have hml : m.length ≠ 0 := by simpa using hm
      have hl : l ≠ [] := by intro h; simp [h] at hlen; exact hm hlen
      have hd : (l.drop (l.length - m.length)).length = m.length := by simp; omega
      rw [hu.2, hp.2, if_neg hl, if_neg hm]
      unfold UImpl.memcmpEq
      rw [if_neg hml]
      simp only [Option.map_some]
      rw [if_pos (by rw [bytesOf_length, bytesOf_length, hd]; omega)]
      refine ⟨_, rfl, ?_⟩
      rw [beq_iff_eq, eq_comm, take_bytes_eq_iff m _ m.length (Nat.le_refl _) (by omega)]
      constructor
      · rintro ⟨a, b⟩
        exact ⟨by omega, a, b⟩
      · rintro ⟨_, a, b⟩
        exact ⟨a, b⟩

/-- C04, partial: a genuine suffix is always recognised. -/
theorem C04_endsWith_partial {u p : UImpl} {l m : List Nat} (hu : Rep u l) (hp : Rep p m)
    (h : m <:+ l) : u.endsWith p = .ok true := by
  obtain ⟨t, rfl⟩ := h
  unfold UImpl.endsWith
  rw [readSize_rep hu, readSize_rep hp]
  simp only [Res.bind_ok]
  rw [if_neg (by simp)]
  by_cases hm : m = []
  · subst hm; rfl
  · have hml : m.length ≠ 0 := by simpa using hm
    rw [hu.2, hp.2, if_neg (by simp [hm]), if_neg hm]
    unfold UImpl.memcmpEq
    rw [if_neg hml]
    simp only [Option.map_some]
    have e : (t ++ m).drop ((t ++ m).length - m.length) = m := by
      have : (t ++ m).length - m.length = t.length := by simp
      rw [this, List.drop_left]
    rw [e, if_pos (by rw [bytesOf_length]; omega)]
    simp

/-! ## C05 -/

/-- C05, refuted: for *every* initialised non-empty string the call returns `false`, leaves the output empty, and
leaves the *input* in a state in which `encode` has undefined behaviour.  (No case mapping of ICU deletes all
characters; that is `hc`.) -/
theorem C05_case_mapping_always_fails (conv : List Nat → List Nat) {inp : UImpl} (out : UImpl)
    {l : List Nat} (hr : Rep inp l) (hl : l ≠ []) (he : inp.e.success = true) (hc : conv l ≠ []) :
    ∃ inp' out', UImpl.caseMap conv inp out = .ok (false, inp', out') ∧ Rep out' [] ∧
      inp'.encode = .ub := by
  refine ⟨{ inp with e := .overflow }, out.dispose, ?_, ⟨rfl, rfl⟩, ?_⟩
  · unfold UImpl.caseMap
    simp only [he, Bool.not_true, Bool.false_eq_true, if_false, readUnits_rep hr, readSize_rep hr]
    simp [List.length_eq_zero_iff, hc, UErr.success, hr.2, hl]
  · unfold UImpl.encode
    simp [hr.2, hl]

example : Rep (UImpl.ofUnits [65]) [65] ∧ [65] ≠ [] ∧ (UImpl.ofUnits [65]).e.success = true ∧
    (fun (l : List Nat) => l.map (· + 32)) [65] ≠ [] := by decide

/-- C05, the empty string: also `false`; the output is empty as it should be, and the input is still the empty string
and can be encoded, but has a failing error code. -/
theorem C05_empty_counterexample (conv : List Nat → List Nat) {inp : UImpl} (out : UImpl)
    (hr : Rep inp []) (he : inp.e.success = true) :
    ∃ inp' out', UImpl.caseMap conv inp out = .ok (false, inp', out') ∧ Rep out' [] ∧
      Rep inp' [] ∧ inp'.e.success = false ∧ inp'.encode = .ok ([], inp') := by
  refine ⟨{ inp with e := .fail }, out.dispose, ?_, ⟨rfl, rfl⟩, rep_e _ hr, rfl, ?_⟩
  · unfold UImpl.caseMap
    simp only [he, Bool.not_true, Bool.false_eq_true, if_false, readSize_rep hr]
    simp [hr.2]
  · unfold UImpl.encode
    simp [hr.2]

example : Rep (UImpl.ofUnits []) [] ∧ (UImpl.ofUnits []).e.success = true := by decide

/-- C05, partial: only if the mapping of a non-empty string were empty (which it never is in ICU) would the functions
do what is promised; missing: everything else (refuted above). -/
theorem C05_case_mapping_partial (conv : List Nat → List Nat) {inp : UImpl} (out : UImpl)
    {l : List Nat} (hr : Rep inp l) (hl : l ≠ []) (he : inp.e.success = true) (hc : conv l = []) :
    ∃ inp' out', UImpl.caseMap conv inp out = .ok (true, inp', out') ∧ Rep out' (conv l) ∧
      Rep inp' l ∧ inp'.e.success = true := by
  refine ⟨{ inp with e := .warn }, { out.dispose.allocFill (conv l) with e := .warn }, ?_,
    rep_e _ (rep_allocFill _ _), rep_e _ hr, rfl⟩
  unfold UImpl.caseMap
  simp only [he, Bool.not_true, Bool.false_eq_true, if_false, readUnits_rep hr, readSize_rep hr]
  simp [hc, UErr.success, hr.2, hl]

example : Rep (UImpl.ofUnits [173]) [173] ∧ [173] ≠ [] ∧ (UImpl.ofUnits [173]).e.success = true ∧
    (fun (l : List Nat) => l.filter (· ≠ 173)) [173] = [] := by decide

/-! ## C06 -/

/-- C06: `lstrip` removes exactly the leading blanks. -/
theorem C06_lstrip (ws : Nat → Bool) {u : UImpl} {l : List Nat} (hu : Rep u l)
    (hl : ∀ x ∈ l, x < 0x10000) :
    ∃ v, u.lstrip ws = .ok v ∧ Rep v (utf16Encode ((toCodePoints l).dropWhile ws)) := by
  refine ⟨_, ?_, rep_ofUtf32 ((toCodePoints l).dropWhile ws) ?_⟩
  · unfold UImpl.lstrip UImpl.codePointsOf
    rw [readUnits_rep hu]
    simp [lstripLoop_true]
  · intro c hc
    exact scalar_of_eachCp l hl c ((List.dropWhile_sublist ws).mem hc)

/-- C06: `rstrip` removes exactly the trailing blanks. -/
theorem C06_rstrip (ws : Nat → Bool) {u : UImpl} {l : List Nat} (hu : Rep u l)
    (hl : ∀ x ∈ l, x < 0x10000) :
    ∃ v, u.rstrip ws = .ok v ∧
      Rep v (utf16Encode ((toCodePoints l).reverse.dropWhile ws).reverse) := by
  refine ⟨_, ?_, rep_ofUtf32 (((toCodePoints l).reverse.dropWhile ws).reverse) ?_⟩
  · unfold UImpl.rstrip UImpl.codePointsOf
    rw [readUnits_rep hu]
    simp [take_rstrip]
  · intro c hc
    have := (List.dropWhile_sublist ws).mem (List.mem_reverse.mp hc)
    exact scalar_of_eachCp l hl c (List.mem_reverse.mp this)

example : Rep (UImpl.ofUnits [32, 97, 32]) [32, 97, 32] ∧ ∀ x ∈ [32, 97, 32], x < 0x10000 := by
  decide
example : ((UImpl.ofUnits [32, 97, 32]).rstrip (· == 32)) =
    .ok { UImpl.ofUnits [32, 97] with e := .warn } := by decide

/-! ## C07 -/

/-- C07: the UTF-8 encoding of any scalar values constructs a string with these code points, and
encoding it returns the original bytes. -/
theorem C07_utf8_round_trip (cs : List Nat) (h : ∀ c ∈ cs, IsScalar c) :
    Rep (UImpl.ofUtf8 (utf8Encode cs)) (utf16Encode cs) ∧
    ∃ u, (UImpl.ofUtf8 (utf8Encode cs)).encode = .ok (utf8Encode cs, u) := by
  have hr : Rep (UImpl.ofUtf8 (utf8Encode cs)) (utf16Encode cs) := by
    unfold UImpl.ofUtf8
    rw [utf8Decode_encode cs h]
    exact rep_e _ (rep_allocFill _ _)
  refine ⟨hr, ?_⟩
  have he : (UImpl.ofUtf8 (utf8Encode cs)).e = .warn := by
    unfold UImpl.ofUtf8; rw [utf8Decode_encode cs h]
  unfold UImpl.encode
  rw [hr.2]
  by_cases hc : utf16Encode cs = []
  · rw [if_pos hc]
    have : cs = [] := by
      cases cs with
      | nil => rfl
      | cons c cs =>
        exfalso
        have : utf16Of c = [] := by
          have : utf16Encode (c :: cs) = utf16Of c ++ utf16Encode cs := by simp [utf16Encode]
          rw [hc] at this
          exact (List.append_eq_nil_iff.mp this.symm).1
        unfold utf16Of at this
        split at this <;> simp at this
    subst this
    exact ⟨_, rfl⟩
  · rw [if_neg hc]
    simp only [he, readUnits_rep hr, Res.bind_ok]
    rw [if_pos]
    · simp only [toCodePoints, toCodePoints_encode cs h]
      exact ⟨_, rfl⟩
    · have h1 := congrArg List.length (toCodePoints_encode cs h false)
      have h2 := congrArg List.length (toCodePoints_encode cs h true)
      simp at h1 h2; omega

example : utf8Encode [0x24, 0xA3, 0x20AC, 0x1F600] =
    [0x24, 0xC2, 0xA3, 0xE2, 0x82, 0xAC, 0xF0, 0x9F, 0x98, 0x80] := by decide

/-- C07: every valid byte string is such an encoding (so the round trip covers all valid bytes),
and distinct valid byte strings construct distinct strings. -/
theorem C07_utf8_valid (bs cs : List Nat) (h : utf8Decode bs = some cs) :
    utf8Encode cs = bs ∧ ∀ c ∈ cs, IsScalar c := utf8Encode_decode bs cs h

/-- C07: distinct valid byte strings give strings that do not compare equal. -/
theorem C07_utf8_injective (bs bs' cs cs' : List Nat) (h : utf8Decode bs = some cs)
    (h' : utf8Decode bs' = some cs') :
    (UImpl.ofUtf8 bs).eq (UImpl.ofUtf8 bs') = .ok (decide (bs = bs')) := by
  obtain ⟨e, s⟩ := utf8Encode_decode bs cs h
  obtain ⟨e', s'⟩ := utf8Encode_decode bs' cs' h'
  have hr := (C07_utf8_round_trip cs s).1
  have hr' := (C07_utf8_round_trip cs' s').1
  rw [e] at hr; rw [e'] at hr'
  rw [eq_rep hr hr']
  congr 1
  rw [decide_eq_decide]
  constructor
  · intro hu
    have hcs := toCodePoints_encode cs s false
    rw [hu, toCodePoints_encode cs' s' false] at hcs
    rw [← e, ← e', hcs]
  · intro hb
    have : cs = cs' := by rw [hb, h'] at h; simpa using h.symm
    rw [this]

example : utf8Decode [0x61, 0xC3, 0xA9] = some [0x61, 0xE9] ∧ utf8Decode [0x61] = some [0x61] := by
  decide

/-- C07: invalid UTF-8 constructs an object that is `empty()` and whose error flag is set. -/
theorem C07_utf8_invalid (bs : List Nat) (h : utf8Decode bs = none) :
    (UImpl.ofUtf8 bs).empty = true ∧ (UImpl.ofUtf8 bs).e.success = false ∧
    (UImpl.ofUtf8 bs).encode = .ok ([], UImpl.ofUtf8 bs) := by
  unfold UImpl.ofUtf8; rw [h]
  exact ⟨rfl, rfl, rfl⟩

-- overlong, surrogate, truncated and out of range sequences are invalid
example : utf8Decode [0xC0, 0x80] = none ∧ utf8Decode [0xED, 0xA0, 0x80] = none ∧
    utf8Decode [0xE3, 0x81] = none ∧ utf8Decode [0xF4, 0x90, 0x80, 0x80] = none := by decide

/-! ## C08 -/

/-- C08: the pieces appended by `split` concatenate to the text, the earlier content of the output
vector is kept, and the return value counts the appended pieces. -/
theorem C08_split_partition (text : List Nat) (ms : List (Nat × Nat)) (out : List (List Nat))
    (h : Matches text.length 0 ms) :
    ∃ pieces, (regexSplit text ms out).1 = out ++ pieces ∧ pieces.flatten = text ∧
      (regexSplit text ms out).2 = pieces.length := by
  unfold regexSplit
  split
  · rename_i h0
    have : text = [] := List.length_eq_zero_iff.mp h0
    exact ⟨[], by simp, by simp [this], rfl⟩
  · rw [splitLoop_acc]
    obtain ⟨h1, h2⟩ := splitLoop_flatten text 0 ms h
    exact ⟨_, rfl, by simpa using h1, by simpa using h2⟩

/-- C08: every match is one of the pieces, in order; if no match is empty no piece is empty. -/
theorem C08_split_matches (text : List Nat) (ms : List (Nat × Nat)) (h : Matches text.length 0 ms)
    (ht : text ≠ []) :
    List.Sublist (ms.map (fun m => (text.drop m.1).take (m.2 - m.1))) (regexSplit text ms []).1 ∧
    ((∀ m ∈ ms, m.1 < m.2) → ∀ p ∈ (regexSplit text ms []).1, p ≠ []) := by
  have h0 : text.length ≠ 0 := by simpa using ht
  unfold regexSplit
  rw [if_neg h0]
  exact ⟨splitLoop_sublist text 0 ms, splitLoop_nonempty text 0 ms h⟩

/-- C08, exactly: the pieces are the matches and the undivided, non-empty text between them. -/
theorem C08_split_exact (text : List Nat) (ms : List (Nat × Nat)) (out : List (List Nat)) (ht : text ≠ []) :
    (regexSplit text ms out).1 = out ++ cutAt text 0 ms := by
  have h0 : text.length ≠ 0 := by simpa using ht
  unfold regexSplit
  rw [if_neg h0]
  suffices H : ∀ cur added, (splitLoop text cur added out ms).1 = out ++ cutAt text cur ms from H 0 0
  intro cur added
  have hs : ∀ a b, (text.drop a).take (b - a) = (text.take b).drop a := fun a b => (List.drop_take ..).symm
  induction ms generalizing cur added out with
  | nil =>
    unfold splitLoop cutAt gap
    split
    · rw [hs]
    · simp
  | cons m ms ih =>
    obtain ⟨s, e⟩ := m
    simp only [splitLoop, cutAt, gap]
    split
    · rw [ih, hs, hs]; simp
    · rw [ih, hs]; simp

example : Matches 5 0 [(1, 2), (2, 4)] := by decide
example : regexSplit [10, 11, 12, 13, 14] [(1, 2), (2, 4)] [] = ([[10], [11], [12, 13], [14]], 4) := by
  decide

end Berts.Props
