import Verif.Spec.Leftover
import Verif.Proofs.Toolchain

/-! # What a quantization leaves behind -/

namespace Berts.FileFormat

/-- A file that does not begin as a model file does is not read. -/
theorem unreadable_of_head {file : List Nat} (h : ∀ x, file.head? = some x → x = 0) : Unreadable file := by
  intro nb ok
  have hc : contents nb ok file = .ok none := by
    show Rd.bind (take 4) _ file = _
    unfold Rd.bind take
    simp only [Res.bind]
    by_cases hl : 4 ≤ file.length
    · rw [if_pos hl]
      simp only
      rw [if_neg]
      · rfl
      · intro he
        cases file with
        | nil => simp at hl
        | cons x t =>
          have := h x rfl
          subst this
          have h71 : (Vocab.ascii "GGUF").head? = some 71 := by decide +kernel
          rw [← he] at h71
          simp at h71
    · rw [if_neg hl]
  unfold readGguf
  rw [hc]
  rfl

end Berts.FileFormat

namespace Berts.Quantize

variable {α F : Type}

/-- A stream behind a header of `size` zeros. -/
structure Behind (size : Nat) (o : Out) : Prop where
  head : ∀ x, o.bytes.head? = some x → x = 0
  good : o.fail = false → 0 < o.pos ∧ o.pos = o.bytes.length ∧ size ≤ o.bytes.length
  room : o.bytes.length ≤ o.room

theorem behind_zeros (size room : Nat) (hs : 0 < size) : Behind size (writeZeros ⟨[], 0, false, room⟩ size) := by
  unfold writeZeros Out.write overwrite
  simp only [Bool.false_eq_true, if_false, Nat.sub_zero, List.take_nil, List.nil_append, List.drop_nil, List.append_nil,
    List.take_replicate, Nat.zero_add, List.length_replicate]
  refine ⟨?_, ?_, ?_⟩
  · intro x hx
    simp only [List.head?_replicate] at hx
    split at hx
    · cases hx
    · injection hx with hx; exact hx.symm
  · intro h
    simp only [decide_eq_false_iff_not] at h
    simp only [List.length_replicate]
    exact ⟨by omega, trivial, by omega⟩
  · simp only [List.length_replicate]
    exact Nat.min_le_left _ _

theorem behind_write {size : Nat} {o : Out} (h : Behind size o) (new : List Nat) : Behind size (o.write new) := by
  unfold Out.write
  by_cases hf : o.fail = true
  · rw [if_pos hf]; exact h
  · rw [if_neg hf]
    obtain ⟨g1, g2, g3⟩ := h.good (by simpa using hf)
    have hr := h.room
    have hb : overwrite o.bytes o.pos (new.take (o.room - o.pos)) = o.bytes ++ new.take (o.room - o.pos) := by
      unfold overwrite
      rw [List.take_of_length_le (by omega), List.drop_of_length_le (by omega), List.append_nil]
    refine ⟨?_, ?_, ?_⟩
    · intro x hx
      simp only [hb] at hx
      apply h.head
      cases hbs : o.bytes with
      | nil => rw [hbs] at g2; simp at g2; omega
      | cons y t => rw [hbs] at hx; simpa using hx
    · intro _
      simp only [hb, List.length_append]
      omega
    · simp only [hb, List.length_append, List.length_take]
      omega

theorem behind_loop (cv : Conv F) (aw qtype : Nat) (ts : List Load.LT) {size : Nat} : ∀ (names : List (List Nat))
    (infos : List Info) (cap : Nat) (o : Out) (r : Option (List Info)) (q : Out),
    convLoop cv aw qtype ts names infos cap o = .ok (r, q) → Behind size o → Behind size q ∧ q.room = o.room
  | [], infos, cap, o, r, q, h, ho => by
    simp only [convLoop] at h
    injection h with h
    injection h with h1 h2
    subst h1 h2
    exact ⟨ho, rfl⟩
  | name :: names, infos, cap, o, r, q, h, ho => by
    simp only [convLoop] at h
    cases hg : Load.getTensor ts name with
    | none => rw [hg] at h; cases h
    | some t =>
      rw [hg] at h
      simp only at h
      cases hp : payload cv qtype name t cap with
      | ok x =>
        rw [hp] at h
        simp only [Res.bind] at h
        cases hx : x.1 with
        | none =>
          rw [hx] at h
          simp only at h
          injection h with h
          injection h with h1 h2
          subst h1 h2
          exact ⟨ho, rfl⟩
        | some y =>
          obtain ⟨type, data⟩ := y
          rw [hx] at h
          simp only at h
          cases hs : setType name type infos with
          | ok infos1 =>
            rw [hs] at h
            simp only at h
            cases hd : setData aw name data.length infos1 with
            | ok infos2 =>
              rw [hd] at h
              simp only at h
              obtain ⟨i1, i2⟩ := behind_loop cv aw qtype ts names infos2 x.2 _ r q h (behind_write (behind_write ho _) _)
              refine ⟨i1, i2.trans ?_⟩
              have hw : ∀ (o : Out) new, (o.write new).room = o.room := by
                intro o new; unfold Out.write; split <;> rfl
              unfold writeZeros
              rw [hw, hw]
            | ub => rw [hd] at h; cases h
            | abort => rw [hd] at h; cases h
            | hang => rw [hd] at h; cases h
          | ub => rw [hs] at h; cases h
          | abort => rw [hs] at h; cases h
          | hang => rw [hs] at h; cases h
      | ub => rw [hp] at h; cases h
      | abort => rw [hp] at h; cases h
      | hang => rw [hp] at h; cases h

/-- What is left behind is complete or does not begin as a model file does. -/
theorem modelQuantize_left (cv : Conv F) (aw qtype : Nat) (src : Option (List (List Nat) × List Load.LT)) {room : Nat}
    {pre : List Nat} (hpre : pre ≠ []) {b : Bool} {o : Out}
    (h : modelQuantize cv aw qtype src (some room) pre = .ok (b, some o)) :
    o.bytes.length ≤ room ∧ ((b = true ∧ o.fail = false) ∨ ∀ x, o.bytes.head? = some x → x = 0) := by
  unfold modelQuantize at h
  cases hf : Load.ftype qtype with
  | ok x =>
    rw [hf] at h
    simp only [Res.bind] at h
    match src, h with
    | none, h => cases h
    | some (names, ts), h =>
      simp only at h
      cases ha : addAll aw ts names [] with
      | ok infos =>
        rw [ha] at h
        simp only at h
        have hsize : 0 < metaSize aw pre infos := by
          have := List.length_pos_iff.2 hpre
          unfold metaSize metaData
          simp only [List.length_append]
          omega
        cases hl : convLoop cv aw qtype ts names infos 0 (writeZeros ⟨[], 0, false, room⟩ (metaSize aw pre infos)) with
        | ok r =>
          rw [hl] at h
          simp only at h
          obtain ⟨k1, k2⟩ := behind_loop cv aw qtype ts names infos 0 _ r.1 r.2 hl (behind_zeros _ room hsize)
          have hroom : r.2.room = room := k2.trans (by unfold writeZeros Out.write; rfl)
          have k3 := k1.room
          cases hr : r.1 with
          | none =>
            rw [hr] at h
            simp only at h
            injection h with h
            injection h with h1 h2
            injection h2 with h2
            subst h1 h2
            exact ⟨by omega, .inr k1.head⟩
          | some infos' =>
            rw [hr] at h
            simp only [writeMeta] at h
            by_cases hsz : (metaData aw pre infos').length ≤ metaSize aw pre infos
            · rw [if_pos hsz] at h
              simp only at h
              injection h with h
              injection h with h1 h2
              injection h2 with h2
              subst h1 h2
              cases hb : r.2.fail with
              | true =>
                have e : r.2.seekp 0 = r.2 := by unfold Out.seekp; rw [if_pos hb]
                have e' : ∀ new, r.2.write new = r.2 := by intro new; unfold Out.write; rw [if_pos hb]
                rw [e, e']
                exact ⟨by omega, .inr k1.head⟩
              | false =>
                obtain ⟨g1, g2, g3⟩ := k1.good hb
                have e : r.2.seekp 0 = { r.2 with pos := 0 } := by unfold Out.seekp; rw [if_neg (by simp [hb])]
                have hn : (metaData aw pre infos' ++ List.replicate (metaSize aw pre infos - (metaData aw pre infos').length) 0).length
                    = metaSize aw pre infos := by
                  rw [List.length_append, List.length_replicate]; omega
                rw [e]
                generalize metaData aw pre infos' ++
                  List.replicate (metaSize aw pre infos - (metaData aw pre infos').length) 0 = new at hn
                have ht : new.take r.2.room = new := List.take_of_length_le (by omega)
                unfold Out.write overwrite
                simp only [hb, Bool.false_eq_true, if_false, Nat.sub_zero, Nat.zero_add, ht, List.take_zero, List.nil_append,
                  List.length_append, List.length_drop, Nat.lt_irrefl, decide_false, and_self, true_or, and_true]
                omega
            · rw [if_neg hsz] at h
              cases h
        | ub => rw [hl] at h; cases h
        | abort => rw [hl] at h; cases h
        | hang => rw [hl] at h; cases h
      | ub => rw [ha] at h; cases h
      | abort => rw [ha] at h; cases h
      | hang => rw [ha] at h; cases h
  | ub => rw [hf] at h; cases h
  | abort => rw [hf] at h; cases h
  | hang => rw [hf] at h; cases h

theorem quantize_left (cv : Conv F) (ver : Nat) {header : List (List Nat × Load.Kv) → Nat → List Nat}
    (hh : ∀ kv n, header kv n ≠ []) (w : Load.World α) {room : Nat} (qtype : Nat) {b : Bool} {o : Out}
    (h : bertsModelQuantize cv ver header w (some room) qtype = .ok (b, some o)) :
    o.bytes.length ≤ room ∧ ((b = true ∧ o.fail = false) ∨ ∀ x, o.bytes.head? = some x → x = 0) := by
  unfold bertsModelQuantize at h
  cases hf : Load.ftype qtype with
  | ok x =>
    rw [hf] at h
    simp only [Res.bind] at h
    cases hl : Load.load w with
    | ok r =>
      rw [hl] at h
      simp only at h
      split at h
      · exact modelQuantize_left cv 32 qtype _ (hh _ _) h
      · cases h
    | ub => rw [hl] at h; cases h
    | abort => rw [hl] at h; cases h
    | hang => rw [hl] at h; cases h
  | ub => rw [hf] at h; cases h
  | abort => rw [hf] at h; cases h
  | hang => rw [hf] at h; cases h

end Berts.Quantize
