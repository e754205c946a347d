import Verif.Spec.Quantize
import Verif.Proofs.Load

/-!
# Proofs about the quantizer
-/

namespace Berts.Quantize

open Berts.Load (LT getTensor ftype)
open Berts.Vocab (ascii)
open Berts.Graph (pad)

variable {F : Type}

theorem matchWeight_iff (t : LT) (hn : NoNl t) : matchWeight t.name = true ↔ ∃ p, t.name = p ++ ascii "weight" := by
  unfold matchWeight
  have h6 : (ascii "weight").length = 6 := by decide +kernel
  constructor
  · intro h
    rw [Bool.and_eq_true] at h
    refine ⟨t.name.take (t.name.length - 6), ?_⟩
    have := eq_of_beq h.1
    rw [← this, List.take_append_drop]
  · rintro ⟨p, e⟩
    rw [e]
    rw [List.length_append, h6, Nat.add_sub_cancel, List.drop_left, List.take_left]
    rw [Bool.and_eq_true]
    refine ⟨by simp, ?_⟩
    rw [List.all_eq_true]
    intro c hc
    obtain ⟨h1, h2⟩ := hn
    rw [e] at h1 h2
    have h1' : c ≠ 10 := fun hh => h1 (hh ▸ List.mem_append_left _ hc)
    have h2' : c ≠ 13 := fun hh => h2 (hh ▸ List.mem_append_left _ hc)
    simp [h1', h2']

theorem eligible_iff (t : LT) (hn : NoNl t) : (matchWeight t.name && t.ndims == 2) = true ↔ Eligible t := by
  unfold Eligible
  rw [Bool.and_eq_true, matchWeight_iff t hn, beq_iff_eq]
  exact ⟨fun h => ⟨h.2, h.1⟩, fun h => ⟨h.2, h.1⟩⟩

theorem reserve_le (cap n : Nat) : n * 4 ≤ reserve cap n := by
  unfold reserve; split <;> omega

/-- What a tensor becomes. -/
theorem payload_ok (cv : Conv F) (qtype : Nat) (t : LT) (cap : Nat) (hn : NoNl t)
    (hc : Eligible t → FloatType t → ∃ b, cv.chunk qtype (elements cv t) = some b ∧ b.length ≤ nelements t * 4)
    (hf : Eligible t → FloatType t) :
    ∃ p cap', payload cv qtype t.name t cap = .ok (some p, cap') ∧ Converted cv qtype t p := by
  unfold payload
  by_cases he : Eligible t
  · rw [if_pos ((eligible_iff t hn).2 he)]
    obtain ⟨b, hb, hl⟩ := hc he (hf he)
    have hr := reserve_le cap (nelements t)
    refine ⟨(qtype, b), reserve cap (nelements t), ?_, fun _ => ⟨rfl, hb⟩, fun h => absurd he h⟩
    unfold quantize
    simp only
    rcases hf he with h0 | h1
    · rw [if_pos h0]
      unfold elements at hb
      rw [if_pos h0] at hb
      unfold convert
      rw [hb]
      simp only
      rw [if_pos (by omega)]
      rfl
    · rw [if_neg (by omega), if_pos h1]
      unfold elements at hb
      rw [if_neg (by omega)] at hb
      unfold convert
      rw [hb]
      simp only
      rw [if_pos (by omega)]
      rfl
  · rw [if_neg (fun h => he ((eligible_iff t hn).1 h))]
    exact ⟨_, _, rfl, fun h => absurd h he, fun _ => rfl⟩

theorem payload_fail (cv : Conv F) (qtype : Nat) (t : LT) (cap : Nat) (hn : NoNl t) (he : Eligible t)
    (hf : ¬ FloatType t) (ht : t.type < 19) : ∃ cap', payload cv qtype t.name t cap = .ok (none, cap') := by
  unfold payload
  rw [if_pos ((eligible_iff t hn).2 he)]
  unfold FloatType at hf
  unfold quantize
  simp only
  rw [if_neg (by omega), if_neg (by omega)]
  unfold ftype
  rw [if_pos ht]
  exact ⟨_, rfl⟩

/-! ## The directory -/

/-- A directory with the given types and sizes, laid out from an offset on. -/
def mk (aw : Nat) : Nat → List (LT × Nat × Nat) → List Info
  | _, [] => []
  | off, (t, ty, sz) :: r => ⟨t.name, t.ndims, t.ne, ty, sz, off⟩ :: mk aw (off + pad sz aw) r

theorem mk_append (aw : Nat) : ∀ (l m : List (LT × Nat × Nat)) (off : Nat),
    mk aw off (l ++ m) = mk aw off l ++ mk aw (off + (l.map fun x => pad x.2.2 aw).sum) m
  | [], m, off => by simp [mk]
  | (t, ty, sz) :: l, m, off => by
    simp only [List.cons_append, mk, mk_append aw l m, List.map_cons, List.sum_cons]
    rw [Nat.add_assoc]

theorem mk_last (aw : Nat) : ∀ (l : List (LT × Nat × Nat)) (off : Nat),
    nextOffset aw (mk aw off l).getLast? = if l = [] then 0 else off + (l.map fun x => pad x.2.2 aw).sum
  | [], off => by simp [mk, nextOffset]
  | [(t, ty, sz)], off => by simp [mk, nextOffset]
  | (t, ty, sz) :: (t', ty', sz') :: l, off => by
    have ih := mk_last aw ((t', ty', sz') :: l) (off + pad sz aw)
    simp only [mk, List.getLast?_cons_cons] at ih ⊢
    rw [ih]
    simp only [List.map_cons, List.sum_cons]
    simp
    omega

theorem addTensor_mk (aw : Nat) (l : List (LT × Nat × Nat)) (t : LT) :
    addTensor aw (mk aw 0 l) t = mk aw 0 (l ++ [(t, t.type, t.data.length)]) := by
  unfold addTensor
  rw [mk_append, mk_last]
  simp only [mk, Nat.zero_add]
  congr 3
  split
  · rename_i h; simp [h]
  · rfl

theorem setType_mk (aw : Nat) (t : LT) (ty ty' sz : Nat) (r : List (LT × Nat × Nat)) :
    ∀ (d : List (LT × Nat × Nat)) (off : Nat), t.name ∉ d.map (·.1.name) →
      setType t.name ty' (mk aw off (d ++ (t, ty, sz) :: r)) = .ok (mk aw off (d ++ (t, ty', sz) :: r))
  | [], off, _ => by simp [mk, setType]
  | (a, b, c) :: d, off, h => by
    simp only [List.map_cons, List.mem_cons, not_or] at h
    simp only [List.cons_append, mk, setType]
    rw [if_neg (fun e => h.1 e.symm), setType_mk aw t ty ty' sz r d _ h.2]
    rfl

theorem relayout_mk (aw : Nat) : ∀ (r : List (LT × Nat × Nat)) (p : Info) (off : Nat),
    relayout aw p (mk aw off r) = mk aw (p.offset + pad p.size aw) r
  | [], p, off => by simp [mk, relayout]
  | (t, ty, sz) :: r, p, off => by
    simp only [mk, relayout]
    rw [relayout_mk aw r]

theorem setData_mk (aw : Nat) (t : LT) (ty sz sz' : Nat) (r : List (LT × Nat × Nat)) :
    ∀ (d : List (LT × Nat × Nat)) (off : Nat), t.name ∉ d.map (·.1.name) →
      setData aw t.name sz' (mk aw off (d ++ (t, ty, sz) :: r)) = .ok (mk aw off (d ++ (t, ty, sz') :: r))
  | [], off, _ => by
    simp only [List.nil_append, mk, setData, if_true]
    rw [relayout_mk]
  | (a, b, c) :: d, off, h => by
    simp only [List.map_cons, List.mem_cons, not_or] at h
    simp only [List.cons_append, mk, setData]
    rw [if_neg (fun e => h.1 e.symm), setData_mk aw t ty sz sz' r d _ h.2]
    rfl

theorem getTensor_of (ts : List LT) (nd : (ts.map (·.name)).Nodup) (t : LT) (ht : t ∈ ts) :
    getTensor ts t.name = some t := by
  unfold getTensor
  induction ts with
  | nil => cases ht
  | cons a ts ih =>
    rw [List.map_cons, List.nodup_cons] at nd
    rw [List.find?_cons]
    rcases List.mem_cons.1 ht with rfl | ht
    · simp
    · have hf : (a.name == t.name) = false := by
        have : ¬ a.name = t.name := fun he => nd.1 (he ▸ List.mem_map_of_mem ht)
        simpa using this
      rw [hf]
      exact ih nd.2 ht

/-- A tensor with its original type and size. -/
def orig (t : LT) : LT × Nat × Nat := (t, t.type, t.data.length)

/-- A tensor with a new type and size. -/
def conv (x : LT × Nat × List Nat) : LT × Nat × Nat := (x.1, x.2.1, x.2.2.length)

theorem addAll_mk (aw : Nat) (all : List LT) (nd : (all.map (·.name)).Nodup) :
    ∀ (ts : List LT) (l : List (LT × Nat × Nat)), (∀ t ∈ ts, t ∈ all) →
      addAll aw all (ts.map (·.name)) (mk aw 0 l) = .ok (mk aw 0 (l ++ ts.map orig))
  | [], l, _ => by simp [addAll]
  | t :: ts, l, h => by
    simp only [List.map_cons, addAll]
    rw [getTensor_of all nd t (h t (by simp))]
    simp only
    rw [addTensor_mk, addAll_mk aw all nd ts _ (fun x hx => h x (List.mem_cons_of_mem _ hx))]
    simp [orig]

/-! ## Writing -/

theorem up_eq (a n : Nat) : up a n = pad n a := rfl

theorem le_pad' (a n : Nat) (ha : 0 < a) : n ≤ pad n a := Load.le_pad n a ha

/-- Appending at the end of a file with enough room. -/
theorem write_end (o : Out) (new : List Nat) (hp : o.pos = o.bytes.length) (hf : o.fail = false)
    (hr : o.bytes.length + new.length ≤ o.room) :
    o.write new = ⟨o.bytes ++ new, o.bytes.length + new.length, false, o.room⟩ := by
  have ht : new.take (o.room - o.bytes.length) = new := List.take_of_length_le (by omega)
  unfold Out.write overwrite
  simp only [hf, hp, Bool.false_eq_true, if_false, ht]
  congr 1
  · rw [List.take_of_length_le (Nat.le_refl _), List.drop_eq_nil_of_le (by omega), List.append_nil]
  · simp

theorem write_pad (o : Out) (d : List Nat) (aw : Nat) (ha : 0 < aw) (hp : o.pos = o.bytes.length)
    (hf : o.fail = false) (hr : o.bytes.length + pad d.length aw ≤ o.room) :
    writeZeros (o.write d) (pad d.length aw - d.length) =
      ⟨o.bytes ++ (d ++ List.replicate (up aw d.length - d.length) 0), o.bytes.length + pad d.length aw, false, o.room⟩ := by
  have hle := le_pad' aw d.length ha
  rw [write_end o d hp hf (by omega)]
  unfold writeZeros
  rw [write_end _ _ (by simp) rfl (by simp; omega)]
  simp only [up_eq, List.length_append, List.length_replicate, List.append_assoc]
  congr 1
  omega

theorem body_length (aw : Nat) (ha : 0 < aw) : ∀ ds : List (List Nat),
    (body aw ds).length = (ds.map fun d => pad d.length aw).sum
  | [] => rfl
  | d :: ds => by
    have := le_pad' aw d.length ha
    simp only [body, List.length_append, List.length_replicate, body_length aw ha ds, List.map_cons,
      List.sum_cons, up_eq]
    omega

theorem write_room (o : Out) (new : List Nat) : (o.write new).room = o.room := by
  unfold Out.write; split <;> rfl

/-- The loop converts the tensors one after the other. -/
theorem convLoop_ok (cv : Conv F) (aw qtype : Nat) (ha : 0 < aw) (all : List LT)
    (nd : (all.map (·.name)).Nodup) (hnl : ∀ t ∈ all, NoNl t) (hc : ChunkOk cv qtype all) :
    ∀ (ts : List LT) (d : List (LT × Nat × Nat)) (cap : Nat) (o : Out), (∀ t ∈ ts, t ∈ all) →
      (d.map (·.1.name) ++ ts.map (·.name)).Nodup → (∀ t ∈ ts, Eligible t → FloatType t) →
      ∃ (ps : List (LT × Nat × List Nat)) (o' : Out), ps.map (·.1) = ts ∧
        (∀ p ∈ ps, Converted cv qtype p.1 p.2) ∧
        convLoop cv aw qtype all (ts.map (·.name)) (mk aw 0 (d ++ ts.map orig)) cap o =
          .ok (some (mk aw 0 (d ++ ps.map conv)), o') ∧
        (o.pos = o.bytes.length → o.fail = false →
          o.bytes.length + (body aw (ps.map (·.2.2))).length ≤ o.room →
          o'.bytes = o.bytes ++ body aw (ps.map (·.2.2)) ∧ o'.pos = o'.bytes.length ∧ o'.fail = false ∧
            o'.room = o.room)
  | [], d, cap, o, _, _, _ => by
    refine ⟨[], o, rfl, by simp, ?_, ?_⟩
    · simp [convLoop]
    · intro h1 h2 _
      simp [body, h1, h2]
  | t :: ts, d, cap, o, hm, hnd, hf => by
    obtain ⟨p, cap', hp, hcv⟩ := payload_ok cv qtype t cap (hnl t (hm t (by simp)))
      (fun he hft => hc t (hm t (by simp)) he hft) (hf t (by simp))
    have hnotin : t.name ∉ d.map (·.1.name) := by
      rw [List.map_cons] at hnd
      intro hin
      have := (List.nodup_append.1 hnd).2.2 _ hin t.name (by simp)
      exact this rfl
    obtain ⟨ps, o', h1, h2, h3, h4⟩ := convLoop_ok cv aw qtype ha all nd hnl hc ts (d ++ [(t, p.1, p.2.length)]) cap'
      (writeZeros (o.write p.2) (pad p.2.length aw - p.2.length)) (fun x hx => hm x (List.mem_cons_of_mem _ hx))
      (by simpa [List.append_assoc] using hnd) (fun x hx => hf x (List.mem_cons_of_mem _ hx))
    refine ⟨(t, p) :: ps, o', by simp [h1], ?_, ?_, ?_⟩
    · intro q hq
      rcases List.mem_cons.1 hq with rfl | hq
      · exact hcv
      · exact h2 q hq
    · simp only [List.map_cons, convLoop]
      rw [getTensor_of all nd t (hm t (by simp))]
      simp only
      rw [hp]
      simp only [Res.bind]
      rw [show orig t = (t, t.type, t.data.length) from rfl, setType_mk aw t _ p.1 _ _ d 0 hnotin]
      simp only
      rw [setData_mk aw t _ _ p.2.length _ d 0 hnotin]
      simp only
      simpa [List.append_assoc, conv] using h3
    · intro g1 g2 g3
      simp only [List.map_cons, body, List.length_append, List.length_replicate] at g3
      have hle := le_pad' aw p.2.length ha
      rw [up_eq] at g3
      have hw := write_pad o p.2 aw ha g1 g2 (by omega)
      rw [hw] at h4
      have hl : (o.bytes ++ (p.2 ++ List.replicate (up aw p.2.length - p.2.length) 0)).length =
          o.bytes.length + pad p.2.length aw := by
        simp only [List.length_append, List.length_replicate, up_eq]; omega
      obtain ⟨k1, k2, k3, k4⟩ := h4 hl.symm rfl (by simp only; omega)
      refine ⟨?_, k2, k3, k4⟩
      rw [k1]
      simp only [List.map_cons, body, List.append_assoc]

/-- The loop stops at the first tensor that cannot be converted. -/
theorem convLoop_fail (cv : Conv F) (aw qtype : Nat) (all : List LT) (nd : (all.map (·.name)).Nodup)
    (hnl : ∀ t ∈ all, NoNl t) (hc : ChunkOk cv qtype all) (ht : ∀ t ∈ all, Eligible t → t.type < 19) :
    ∀ (ts : List LT) (d : List (LT × Nat × Nat)) (cap : Nat) (o : Out), (∀ t ∈ ts, t ∈ all) →
      (d.map (·.1.name) ++ ts.map (·.name)).Nodup → (∃ t ∈ ts, Eligible t ∧ ¬ FloatType t) →
      ∃ o', convLoop cv aw qtype all (ts.map (·.name)) (mk aw 0 (d ++ ts.map orig)) cap o = .ok (none, o')
  | [], d, cap, o, _, _, h => by obtain ⟨_, h, _⟩ := h; cases h
  | t :: ts, d, cap, o, hm, hnd, h => by
    simp only [List.map_cons, convLoop]
    rw [getTensor_of all nd t (hm t (by simp))]
    simp only
    by_cases hf : Eligible t ∧ ¬ FloatType t
    · obtain ⟨cap', hp⟩ := payload_fail cv qtype t cap (hnl t (hm t (by simp))) hf.1 hf.2 (ht t (hm t (by simp)) hf.1)
      rw [hp]
      exact ⟨_, rfl⟩
    · obtain ⟨p, cap', hp, _⟩ := payload_ok cv qtype t cap (hnl t (hm t (by simp)))
        (fun he hft => hc t (hm t (by simp)) he hft)
        (fun he => Classical.byContradiction fun hn => hf ⟨he, hn⟩)
      have hnotin : t.name ∉ d.map (·.1.name) := by
        rw [List.map_cons] at hnd
        intro hin
        have := (List.nodup_append.1 hnd).2.2 _ hin t.name (by simp)
        exact this rfl
      obtain ⟨o', h3⟩ := convLoop_fail cv aw qtype all nd hnl hc ht ts (d ++ [(t, p.1, p.2.length)]) cap'
        (writeZeros (o.write p.2) (pad p.2.length aw - p.2.length)) (fun x hx => hm x (List.mem_cons_of_mem _ hx))
        (by simpa [List.append_assoc] using hnd) (by
          obtain ⟨x, hx, hx'⟩ := h
          rcases List.mem_cons.1 hx with rfl | hx
          · exact absurd hx' hf
          · exact ⟨x, hx, hx'⟩)
      refine ⟨o', ?_⟩
      rw [hp]
      simp only [Res.bind]
      rw [show orig t = (t, t.type, t.data.length) from rfl, setType_mk aw t _ p.1 _ _ d 0 hnotin]
      simp only
      rw [setData_mk aw t _ _ p.2.length _ d 0 hnotin]
      simp only
      simpa [List.append_assoc] using h3

/-! ## The header -/

theorem le_length : ∀ k n, (le k n).length = k
  | 0, _ => rfl
  | k + 1, n => by simp [le, le_length k]

theorem infoBytes_length (i : Info) : (infoBytes i).length = 24 + i.name.length + 8 * i.ne.length := by
  have : ∀ l : List Nat, (l.flatMap (le 8)).length = 8 * l.length := by
    intro l
    induction l with
    | nil => rfl
    | cons a l ih => simp only [List.flatMap_cons, List.length_append, ih, le_length, List.length_cons]; omega
  unfold infoBytes
  simp only [List.length_append, le_length, this]
  omega

theorem dir_length (aw : Nat) : ∀ (l m : List (LT × Nat × Nat)) (a b : Nat), l.map (·.1) = m.map (·.1) →
    ((mk aw a l).flatMap infoBytes).length = ((mk aw b m).flatMap infoBytes).length
  | [], [], a, b, _ => rfl
  | [], _ :: _, a, b, h => by simp at h
  | _ :: _, [], a, b, h => by simp at h
  | (t, ty, sz) :: l, (t', ty', sz') :: m, a, b, h => by
    simp only [List.map_cons, List.cons.injEq] at h
    simp only [mk, List.flatMap_cons, List.length_append, infoBytes_length]
    rw [dir_length aw l m _ (b + pad sz' aw) h.2, h.1]

/-- The size of the metadata does not depend on types, sizes and offsets. -/
theorem metaSize_eq (aw : Nat) (pre : List Nat) (l m : List (LT × Nat × Nat)) (h : l.map (·.1) = m.map (·.1)) :
    metaSize aw pre (mk aw 0 l) = metaSize aw pre (mk aw 0 m) := by
  unfold metaSize metaData
  simp only [List.length_append, List.length_replicate]
  rw [dir_length aw l m 0 0 h]

theorem metaSize_val (aw : Nat) (ha : 0 < aw) (pre : List Nat) (infos : List Info) :
    metaSize aw pre infos = pad (pre ++ infos.flatMap infoBytes).length aw := by
  unfold metaSize metaData
  simp only [List.length_append, List.length_replicate]
  have := le_pad' aw (pre.length + (infos.flatMap infoBytes).length) ha
  omega

/-- Overwriting the reserved header. -/
theorem writeMeta_eq (o : Out) (md rest : List Nat) (z : Nat) (hb : o.bytes = List.replicate z 0 ++ rest)
    (hl : md.length = z) (hf : o.fail = false) (hr : z ≤ o.room) :
    ∃ o', writeMeta o z md = .ok o' ∧ o'.bytes = md ++ rest ∧ o'.fail = false := by
  unfold writeMeta
  rw [if_pos (by omega)]
  refine ⟨_, rfl, ?_, ?_⟩
  · unfold Out.seekp
    rw [if_neg (by simp [hf])]
    unfold Out.write overwrite
    simp only [hf, Bool.false_eq_true, if_false, hl, Nat.sub_self, List.replicate_zero, List.append_nil, Nat.sub_zero,
      List.take_zero, List.nil_append, Nat.zero_add]
    rw [List.take_of_length_le (by omega), hb, hl, List.drop_left' (by simp)]
  · unfold Out.seekp
    rw [if_neg (by simp [hf])]
    unfold Out.write
    simp only [hf, Bool.false_eq_true, if_false, hl, Nat.sub_self, List.replicate_zero, List.append_nil, Nat.sub_zero]
    rw [List.take_of_length_le (by omega), hl]
    simp

/-- The whole conversion. -/
theorem modelQuantize_ok (cv : Conv F) (aw qtype : Nat) (names : List (List Nat)) (ts : List LT) (room : Nat)
    (pre : List Nat) (ha : 0 < aw) (hq : qtype < 19) (hs : SrcOk names ts) (hnl : ∀ t ∈ ts, NoNl t)
    (hc : ChunkOk cv qtype ts) (hf : ∀ t ∈ ts, Eligible t → FloatType t) :
    ∃ ps : List (LT × Nat × List Nat), ps.map (·.1) = ts ∧ (∀ p ∈ ps, Converted cv qtype p.1 p.2) ∧
      ∃ o, modelQuantize cv aw qtype (some (names, ts)) (some room) pre = .ok (true, some o) ∧
        (metaSize aw pre (mk aw 0 (ps.map conv)) + (body aw (ps.map (·.2.2))).length ≤ room →
          o.bytes = metaData aw pre (mk aw 0 (ps.map conv)) ++ body aw (ps.map (·.2.2)) ∧ o.fail = false) := by
  obtain ⟨nd, rfl⟩ := hs
  have hadd := addAll_mk aw ts nd ts [] (fun _ h => h)
  simp only [mk, List.nil_append] at hadd
  obtain ⟨ps, o', h1, h2, h3, h4⟩ := convLoop_ok cv aw qtype ha ts nd hnl hc ts [] 0
    (writeZeros ⟨[], 0, false, room⟩ (metaSize aw pre (mk aw 0 (ts.map orig)))) (fun _ h => h) (by simpa using nd) hf
  simp only [List.nil_append] at h3
  have hmap : (ts.map orig).map (·.1) = (ps.map conv).map (·.1) := by
    rw [List.map_map, List.map_map]
    rw [show ((fun x : LT × Nat × Nat => x.1) ∘ conv) = (fun x : LT × Nat × List Nat => x.1) from rfl, h1]
    rw [show ((fun x : LT × Nat × Nat => x.1) ∘ orig) = id from rfl, List.map_id]
  have hms := metaSize_eq aw pre _ _ hmap
  refine ⟨ps, h1, h2, ?_⟩
  have hstep : ∀ o2, writeMeta o' (metaSize aw pre (mk aw 0 (ts.map orig))) (metaData aw pre (mk aw 0 (ps.map conv))) =
      .ok o2 → modelQuantize cv aw qtype (some (ts.map (·.name), ts)) (some room) pre = .ok (true, some o2) := by
    intro o2 ho2
    unfold modelQuantize
    unfold ftype
    rw [if_pos hq]
    simp only [Res.bind]
    rw [hadd]
    simp only
    rw [h3]
    simp only
    rw [ho2]
  have hlen : (metaData aw pre (mk aw 0 (ps.map conv))).length = metaSize aw pre (mk aw 0 (ts.map orig)) := hms.symm
  by_cases hroom : metaSize aw pre (mk aw 0 (ps.map conv)) + (body aw (ps.map (·.2.2))).length ≤ room
  · have hz : writeZeros ⟨[], 0, false, room⟩ (metaSize aw pre (mk aw 0 (ts.map orig))) =
        ⟨List.replicate (metaSize aw pre (mk aw 0 (ts.map orig))) 0, metaSize aw pre (mk aw 0 (ts.map orig)), false, room⟩ := by
      unfold writeZeros
      rw [write_end _ _ rfl rfl (by simp; omega)]
      simp
    rw [hz] at h4
    obtain ⟨k1, k2, k3, k4⟩ := h4 (by simp) rfl (by simp; omega)
    obtain ⟨o2, e, b, f⟩ := writeMeta_eq o' (metaData aw pre (mk aw 0 (ps.map conv))) (body aw (ps.map (·.2.2)))
      (metaSize aw pre (mk aw 0 (ts.map orig))) k1 hlen k3 (by rw [k4]; simp only; omega)
    exact ⟨o2, hstep o2 e, fun _ => ⟨b, f⟩⟩
  · have he : ∃ o2, writeMeta o' (metaSize aw pre (mk aw 0 (ts.map orig)))
        (metaData aw pre (mk aw 0 (ps.map conv))) = .ok o2 := by
      unfold writeMeta
      rw [if_pos (by omega)]
      exact ⟨_, rfl⟩
    obtain ⟨o2, e⟩ := he
    exact ⟨o2, hstep o2 e, fun h => absurd h hroom⟩

theorem modelQuantize_fail (cv : Conv F) (aw qtype : Nat) (names : List (List Nat)) (ts : List LT) (room : Nat)
    (pre : List Nat) (hq : qtype < 19) (hs : SrcOk names ts) (hnl : ∀ t ∈ ts, NoNl t)
    (hc : ChunkOk cv qtype ts) (ht : ∀ t ∈ ts, Eligible t → t.type < 19) (hf : ∃ t ∈ ts, Eligible t ∧ ¬ FloatType t) :
    ∃ o, modelQuantize cv aw qtype (some (names, ts)) (some room) pre = .ok (false, some o) := by
  obtain ⟨nd, rfl⟩ := hs
  have hadd := addAll_mk aw ts nd ts [] (fun _ h => h)
  simp only [mk, List.nil_append] at hadd
  obtain ⟨o', h3⟩ := convLoop_fail cv aw qtype ts nd hnl hc ht ts [] 0
    (writeZeros ⟨[], 0, false, room⟩ (metaSize aw pre (mk aw 0 (ts.map orig)))) (fun _ h => h) (by simpa using nd) hf
  simp only [List.nil_append] at h3
  refine ⟨o', ?_⟩
  unfold modelQuantize
  unfold ftype
  rw [if_pos hq]
  simp only [Res.bind]
  rw [hadd]
  simp only
  rw [h3]

/-! ## Layout -/

theorem mk_get (aw : Nat) : ∀ (l : List (LT × Nat × Nat)) (off i : Nat),
    (mk aw off l)[i]? = (l[i]?).map fun x =>
      (⟨x.1.name, x.1.ndims, x.1.ne, x.2.1, x.2.2, off + ((l.take i).map fun y => pad y.2.2 aw).sum⟩ : Info)
  | [], off, i => by simp [mk]
  | (t, ty, sz) :: l, off, 0 => by simp [mk]
  | (t, ty, sz) :: l, off, i + 1 => by
    simp only [mk, List.getElem?_cons_succ, List.take_succ_cons, List.map_cons, List.sum_cons]
    rw [mk_get aw l]
    simp only [Nat.add_assoc]

theorem mk_length (aw : Nat) : ∀ (l : List (LT × Nat × Nat)) (off : Nat), (mk aw off l).length = l.length
  | [], _ => rfl
  | (_, _, _) :: l, off => by simp [mk, mk_length aw l]

theorem conv_sum (aw : Nat) (ps : List (LT × Nat × List Nat)) (i : Nat) :
    (((ps.map conv).take i).map fun y => pad y.2.2 aw).sum = offsetOf aw (ps.map (·.2.2)) i := by
  unfold offsetOf
  rw [← List.map_take, ← List.map_take, List.map_map, List.map_map]
  rfl

theorem body_slice (aw : Nat) (ha : 0 < aw) : ∀ (ds : List (List Nat)) (i : Nat) (d : List Nat),
    ds[i]? = some d → ((body aw ds).drop (offsetOf aw ds i)).take d.length = d
  | [], i, d, h => by simp at h
  | e :: ds, 0, d, h => by
    simp only [List.getElem?_cons_zero, Option.some.injEq] at h
    subst h
    simp [offsetOf, body, List.append_assoc]
  | e :: ds, i + 1, d, h => by
    rw [List.getElem?_cons_succ] at h
    have ih := body_slice aw ha ds i d h
    have ho : offsetOf aw (e :: ds) (i + 1) = up aw e.length + offsetOf aw ds i := by simp [offsetOf]
    have hle := le_pad' aw e.length ha
    rw [ho, body, ← List.drop_drop, List.drop_left' (by simp only [List.length_append, List.length_replicate, up_eq]; omega)]
    exact ih

theorem offset_aligned (aw : Nat) (ds : List (List Nat)) (i : Nat) : offsetOf aw ds i % aw = 0 := by
  unfold offsetOf
  generalize ds.take i = l
  induction l with
  | nil => simp
  | cons d l ih =>
    simp only [List.map_cons, List.sum_cons]
    rw [Nat.add_mod, ih]
    simp [up]

theorem offset_step (aw : Nat) (ds : List (List Nat)) (i : Nat) (d : List Nat) (h : ds[i]? = some d) :
    offsetOf aw ds (i + 1) = offsetOf aw ds i + up aw d.length := by
  unfold offsetOf
  rw [List.take_succ, h]
  simp

theorem offset_mono (aw : Nat) (ds : List (List Nat)) (i j : Nat) (h : i ≤ j) :
    offsetOf aw ds i ≤ offsetOf aw ds j := by
  induction j with
  | zero => have : i = 0 := by omega
            subst this; exact Nat.le_refl _
  | succ j ih =>
    by_cases hij : i = j + 1
    · subst hij; exact Nat.le_refl _
    · have := ih (by omega)
      cases hd : ds[j]? with
      | none =>
        have : ds.length ≤ j := by simpa using hd
        have e : offsetOf aw ds (j + 1) = offsetOf aw ds j := by
          unfold offsetOf
          rw [List.take_of_length_le (by omega), List.take_of_length_le (by omega)]
        omega
      | some d =>
        have := offset_step aw ds j d hd
        omega

theorem body_length' (aw : Nat) (ha : 0 < aw) (ds : List (List Nat)) :
    (body aw ds).length = offsetOf aw ds ds.length := by
  rw [body_length aw ha]
  unfold offsetOf
  rw [List.take_of_length_le (Nat.le_refl _)]
  rfl

/-- What is written for the tensors, and the directory, are determined by the tensors. -/
theorem written_unique {cv : Conv F} {qtype aw : Nat} {ps ps' : List (LT × Nat × List Nat)} {infos infos' : List Info}
    (h1 : ps.map (·.1) = ps'.map (·.1)) (h2 : ∀ p ∈ ps, Converted cv qtype p.1 p.2)
    (h2' : ∀ p ∈ ps', Converted cv qtype p.1 p.2) (h3 : infos.length = ps.length) (h3' : infos'.length = ps'.length)
    (h4 : ∀ (i : Nat) p, ps[i]? = some p → infos[i]? = some ⟨p.1.name, p.1.ndims, p.1.ne, p.2.1, p.2.2.length,
        offsetOf aw (ps.map (·.2.2)) i⟩)
    (h4' : ∀ (i : Nat) p, ps'[i]? = some p → infos'[i]? = some ⟨p.1.name, p.1.ndims, p.1.ne, p.2.1, p.2.2.length,
        offsetOf aw (ps'.map (·.2.2)) i⟩) : ps = ps' ∧ infos = infos' := by
  have hps : ps = ps' := by
    clear h3 h3' h4 h4'
    induction ps generalizing ps' with
    | nil => cases ps' with
      | nil => rfl
      | cons => cases h1
    | cons p ps ih => cases ps' with
      | nil => cases h1
      | cons p' ps' =>
        simp only [List.map_cons, List.cons.injEq] at h1
        obtain ⟨a, b, c⟩ := p
        obtain ⟨a', b', c'⟩ := p'
        obtain rfl : a = a' := h1.1
        have k := h2 _ (List.mem_cons_self ..)
        have k' := h2' _ (List.mem_cons_self ..)
        have : (b, c) = (b', c') := by
          by_cases he : Eligible a
          · obtain ⟨e1, e2⟩ := k.1 he
            obtain ⟨e1', e2'⟩ := k'.1 he
            simp only at e1 e2 e1' e2'
            rw [e2'] at e2
            injection e2 with e2
            rw [e1, e1', e2]
          · exact (k.2 he).trans (k'.2 he).symm
        rw [this, ih h1.2 (fun p hp => h2 p (List.mem_cons_of_mem _ hp)) (fun p hp => h2' p (List.mem_cons_of_mem _ hp))]
  subst hps
  refine ⟨rfl, List.ext_getElem? fun i => ?_⟩
  cases hp : ps[i]? with
  | none =>
    have : ps.length ≤ i := by simpa using hp
    rw [List.getElem?_eq_none (by omega), List.getElem?_eq_none (by omega)]
  | some p => rw [h4 i p hp, h4' i p hp]

end Berts.Quantize
