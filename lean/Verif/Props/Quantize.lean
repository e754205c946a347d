import Verif.Proofs.Quantize

/-!
# Properties of the quantizer
-/

namespace Berts.Props

open Berts.Quantize
open Berts.Load (LT TInfo Gguf Complete)
open Berts.Vocab (ascii)

variable {F : Type}

/-! ## A small source: a weight matrix in F32, a bias, a matrix that is no weight -/

/-- A conversion that writes one byte per element. -/
def qConv : Conv Nat := ⟨fun b => b.take (b.length / 4), fun b => b.take (b.length / 2), fun _ xs => some xs⟩

def qWeight : LT := ⟨ascii "a.weight", 2, [2, 1], 0, [1, 2, 3, 4, 5, 6, 7, 8]⟩
def qBias : LT := ⟨ascii "a.bias", 1, [1], 0, [1, 2, 3, 4]⟩
def qOther : LT := ⟨ascii "a.weights", 2, [1, 1], 18, [9, 9, 9, 9]⟩

def qTensors : List LT := [qWeight, qBias, qOther]

theorem qEligible : Eligible qWeight ∧ ¬ Eligible qBias ∧ ¬ Eligible qOther := by
  refine ⟨⟨rfl, ascii "a.", by decide +kernel⟩, fun h => by simp [Eligible, qBias] at h, ?_⟩
  rintro ⟨_, p, hp⟩
  have h := congrArg List.getLast? hp
  have e1 : qOther.name.getLast? = some 115 := by decide +kernel
  have e2 : ascii "weight" = [119, 101, 105, 103, 104, 116] := by decide +kernel
  rw [e1, e2] at h
  simp at h

theorem qSrcOk : SrcOk (qTensors.map (·.name)) qTensors := ⟨by decide +kernel, rfl⟩

theorem qNoNl : ∀ t ∈ qTensors, NoNl t := by
  have : ∀ t ∈ qTensors, 10 ∉ t.name ∧ 13 ∉ t.name := by decide +kernel
  exact this

theorem qChunkOk (q : Nat) : ChunkOk qConv q qTensors := by
  intro t ht he _
  have : t = qWeight := by
    simp only [qTensors, List.mem_cons, List.not_mem_nil, or_false] at ht
    rcases ht with rfl | rfl | rfl
    · rfl
    · exact absurd he qEligible.2.1
    · exact absurd he qEligible.2.2
  subst this
  exact ⟨_, rfl, by decide +kernel⟩

/-! ## C54 -/

/-- C54: if every two-dimensional tensor named "…weight" is F16 or F32, the conversion succeeds; these
tensors get the new type and the quantized data, all others are recorded and written unchanged.  The file
is the metadata followed by these data (if it can be written).  Names have no line terminators; for those see
`C54_newline_counterexample`. -/
theorem C54_convert_partial (cv : Conv F) (aw qtype : Nat) (names : List (List Nat)) (ts : List LT) (room : Nat)
    (pre : List Nat) (ha : 0 < aw) (hq : qtype < 19) (hs : SrcOk names ts) (hnl : ∀ t ∈ ts, NoNl t)
    (hc : ChunkOk cv qtype ts) (hf : ∀ t ∈ ts, Eligible t → FloatType t) :
    ∃ (ps : List (LT × Nat × List Nat)) (infos : List Info) (o : Out),
      modelQuantize cv aw qtype (some (names, ts)) (some room) pre = .ok (true, some o) ∧
      ps.map (·.1) = ts ∧ (∀ p ∈ ps, Converted cv qtype p.1 p.2) ∧ infos.length = ps.length ∧
      (∀ (i : Nat) p, ps[i]? = some p → infos[i]? = some ⟨p.1.name, p.1.ndims, p.1.ne, p.2.1, p.2.2.length,
        offsetOf aw (ps.map (·.2.2)) i⟩) ∧
      ((metaData aw pre infos).length + (body aw (ps.map (·.2.2))).length ≤ room →
        o.bytes = metaData aw pre infos ++ body aw (ps.map (·.2.2))) := by
  obtain ⟨ps, h1, h2, o, h3, h4⟩ := modelQuantize_ok cv aw qtype names ts room pre ha hq hs hnl hc hf
  refine ⟨ps, mk aw 0 (ps.map conv), o, h3, h1, h2, by rw [mk_length, List.length_map], ?_, fun h => (h4 h).1⟩
  intro i p hp
  rw [mk_get, List.getElem?_map, hp]
  simp only [Option.map_some, Nat.zero_add, conv_sum]
  rfl

example : ∀ t ∈ qTensors, Eligible t → FloatType t := by
  intro t ht he
  simp only [qTensors, List.mem_cons, List.not_mem_nil, or_false] at ht
  rcases ht with rfl | rfl | rfl
  · exact .inl rfl
  · exact absurd he qEligible.2.1
  · exact absurd he qEligible.2.2

/-- C54: if such a tensor is neither F16 nor F32 the conversion returns false. -/
theorem C54_reject (cv : Conv F) (aw qtype : Nat) (names : List (List Nat)) (ts : List LT) (room : Nat)
    (pre : List Nat) (hq : qtype < 19) (hs : SrcOk names ts) (hnl : ∀ t ∈ ts, NoNl t)
    (hc : ChunkOk cv qtype ts) (ht : ∀ t ∈ ts, Eligible t → t.type < 19) (hf : ∃ t ∈ ts, Eligible t ∧ ¬ FloatType t) :
    ∃ o, modelQuantize cv aw qtype (some (names, ts)) (some room) pre = .ok (false, some o) :=
  modelQuantize_fail cv aw qtype names ts room pre hq hs hnl hc ht hf

example : ∃ t ∈ [(⟨ascii "a.weight", 2, [1, 1], 2, [0]⟩ : LT)], Eligible t ∧ ¬ FloatType t :=
  ⟨⟨ascii "a.weight", 2, [1, 1], 2, [0]⟩, by simp, ⟨rfl, ascii "a.", by decide +kernel⟩, by simp [FloatType]⟩

/-- C54: nothing is done if loading fails or the output cannot be opened; an unknown type stops the process
before anything is read. -/
theorem C54_no_input (cv : Conv F) (aw qtype : Nat) (src : Option (List (List Nat) × List LT)) (room : Option Nat)
    (pre : List Nat) :
    (qtype < 19 → src = none ∨ room = none → modelQuantize cv aw qtype src room pre = .ok (false, none)) ∧
    (19 ≤ qtype → modelQuantize cv aw qtype src room pre = .abort) := by
  unfold modelQuantize Load.ftype
  constructor
  · intro h hs
    rw [if_pos h]
    simp only [Res.bind]
    rcases hs with rfl | rfl
    · rfl
    · cases src with
      | none => rfl
      | some s => rfl
  · intro h
    rw [if_neg (by omega)]
    rfl

/-- The file made from a list of tensors. -/
def qFile (ts : List LT) (aw room : Nat) : Option (Bool × List Nat) :=
  match modelQuantize qConv aw 2 (some (ts.map (·.name), ts)) (some room) [] with
  | .ok (b, some o) => some (b, o.bytes)
  | _ => none

/-- C54 fails for names with a line terminator: the matrix is copied unchanged (8 bytes instead of 2). -/
theorem C54_newline_counterexample :
    Eligible ⟨[10] ++ ascii "weight", 2, [2, 1], 0, [1, 2, 3, 4, 5, 6, 7, 8]⟩ ∧
    (qFile [⟨[10] ++ ascii "weight", 2, [2, 1], 0, [1, 2, 3, 4, 5, 6, 7, 8]⟩] 1 1000).map (fun r => r.2.drop 47) =
      some [1, 2, 3, 4, 5, 6, 7, 8] ∧
    (qFile [⟨[11] ++ ascii "weight", 2, [2, 1], 0, [1, 2, 3, 4, 5, 6, 7, 8]⟩] 1 1000).map (fun r => r.2.drop 47) =
      some [1, 2] := by
  refine ⟨⟨rfl, [10], rfl⟩, by decide +kernel, by decide +kernel⟩

/-- C54: when the conversion fails the file written so far stays behind, with a header of zeros. -/
theorem C54_leftover_counterexample :
    qFile [qBias, ⟨ascii "weight", 2, [1, 1], 2, [9]⟩] 1 1000 = some (false, List.replicate 84 0 ++ [1, 2, 3, 4]) := by
  decide +kernel

/-! ## C55 -/

/-- C55: in the file of a successful conversion, the data of entry `i` are at the end of the metadata plus
the offset recorded for the entry; the metadata fill exactly the space reserved before the types and sizes
were known; offsets and data section are aligned; the data of different entries do not overlap and lie in
the file; and a reader that uses the alignment of the writer looks for the data there.  Partial: the writer
always uses alignment 32, see `C55_alignment_counterexample`. -/
theorem C55_layout_partial (cv : Conv F) (aw qtype : Nat) (names : List (List Nat)) (ts : List LT) (room : Nat)
    (pre : List Nat) (ha : 0 < aw) (hq : qtype < 19) (hs : SrcOk names ts) (hnl : ∀ t ∈ ts, NoNl t)
    (hc : ChunkOk cv qtype ts) (hf : ∀ t ∈ ts, Eligible t → FloatType t) :
    ∃ (ps : List (LT × Nat × List Nat)) (infos : List Info) (o : Out) (reserved : List Info),
      modelQuantize cv aw qtype (some (names, ts)) (some room) pre = .ok (true, some o) ∧
      ps.map (·.1) = ts ∧ (∀ p ∈ ps, Converted cv qtype p.1 p.2) ∧
      addAll aw ts names [] = .ok reserved ∧ (metaData aw pre reserved).length = (metaData aw pre infos).length ∧
      (metaData aw pre infos).length % aw = 0 ∧ readerOffset aw pre infos = (metaData aw pre infos).length ∧
      ((metaData aw pre infos).length + (body aw (ps.map (·.2.2))).length ≤ room →
        o.bytes.take (metaData aw pre infos).length = metaData aw pre infos ∧
        (∀ (i : Nat) p, ps[i]? = some p → ∃ e, infos[i]? = some e ∧ e.name = p.1.name ∧ e.type = p.2.1 ∧
          e.size = p.2.2.length ∧ e.offset % aw = 0 ∧
          (metaData aw pre infos).length + e.offset + e.size ≤ o.bytes.length ∧
          (o.bytes.drop ((metaData aw pre infos).length + e.offset)).take e.size = p.2.2) ∧
        (∀ (i j : Nat) (e f : Info), i < j → infos[i]? = some e → infos[j]? = some f → e.offset + e.size ≤ f.offset)) := by
  obtain ⟨ps, infos, o, h1, h2, h3, hlen, h4, h5⟩ :=
    C54_convert_partial cv aw qtype names ts room pre ha hq hs hnl hc hf
  have hmk : infos = mk aw 0 (ps.map conv) := by
    apply List.ext_getElem?
    intro i
    cases hp : ps[i]? with
    | none =>
      have : ps.length ≤ i := by simpa using hp
      rw [List.getElem?_eq_none (by omega), List.getElem?_eq_none (by rw [mk_length, List.length_map]; omega)]
    | some p =>
      rw [h4 i p hp, mk_get, List.getElem?_map, hp]
      simp only [Option.map_some, Nat.zero_add, conv_sum]
      rfl
  obtain ⟨nd, rfl⟩ := hs
  have hadd := addAll_mk aw ts nd ts [] (fun _ h => h)
  simp only [mk, List.nil_append] at hadd
  have hmap : (ts.map orig).map (·.1) = (ps.map conv).map (·.1) := by
    rw [List.map_map, List.map_map]
    rw [show ((fun x : LT × Nat × Nat => x.1) ∘ conv) = (fun x : LT × Nat × List Nat => x.1) from rfl, h2]
    rw [show ((fun x : LT × Nat × Nat => x.1) ∘ orig) = id from rfl, List.map_id]
  have hval := metaSize_val aw ha pre infos
  unfold metaSize at hval
  refine ⟨ps, infos, o, _, h1, h2, h3, hadd, ?_, ?_, ?_, ?_⟩
  · rw [hmk]
    exact metaSize_eq aw pre _ _ hmap
  · rw [hval]
    unfold Graph.pad
    simp
  · rw [hval]
    unfold readerOffset
    rw [up_eq, List.length_append, List.length_flatMap]
  · intro hroom
    have hb := h5 hroom
    refine ⟨by rw [hb, List.take_left], ?_, ?_⟩
    · intro i p hp
      have hd : (ps.map (·.2.2))[i]? = some p.2.2 := by rw [List.getElem?_map, hp]; rfl
      have hi : i < ps.length := by
        have := List.getElem?_eq_some_iff.1 hp
        exact this.1
      have h6 := offset_step aw (ps.map (·.2.2)) i p.2.2 hd
      have h7 := offset_mono aw (ps.map (·.2.2)) (i + 1) (ps.map (·.2.2)).length (by rw [List.length_map]; omega)
      have h8 := le_pad' aw p.2.2.length ha
      rw [up_eq] at h6
      refine ⟨_, h4 i p hp, rfl, rfl, rfl, offset_aligned aw _ i, ?_, ?_⟩
      · rw [hb, List.length_append, body_length' aw ha]
        simp only
        omega
      · simp only
        rw [hb, ← List.drop_drop, List.drop_left]
        exact body_slice aw ha _ i _ hd
    · intro i j e f hij he hf'
      have hi : i < infos.length := (List.getElem?_eq_some_iff.1 he).1
      have hj : j < infos.length := (List.getElem?_eq_some_iff.1 hf').1
      rw [hlen] at hi hj
      have hpi : ps[i]? = some ps[i] := List.getElem?_eq_getElem hi
      have hpj : ps[j]? = some ps[j] := List.getElem?_eq_getElem hj
      rw [h4 i _ hpi] at he
      rw [h4 j _ hpj] at hf'
      cases he
      cases hf'
      have hd : (ps.map (·.2.2))[i]? = some ps[i].2.2 := by rw [List.getElem?_map, hpi]; rfl
      have h6 := offset_step aw (ps.map (·.2.2)) i _ hd
      have h7 := offset_mono aw (ps.map (·.2.2)) (i + 1) j (by omega)
      have h8 := le_pad' aw ps[i].2.2.length ha
      rw [up_eq] at h6
      simp only
      omega

/-- The file made from the small source: 96 bytes of metadata, then the tensors at multiples of 32. -/
example : qFile qTensors 32 1000 = some (true,
    (qFile qTensors 32 1000).get!.2.take 160 ++ ([1, 2] ++ List.replicate 30 0 ++ ([1, 2, 3, 4] ++ List.replicate 28 0) ++
      ([9, 9, 9, 9] ++ List.replicate 28 0))) := by decide +kernel

/-- C55 together with C56: a model made by the quantizer is complete in the sense of the loader: if the
reader uses the writer's alignment and computes the recorded sizes from types and shapes, all data are in
the file. -/
theorem C55_complete_partial (cv : Conv F) (aw qtype : Nat) (names : List (List Nat)) (ts : List LT)
    (pre : List Nat) (ha : 0 < aw) (hq : qtype < 19) (hs : SrcOk names ts) (hnl : ∀ t ∈ ts, NoNl t)
    (hc : ChunkOk cv qtype ts) (hf : ∀ t ∈ ts, Eligible t → FloatType t) :
    ∃ infos : List Info, ∀ room, ∃ o : Out,
      modelQuantize cv aw qtype (some (names, ts)) (some room) pre = .ok (true, some o) ∧
      ∀ g : Gguf, g.dataOffset = readerOffset aw pre infos →
        g.dir = infos.map (fun e => ⟨e.name, e.ndims, e.ne, e.type, e.size, e.offset⟩) →
        (metaData aw pre infos).length + (infos.map fun e => up aw e.size).sum ≤ room →
        ∀ t ∈ g.dir, Complete g o.bytes t := by
  obtain ⟨ps, infos, _, _, h2, h3, hlen, h4, _⟩ :=
    C54_convert_partial cv aw qtype names ts 0 pre ha hq hs hnl hc hf
  have hval := metaSize_val aw ha pre infos
  unfold metaSize at hval
  refine ⟨infos, fun room => ?_⟩
  obtain ⟨ps', infos', o, h1, h2', h3', hlen', h4', h5⟩ :=
    C54_convert_partial cv aw qtype names ts room pre ha hq hs hnl hc hf
  obtain ⟨rfl, rfl⟩ := written_unique (h2.trans h2'.symm) h3 h3' hlen hlen' h4 h4'
  refine ⟨o, h1, ?_⟩
  intro g hg1 hg2 hroom t ht j hj
  rw [hg2] at ht
  obtain ⟨e, he, rfl⟩ := List.mem_map.1 ht
  obtain ⟨i, hi, hie⟩ := List.mem_iff_getElem.1 he
  rw [hlen] at hi
  have hpi : ps[i]? = some ps[i] := List.getElem?_eq_getElem hi
  have hie' := h4 i _ hpi
  rw [List.getElem?_eq_getElem (by omega), hie] at hie'
  cases hie'
  have hd : (ps.map (·.2.2))[i]? = some ps[i].2.2 := by rw [List.getElem?_map, hpi]; rfl
  have h6 := offset_step aw (ps.map (·.2.2)) i _ hd
  have h7 := offset_mono aw (ps.map (·.2.2)) (i + 1) (ps.map (·.2.2)).length (by rw [List.length_map]; omega)
  have h8 := le_pad' aw ps[i].2.2.length ha
  rw [up_eq] at h6
  have hsum : (infos.map fun e => up aw e.size).sum = offsetOf aw (ps.map (·.2.2)) (ps.map (·.2.2)).length := by
    unfold offsetOf
    rw [List.take_of_length_le (Nat.le_refl _), List.map_map]
    congr 1
    apply List.ext_getElem?
    intro k
    rw [List.getElem?_map, List.getElem?_map]
    cases hk : ps[k]? with
    | none =>
      have : ps.length ≤ k := by simpa using hk
      rw [List.getElem?_eq_none (by omega)]
      rfl
    | some p => rw [h4 k p hk]; rfl
  have hro : readerOffset aw pre infos = (metaData aw pre infos).length := by
    rw [hval]
    unfold readerOffset
    rw [up_eq, List.length_append, List.length_flatMap]
  have hb := h5 (by rw [body_length' aw ha, ← hsum]; exact hroom)
  rw [hg1, hro, hb, List.length_append, body_length' aw ha]
  simp only at hj ⊢
  omega

/-- C55 fails for sources with another alignment: the metadata (with `general.alignment` = 64) are copied, but
the writer lays the file out with alignment 32.  For a directory of one tensor a reader then expects the
data 32 bytes after the place where they are. -/
theorem C55_alignment_counterexample :
    let infos := [(⟨ascii "a.weight", 2, [2, 1], 2, 2, 0⟩ : Info)]
    qFile [qWeight] 32 1000 = some (true, metaData 32 [] infos ++ body 32 [[1, 2]]) ∧
    (metaData 32 [] infos).length = 64 ∧
    (∀ pre : List Nat, pre.length = 40 → (metaData 32 pre infos).length = 96 ∧ readerOffset 64 pre infos = 128) := by
  refine ⟨by decide +kernel, by decide +kernel, ?_⟩
  intro pre hp
  have hl : (infoBytes (⟨ascii "a.weight", 2, [2, 1], 2, 2, 0⟩ : Info)).length = 48 := by decide +kernel
  constructor
  · have := metaSize_val 32 (by omega) pre [(⟨ascii "a.weight", 2, [2, 1], 2, 2, 0⟩ : Info)]
    unfold metaSize at this
    rw [this]
    simp [Graph.pad, hl, hp]
  · simp [readerOffset, up, hl, hp]

/-! ## C69 -/

/-- C69: if there is enough room the file is written completely and true is returned.  Partial: otherwise
true is returned as well, see `C69_full_disk_counterexample`. -/
theorem C69_written_partial (cv : Conv F) (aw qtype : Nat) (names : List (List Nat)) (ts : List LT)
    (pre : List Nat) (ha : 0 < aw) (hq : qtype < 19) (hs : SrcOk names ts) (hnl : ∀ t ∈ ts, NoNl t)
    (hc : ChunkOk cv qtype ts) (hf : ∀ t ∈ ts, Eligible t → FloatType t) :
    ∃ need, ∀ room, need ≤ room → ∃ o,
      modelQuantize cv aw qtype (some (names, ts)) (some room) pre = .ok (true, some o) ∧ o.fail = false ∧
        o.bytes.length = need := by
  obtain ⟨ps, h1, h2, _⟩ := modelQuantize_ok cv aw qtype names ts 0 pre ha hq hs hnl hc hf
  refine ⟨metaSize aw pre (mk aw 0 (ps.map conv)) + (body aw (ps.map (·.2.2))).length, ?_⟩
  intro room hroom
  obtain ⟨ps', h1', h2', o, h3, h4⟩ := modelQuantize_ok cv aw qtype names ts room pre ha hq hs hnl hc hf
  have hps : ps' = ps := by
    have key : ∀ (l m : List (LT × Nat × List Nat)), l.map (·.1) = m.map (·.1) →
        (∀ p ∈ l, Converted cv qtype p.1 p.2) → (∀ p ∈ m, Converted cv qtype p.1 p.2) → l = m := by
      intro l
      induction l with
      | nil => intro m hm _ _; cases m with
        | nil => rfl
        | cons _ _ => simp at hm
      | cons x l ih =>
        intro m hm hl hm'
        cases m with
        | nil => simp at hm
        | cons y m =>
          simp only [List.map_cons, List.cons.injEq] at hm
          have hx := hl x (by simp)
          have hy := hm' y (by simp)
          have : x = y := by
            obtain ⟨xt, x1, x2⟩ := x
            obtain ⟨yt, y1, y2⟩ := y
            simp only at hm
            obtain ⟨rfl, _⟩ := hm
            by_cases he : Eligible xt
            · have a := hx.1 he
              have b := hy.1 he
              simp only at a b
              have : x2 = y2 := by
                have := a.2.symm.trans b.2
                exact Option.some.inj this
              rw [a.1, b.1, this]
            · have a := hx.2 he
              have b := hy.2 he
              simp only at a b
              rw [a, b]
          rw [this, ih m hm.2 (fun p hp => hl p (List.mem_cons_of_mem _ hp)) (fun p hp => hm' p (List.mem_cons_of_mem _ hp))]
    exact key ps' ps (by rw [h1, h1']) h2' h2
  subst hps
  obtain ⟨k1, k2⟩ := h4 hroom
  exact ⟨o, h3, k2, by rw [k1, List.length_append]; rfl⟩

/-- C69 fails: with room for 100 bytes only, true is returned although the data are missing. -/
theorem C69_full_disk_counterexample :
    (qFile qTensors 32 100).map (fun r => (r.1, r.2.length)) = some (true, 100) ∧
    (qFile qTensors 32 1000).map (fun r => (r.1, r.2.length)) = some (true, 256) := by
  constructor <;> decide +kernel

end Berts.Props
