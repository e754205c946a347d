import Verif.Props.Detour

/-! # Property C133: when the detour makes no difference -/

namespace Berts.Quantize

theorem body_inj (a : Nat) : ∀ {ds ds' : List (List Nat)}, ds.map List.length = ds'.map List.length →
    body a ds = body a ds' → ds = ds'
  | [], [], _, _ => rfl
  | [], _ :: _, h, _ => by cases h
  | _ :: _, [], h, _ => by cases h
  | d :: ds, d' :: ds', h, e => by
    simp only [List.map_cons, List.cons.injEq] at h
    unfold body at e
    rw [h.1] at e
    obtain ⟨e1, e2⟩ := List.append_inj e (by simp [h.1])
    obtain ⟨e3, _⟩ := List.append_inj e1 h.1
    rw [e3, body_inj a h.2 e2]

theorem offset_congr (a i : Nat) {ds ds' : List (List Nat)} (h : ds.map List.length = ds'.map List.length) :
    offsetOf a ds i = offsetOf a ds' i := by
  have e : ∀ ds : List (List Nat), offsetOf a ds i = (((ds.map List.length).take i).map (up a)).sum := by
    intro ds
    unfold offsetOf
    rw [← List.map_take, List.map_map]
    rfl
  rw [e, e, h]

end Berts.Quantize

namespace Berts.Props

open Berts.FileFormat
open Berts.Quantize (Out bertsModelQuantize metaData Conv Quantizable QuantizedFrom AlignedAs Eligible FloatType elements
  nelements Converted newT)
open Berts.Load
open Berts.Vocab (ascii)

variable {α F : Type}

open Classical in
/-- C133, exactly: let the type `mid` be F16 or F32, and let its numbers be converted to `qtype` as well.  The file
quantized to `mid` first and then to `qtype` is the file quantized to `qtype` at once if and only if each matrix is converted
to the same bytes from the numbers that `mid` keeps. -/
theorem C133_iff {nb : Nat → List Nat → Nat} {ok : Nat → List Nat → Bool} {dec : Nat → List Nat → List α}
    {dflt : α} {w : World α} {bytes : List Nat} (hb : Octets bytes) (hw : Disk nb ok dec dflt w bytes) {c : Ctx α}
    {l : Ledger} (h : load w = .ok (some c, l)) {g : Gguf} (hg : w.gguf = some g) (hn : NamesOk g)
    (ho : ∀ t ∈ g.dir, g.dataOffset + t.offset < 2 ^ 64) (hkey : (g.kv.map (·.1)).Nodup)
    (ha : AlignedAs g.kv 32) (hnl : ∀ t ∈ g.dir, 10 ∉ t.name ∧ 13 ∉ t.name) (cv : Conv F) (ver mid qtype : Nat)
    (hv : ver < 2 ^ 32) (hmid : mid = 0 ∨ mid = 1) (hq : qtype < 19)
    (hfl : ∀ t ∈ c.tensors, Eligible t → FloatType t)
    (hch : ∀ t ∈ c.tensors, Eligible t → ∀ y, y = mid ∨ y = qtype → ∃ b, cv.chunk y (elements cv t) = some b ∧
      b.length = nb y t.ne ∧ b.length ≤ nelements t * 4)
    (hm : ∀ t ∈ g.dir, t.ndims = 2 → (∃ x, t.name = x ++ ascii "weight") → ok mid t.ne = true)
    (hch' : ∀ t ∈ c.tensors, Eligible t → ∀ b, cv.chunk mid (elements cv t) = some b →
      ∃ b', cv.chunk qtype (if mid = 0 then cv.dec32 b else cv.dec16 b) = some b' ∧ b'.length = nb qtype t.ne ∧
        b'.length ≤ nelements t * 4) :
    ∃ first file file', (∀ room, ∃ o : Out, bertsModelQuantize cv ver preamble w (some room) mid = .ok (true, some o) ∧
        (first.length ≤ room → o.bytes = first)) ∧
      (∀ room, ∃ o : Out, bertsModelQuantize cv ver preamble w (some room) qtype = .ok (true, some o) ∧
        (file.length ≤ room → o.bytes = file)) ∧
      (∀ dec dflt (w' : World α), Disk nb ok dec dflt w' first → w'.signed = w.signed → w'.order = w.order →
        ∀ room, ∃ o : Out, bertsModelQuantize cv ver preamble w' (some room) qtype = .ok (true, some o) ∧
          (file'.length ≤ room → o.bytes = file')) ∧
      (file' = file ↔ ∀ t ∈ c.tensors, Eligible t → ∀ b, cv.chunk mid (elements cv t) = some b →
        cv.chunk qtype (if mid = 0 then cv.dec32 b else cv.dec16 b) = cv.chunk qtype (elements cv t)) := by
  have hq19 : mid < 19 := by omega
  have hr := hw.gguf
  rw [hg] at hr
  obtain ⟨_, _, hf, _⟩ := ((read_iff nb ok hb).1 g).1 hr
  have hk := file_meta hf
  obtain ⟨_, _, _, _, _, _, _, hi, _⟩ := hf
  have hs : Quantizable cv nb mid g c.tensors :=
    ⟨hkey, ha, hnl, fun t h => (hi t h).2, hfl, fun t ht he => hch t ht he mid (.inl rfl)⟩
  have hs2 : Quantizable cv nb qtype g c.tensors :=
    ⟨hkey, ha, hnl, fun t h => (hi t h).2, hfl, fun t ht he => hch t ht he qtype (.inr rfl)⟩
  obtain ⟨ps, infos, h2, h3, h4, h5, h6⟩ := Quantize.quantize_files h hg hw.file hn ho (ver := ver) (header := preamble)
    hq19 hs
  obtain ⟨qs, infos2, i2, i3, i4, i5, i6⟩ := Quantize.quantize_files h hg hw.file hn ho (ver := ver) (header := preamble)
    hq hs2
  have hin : ∀ p ∈ ps, p.1 ∈ c.tensors := fun p hp => by rw [← h2]; exact List.mem_map_of_mem hp
  have hpair : ∀ i : Nat, (ps[i]? = none ∧ qs[i]? = none) ∨ ∃ p q, ps[i]? = some p ∧ qs[i]? = some q ∧ q.1 = p.1 := by
    intro i
    have e : (qs.map (·.1))[i]? = (ps.map (·.1))[i]? := by rw [i2, h2]
    rw [List.getElem?_map, List.getElem?_map] at e
    cases hp : ps[i]? with
    | none =>
      cases hq : qs[i]? with
      | none => exact .inl ⟨rfl, rfl⟩
      | some q => rw [hp, hq] at e; cases e
    | some p =>
      cases hq : qs[i]? with
      | none => rw [hp, hq] at e; cases e
      | some q =>
        rw [hp, hq] at e
        exact .inr ⟨p, q, rfl, rfl, Option.some.inj e⟩
  -- the numbers of the first file
  have hnew : ∀ p ∈ ps, Eligible p.1 → p.2.1 = mid ∧ cv.chunk mid (elements cv p.1) = some p.2.2 ∧
      elements cv (newT p) = if mid = 0 then cv.dec32 p.2.2 else cv.dec16 p.2.2 := by
    intro p hp he
    obtain ⟨q1, q2⟩ := (h3 p hp).1 he
    refine ⟨q1, q2, ?_⟩
    unfold elements newT
    rw [q1]
  -- what is written for them
  let P : LT × Nat × List Nat → Nat × List Nat := fun p =>
    if Eligible p.1 then (qtype, (cv.chunk qtype (elements cv (newT p))).getD []) else p.2
  have hP : ∀ p ∈ ps, Eligible p.1 → (P p).1 = qtype ∧ cv.chunk qtype (elements cv (newT p)) = some (P p).2 ∧
      (P p).2.length = nb qtype p.1.ne ∧ (P p).2.length ≤ nelements p.1 * 4 := by
    intro p hp he
    obtain ⟨_, q2, q3⟩ := hnew p hp he
    obtain ⟨b', b1, b2, b3⟩ := hch' _ (hin p hp) he _ q2
    rw [← q3] at b1
    have e : P p = (qtype, b') := by
      show (if _ then _ else _) = _
      rw [if_pos he, b1]
      rfl
    rw [e]
    exact ⟨rfl, b1, b2, b3⟩
  have hP' : ∀ p ∈ ps, ¬ Eligible p.1 → P p = p.2 := fun p _ he => if_neg he
  -- it is as long as what is written for those of the source
  have hsize : ∀ p ∈ ps, ∀ q ∈ qs, q.1 = p.1 → (P p).1 = q.2.1 ∧ (P p).2.length = q.2.2.length := by
    intro p hp q hq' e
    by_cases he : Eligible p.1
    · obtain ⟨a1, _, a3, _⟩ := hP p hp he
      obtain ⟨c1, c2⟩ := (i3 q hq').1 (by rw [e]; exact he)
      rw [e] at c2
      obtain ⟨b, b1, b2, _⟩ := hch p.1 (hin p hp) he qtype (.inr rfl)
      rw [b1] at c2
      have c3 : b = q.2.2 := Option.some.inj c2
      exact ⟨a1.trans c1.symm, by rw [a3, ← c3, b2]⟩
    · have c1 := (i3 q hq').2 (by rw [e]; exact he)
      rw [e, ← (h3 p hp).2 he] at c1
      rw [hP' p hp he, c1]
      exact ⟨rfl, rfl⟩
  have hlens : ((ps.map fun p => (newT p, P p)).map (·.2.2)).map List.length = (qs.map (·.2.2)).map List.length := by
    apply List.ext_getElem?
    intro i
    simp only [List.getElem?_map]
    rcases hpair i with ⟨e1, e2⟩ | ⟨p, q, e1, e2, e3⟩
    · rw [e1, e2]; rfl
    · rw [e1, e2]
      exact congrArg some (hsize p (List.mem_of_getElem? e1) q (List.mem_of_getElem? e2) e3).2
  refine ⟨metaData 32 (preamble (Quantize.quantKv ver mid g.kv) g.dir.length) infos ++ Quantize.body 32 (ps.map (·.2.2)),
    metaData 32 (preamble (Quantize.quantKv ver qtype g.kv) g.dir.length) infos2 ++ Quantize.body 32 (qs.map (·.2.2)),
    metaData 32 (preamble (Quantize.quantKv ver qtype g.kv) g.dir.length) infos2 ++
      Quantize.body 32 ((ps.map fun p => (newT p, P p)).map (·.2.2)),
    fun room => ?_, fun room => ?_, fun dec dflt w' hw' e1 e2 room => ?_, ?_⟩
  · obtain ⟨o, k1, k2⟩ := h6 room
    exact ⟨o, k1, fun hr => k2 (by rw [List.length_append] at hr; exact hr)⟩
  · obtain ⟨o, k1, k2⟩ := i6 room
    exact ⟨o, k1, fun hr => k2 (by rw [List.length_append] at hr; exact hr)⟩
  · obtain ⟨g', r1, r2⟩ := quantized_read hk (fun t h => (hi t h).1) hv hq19 hm hs
      (Convert.quantize_described h hg hw.file hn ho h2 h3 h4 h5) (written_sum h4 h5).symm hw' e1 e2
    obtain ⟨n1, n2, n3, c', l', k1, k2, k3, k4, k5, k6⟩ :=
      Quantize.quantized_load h hg hw.file hn ho hq19 hs h2 h3 h4 h5 rfl r1 r2
    have ho' : ∀ t ∈ g'.dir, g'.dataOffset + t.offset < 2 ^ 64 := fun t ht => Nat.lt_trans (n2 t ht) (by decide)
    have hin : ∀ p ∈ ps, p.1 ∈ c.tensors := fun p hp => by rw [← h2]; exact List.mem_map_of_mem hp
    have hs' : Quantizable cv nb qtype g' c'.tensors := by
      refine ⟨by rw [r1.keys]; exact Quantize.quantKv_nodup hkey _ _, by rw [r1.keys]; exact Quantize.aligned_same hs, ?_, ?_, ?_, ?_⟩
      · intro t ht
        obtain ⟨e, q1, q2, _⟩ := n3 t ht
        rw [← q2]
        exact hnl e q1
      · intro t ht
        rw [r1.dir] at ht
        obtain ⟨e, _, rfl⟩ := List.mem_map.1 ht
        rfl
      · intro t ht he
        rw [k5] at ht
        obtain ⟨p, hp, rfl⟩ := List.mem_map.1 ht
        have : p.2.1 = mid := (hnew p hp he).1
        rcases hmid with hq | hq
        · exact .inl (this.trans hq)
        · exact .inr (this.trans hq)
      · intro t ht he
        rw [k5] at ht
        obtain ⟨p, hp, rfl⟩ := List.mem_map.1 ht
        exact ⟨_, (hP p hp he).2⟩
    obtain ⟨ps', infos', m2, m3, m4, m5, m6⟩ := Quantize.quantize_files k1 r2.gguf r2.file n1 ho' (ver := ver)
      (header := preamble) hq hs'
    have hsame := Quantize.written_unique (ps' := ps.map fun p => (newT p, P p)) (infos' := infos2)
      (m2.trans (k5.trans (by simp [Function.comp_def]))) m3 ?_ m4 ?_ m5 ?_
    · obtain ⟨rfl, rfl⟩ := hsame
      obtain ⟨o, s1, s2⟩ := m6 room
      refine ⟨o, s1, fun hle => ?_⟩
      have hdl : g'.dir.length = g.dir.length := by
        rw [r1.dir, List.length_map, h4, ← List.length_map (f := (·.1)) (as := ps), h2, ← List.length_map (f := (·.name)),
          Quantize.tensor_names h hg hw.file hn ho, List.length_map]
      rw [r1.keys, Quantize.quantKv_twice hkey, hdl] at s2
      exact s2 (by rw [List.length_append] at hle; exact hle)
    · intro z hz
      obtain ⟨p, hp, rfl⟩ := List.mem_map.1 hz
      exact ⟨fun he => ⟨(hP p hp he).1, (hP p hp he).2.1⟩, fun he => hP' p hp he⟩
    · rw [List.length_map, i4, ← List.length_map (f := (·.1)) (as := qs), i2, ← h2, List.length_map]
    · intro i z hz
      rw [List.getElem?_map, Option.map_eq_some_iff] at hz
      obtain ⟨p, hp, rfl⟩ := hz
      rcases hpair i with ⟨e1, _⟩ | ⟨p', q, e1, e2, e3⟩
      · rw [hp] at e1; cases e1
      · rw [hp] at e1
        obtain rfl := Option.some.inj e1
        obtain ⟨a1, a2⟩ := hsize p (List.mem_of_getElem? hp) q (List.mem_of_getElem? e2) e3
        rw [i5 i q e2, e3, Quantize.offset_congr 32 i hlens]
        show _ = some (Quantize.Info.mk _ _ _ (P p).1 (P p).2.length _)
        rw [a1, a2]
        rfl
  · constructor
    · intro e
      have hd := Quantize.body_inj 32 hlens (List.append_cancel_left e)
      intro t ht he b hb'
      rw [← h2] at ht
      obtain ⟨p, hp, rfl⟩ := List.mem_map.1 ht
      obtain ⟨_, q2, q3⟩ := hnew p hp he
      rw [hb'] at q2
      obtain rfl := Option.some.inj q2
      rw [← q3, (hP p hp he).2.1]
      obtain ⟨i, hi'⟩ := List.mem_iff_getElem?.1 hp
      rcases hpair i with ⟨e1, _⟩ | ⟨p', q, e1, e2, e3⟩
      · rw [hi'] at e1; cases e1
      · rw [hi'] at e1
        obtain rfl := Option.some.inj e1
        have := congrArg (·[i]?) hd
        simp only [List.getElem?_map, hi', e2] at this
        have hpq : (P p).2 = q.2.2 := Option.some.inj this
        have c2 := ((i3 q (List.mem_of_getElem? e2)).1 (by rw [e3]; exact he)).2
        rw [e3] at c2
        rw [c2, hpq]
    · intro hall
      have hd : (ps.map fun p => (newT p, P p)).map (·.2.2) = qs.map (·.2.2) := by
        apply List.ext_getElem?
        intro i
        simp only [List.getElem?_map]
        rcases hpair i with ⟨e1, e2⟩ | ⟨p, q, e1, e2, e3⟩
        · rw [e1, e2]; rfl
        · rw [e1, e2]
          have hp := List.mem_of_getElem? e1
          have hq' := List.mem_of_getElem? e2
          refine congrArg some ?_
          show (P p).2 = q.2.2
          by_cases he : Eligible p.1
          · obtain ⟨_, q2, q3⟩ := hnew p hp he
            have a := hall _ (hin p hp) he _ q2
            rw [← q3, (hP p hp he).2.1] at a
            have c2 := ((i3 q hq').1 (by rw [e3]; exact he)).2
            rw [e3, ← a] at c2
            exact Option.some.inj c2
          · have c1 := (i3 q hq').2 (by rw [e3]; exact he)
            rw [e3, ← (h3 p hp).2 he] at c1
            rw [hP' p hp he, c1]
      rw [hd]

/-- The hypotheses of `C133_iff` can be met, with a type that rounds. -/
example : ∃ (c : Ctx Int) (first file file' : List Nat),
    (∀ room, ∃ o : Out, bertsModelQuantize dtConv 2 preamble gmWorld (some room) 1 = .ok (true, some o) ∧
      (first.length ≤ room → o.bytes = first)) ∧
    (∀ room, ∃ o : Out, bertsModelQuantize dtConv 2 preamble gmWorld (some room) 8 = .ok (true, some o) ∧
      (file.length ≤ room → o.bytes = file)) ∧
    (∀ dec dflt (w' : World Int), Disk qfNb fmOk dec dflt w' first → w'.signed = false → w'.order = id →
      ∀ room, ∃ o : Out, bertsModelQuantize dtConv 2 preamble w' (some room) 8 = .ok (true, some o) ∧
        (file'.length ≤ room → o.bytes = file')) ∧
    (file' = file ↔ ∀ t ∈ c.tensors, Eligible t → ∀ b, dtConv.chunk 1 (elements dtConv t) = some b →
      dtConv.chunk 8 b = dtConv.chunk 8 (elements dtConv t)) := by
  obtain ⟨h1, h2, c, l, g, h3, h4, h5, h6, h7, h8, h9, h10, h11⟩ := gm_ok
  have hl : ∀ t ∈ c.tensors, Eligible t → (elements dtConv t).length = qfNb 8 t.ne ∧
      (elements dtConv t).length ≤ nelements t * 4 := by
    intro t ht he
    obtain ⟨b, b1, b2, b3⟩ := h11 t ht he
    have hb : elements dtConv t = b := Option.some.inj b1
    rw [hb]
    exact ⟨b2, b3⟩
  refine ⟨c, C133_iff h1 h2 h3 h4 h5 h6 h7 h8 h9 dtConv 2 1 8 (by decide) (.inr rfl) (by decide) h10 ?_
    (fun _ _ _ _ => rfl) ?_⟩
  · rintro t ht he y (rfl | rfl)
    · refine ⟨(elements dtConv t).map (· / 2 * 2), rfl, ?_, ?_⟩
      · rw [List.length_map]; exact (hl t ht he).1
      · rw [List.length_map]; exact (hl t ht he).2
    · exact ⟨elements dtConv t, rfl, hl t ht he⟩
  · intro t ht he b hb
    have : b = (elements dtConv t).map (· / 2 * 2) := (Option.some.inj hb).symm
    subst this
    refine ⟨_, rfl, ?_, ?_⟩
    · show (List.map _ _).length = _
      rw [List.length_map]; exact (hl t ht he).1
    · show (List.map _ _).length ≤ _
      rw [List.length_map]; exact (hl t ht he).2

end Berts.Props
