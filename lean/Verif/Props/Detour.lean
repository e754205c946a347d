import Verif.Proofs.Again
import Verif.Props.Leftover

/-! # Property C133: quantizing by way of F32 or F16 -/

namespace Berts.Props

open Berts.FileFormat
open Berts.Quantize (Out bertsModelQuantize metaData Conv Quantizable QuantizedFrom AlignedAs Eligible FloatType elements
  nelements Converted)
open Berts.Load
open Berts.Examples.Spec (TypeName CaseVariant Number)
open Berts.Vocab (ascii)

variable {α F : Type}

/-- C133 (partial: see `C133_counterexample`): let the type `mid`, F16 or F32, lose nothing that matters for the type
`qtype`.  A file quantized to `mid` first and then to `qtype` is the file quantized to `qtype` at once. -/
theorem C133_detour_partial {nb : Nat → List Nat → Nat} {ok : Nat → List Nat → Bool} {dec : Nat → List Nat → List α}
    {dflt : α} {w : World α} {bytes : List Nat} (hb : Octets bytes) (hw : Disk nb ok dec dflt w bytes) {c : Ctx α}
    {l : Ledger} (h : load w = .ok (some c, l)) {g : Gguf} (hg : w.gguf = some g) (hn : NamesOk g)
    (ho : ∀ t ∈ g.dir, g.dataOffset + t.offset < 2 ^ 64) (hkey : (g.kv.map (·.1)).Nodup)
    (ha : AlignedAs g.kv 32) (hnl : ∀ t ∈ g.dir, 10 ∉ t.name ∧ 13 ∉ t.name) (cv : Conv F) (ver mid qtype : Nat)
    (hv : ver < 2 ^ 32) (hmid : mid = 0 ∨ mid = 1) (hq : qtype < 19)
    (hfl : ∀ t ∈ c.tensors, Eligible t → FloatType t)
    (hch : ∀ t ∈ c.tensors, Eligible t → ∀ y, y = mid ∨ y = qtype → ∃ b, cv.chunk y (elements cv t) = some b ∧
      b.length = nb y t.ne ∧ b.length ≤ nelements t * 4)
    (hm : ∀ t ∈ g.dir, t.ndims = 2 → (∃ x, t.name = x ++ ascii "weight") → ok mid t.ne = true)
    (hid : ∀ t ∈ c.tensors, Eligible t → ∀ b, cv.chunk mid (elements cv t) = some b →
      cv.chunk qtype (if mid = 0 then cv.dec32 b else cv.dec16 b) = cv.chunk qtype (elements cv t)) :
    ∃ first file, (∀ room, ∃ o : Out, bertsModelQuantize cv ver preamble w (some room) mid = .ok (true, some o) ∧
        (first.length ≤ room → o.bytes = first)) ∧
      (∀ room, ∃ o : Out, bertsModelQuantize cv ver preamble w (some room) qtype = .ok (true, some o) ∧
        (file.length ≤ room → o.bytes = file)) ∧
      ∀ dec dflt (w' : World α), Disk nb ok dec dflt w' first → w'.signed = w.signed → w'.order = w.order →
        ∀ room, ∃ o : Out, bertsModelQuantize cv ver preamble w' (some room) qtype = .ok (true, some o) ∧
          (file.length ≤ room → o.bytes = file) := by
  have hq19 : mid < 19 := by omega
  have hr := hw.gguf
  rw [hg] at hr
  obtain ⟨_, _, hf, _⟩ := ((read_iff nb ok hb).1 g).1 hr
  have hk := file_meta hf
  obtain ⟨_, _, _, _, _, _, _, hi, _⟩ := hf
  have hs : Quantizable cv nb mid g c.tensors :=
    ⟨hkey, ha, hnl, fun t h => (hi t h).2, hfl, fun t ht he => hch t ht he mid (.inl rfl)⟩
  have hs2 : Quantizable cv nb qtype g c.tensors :=
    ⟨hkey, ha, hnl, fun t h => (hi t h).2, hfl, fun t ht he => hch t ht he qtype (.inr rfl)⟩
  obtain ⟨ps, infos, h2, h3, h4, h5, h6⟩ := Quantize.quantize_files h hg hw.file hn ho (ver := ver) (header := preamble)
    hq19 hs
  obtain ⟨qs, infos2, i2, i3, i4, i5, i6⟩ := Quantize.quantize_files h hg hw.file hn ho (ver := ver) (header := preamble)
    hq hs2
  refine ⟨metaData 32 (preamble (Quantize.quantKv ver mid g.kv) g.dir.length) infos ++ Quantize.body 32 (ps.map (·.2.2)),
    metaData 32 (preamble (Quantize.quantKv ver qtype g.kv) g.dir.length) infos2 ++ Quantize.body 32 (qs.map (·.2.2)),
    fun room => ?_, fun room => ?_, fun dec dflt w' hw' e1 e2 room => ?_⟩
  · obtain ⟨o, k1, k2⟩ := h6 room
    exact ⟨o, k1, fun hr => k2 (by rw [List.length_append] at hr; exact hr)⟩
  · obtain ⟨o, k1, k2⟩ := i6 room
    exact ⟨o, k1, fun hr => k2 (by rw [List.length_append] at hr; exact hr)⟩
  obtain ⟨g', r1, r2⟩ := quantized_read hk (fun t h => (hi t h).1) hv hq19 hm hs
    (Convert.quantize_described h hg hw.file hn ho h2 h3 h4 h5) (written_sum h4 h5).symm hw' e1 e2
  obtain ⟨n1, n2, n3, c', l', k1, k2, k3, k4, k5, k6⟩ :=
    Quantize.quantized_load h hg hw.file hn ho hq19 hs h2 h3 h4 h5 rfl r1 r2
  have ho' : ∀ t ∈ g'.dir, g'.dataOffset + t.offset < 2 ^ 64 := fun t ht => Nat.lt_trans (n2 t ht) (by decide)
  have hin : ∀ p ∈ ps, p.1 ∈ c.tensors := fun p hp => by rw [← h2]; exact List.mem_map_of_mem hp
  -- the tensors of the first file are converted as those of the source
  have hconv : ∀ p ∈ ps, Eligible p.1 → p.2.1 = mid ∧
      cv.chunk qtype (elements cv (Quantize.newT p)) = cv.chunk qtype (elements cv p.1) := by
    intro p hp he
    obtain ⟨q1, q2⟩ := (h3 p hp).1 he
    refine ⟨q1, ?_⟩
    have := hid _ (hin p hp) he _ q2
    unfold elements Quantize.newT
    rw [q1]
    exact this
  have hs' : Quantizable cv nb qtype g' c'.tensors := by
    refine ⟨by rw [r1.keys]; exact Quantize.quantKv_nodup hkey _ _, by rw [r1.keys]; exact Quantize.aligned_same hs, ?_, ?_, ?_, ?_⟩
    · intro t ht
      obtain ⟨e, q1, q2, _⟩ := n3 t ht
      rw [← q2]
      exact hnl e q1
    · intro t ht
      rw [r1.dir] at ht
      obtain ⟨e, _, rfl⟩ := List.mem_map.1 ht
      rfl
    · intro t ht he
      rw [k5] at ht
      obtain ⟨p, hp, rfl⟩ := List.mem_map.1 ht
      have : p.2.1 = mid := (hconv p hp he).1
      rcases hmid with hq | hq
      · exact .inl (this.trans hq)
      · exact .inr (this.trans hq)
    · intro t ht he
      rw [k5] at ht
      obtain ⟨p, hp, rfl⟩ := List.mem_map.1 ht
      obtain ⟨b, b1, b2, b3⟩ := hch p.1 (hin p hp) he qtype (.inr rfl)
      exact ⟨b, (hconv p hp he).2.trans b1, b2, b3⟩
  obtain ⟨ps', infos', m2, m3, m4, m5, m6⟩ := Quantize.quantize_files k1 r2.gguf r2.file n1 ho' (ver := ver)
    (header := preamble) hq hs'
  have hlen : qs.length = ps.length := by
    rw [← List.length_map (f := (·.1)) (as := qs), i2, ← h2, List.length_map]
  have hfst : ∀ (i : Nat) p q, ps[i]? = some p → qs[i]? = some q → q.1 = p.1 := by
    intro i p q hp hq
    have e : (qs.map (·.1))[i]? = (ps.map (·.1))[i]? := by rw [i2, h2]
    rw [List.getElem?_map, List.getElem?_map, hp, hq] at e
    exact Option.some.inj e
  have hz : ∀ (i : Nat) z, (List.zipWith (fun p q => (Quantize.newT p, q.2)) ps qs)[i]? = some z →
      ∃ p q, ps[i]? = some p ∧ qs[i]? = some q ∧ z = (Quantize.newT p, q.2) := by
    intro i z hz
    rw [List.getElem?_zipWith] at hz
    cases hp : ps[i]? with
    | none => rw [hp] at hz; cases hz
    | some p =>
      cases hq : qs[i]? with
      | none => rw [hp, hq] at hz; cases hz
      | some q =>
        rw [hp, hq] at hz
        exact ⟨p, q, rfl, rfl, (Option.some.inj hz).symm⟩
  have hmap : (List.zipWith (fun p q => (Quantize.newT p, q.2)) ps qs).map (·.2.2) = qs.map (·.2.2) := by
    rw [List.map_zipWith]
    exact Quantize.zipWith_right (·.2.2) ps qs hlen
  have hnew : (List.zipWith (fun p q => (Quantize.newT p, q.2)) ps qs).map (·.1) = ps.map Quantize.newT := by
    rw [List.map_zipWith]
    exact Quantize.zipWith_left Quantize.newT ps qs hlen
  have hsame := Quantize.written_unique (ps' := List.zipWith (fun p q => (Quantize.newT p, q.2)) ps qs) (infos' := infos2)
    (m2.trans (k5.trans hnew.symm)) m3 ?_ m4 (by simp [i4, hlen]) m5 ?_
  · obtain ⟨rfl, rfl⟩ := hsame
    obtain ⟨o, s1, s2⟩ := m6 room
    refine ⟨o, s1, fun hle => ?_⟩
    have hdl : g'.dir.length = g.dir.length := by
      rw [r1.dir, List.length_map, h4, ← List.length_map (f := (·.1)) (as := ps), h2, ← List.length_map (f := (·.name)),
        Quantize.tensor_names h hg hw.file hn ho, List.length_map]
    rw [r1.keys, Quantize.quantKv_twice hkey, hdl, hmap] at s2
    exact s2 (by rw [List.length_append] at hle; exact hle)
  · intro z hz'
    obtain ⟨i, hi'⟩ := List.mem_iff_getElem?.1 hz'
    obtain ⟨p, q, hp, hq', rfl⟩ := hz i z hi'
    have hpm := List.mem_of_getElem? hp
    have hqm := List.mem_of_getElem? hq'
    have hpq := hfst i p q hp hq'
    refine ⟨fun he => ?_, fun he => ?_⟩
    · have he' : Eligible p.1 := he
      obtain ⟨a1, a2⟩ := (i3 q hqm).1 (by rw [hpq]; exact he')
      rw [hpq] at a2
      exact ⟨a1, (hconv p hpm he').2.trans a2⟩
    · have he' : ¬ Eligible p.1 := he
      have a1 := (i3 q hqm).2 (by rw [hpq]; exact he')
      have a2 := (h3 p hpm).2 he'
      rw [hpq, ← a2] at a1
      exact a1
  · intro i z hz'
    obtain ⟨p, q, hp, hq', rfl⟩ := hz i z hz'
    have hpq := hfst i p q hp hq'
    rw [hmap, i5 i q hq', hpq]
    rfl

/-- C133, the programs (partial as `C133_detour_partial`): for all paths, also equal ones, and all ways to name the
types, running the quantizer twice leaves at the output path the file that running it once leaves there. -/
theorem C133_programs_partial {nb : Nat → List Nat → Nat} {ok : Nat → List Nat → Bool} {dec : Nat → List Nat → List α}
    {dflt : α} (disk : Option (List Nat) → World α) {input : List Nat} {fs : Toolchain.Files} {bytes : List Nat}
    (hfs : fs input = some bytes) (hb : Octets bytes) (hw : Disk nb ok dec dflt (disk (some bytes)) bytes) {c : Ctx α}
    {l : Ledger} (h : load (disk (some bytes)) = .ok (some c, l)) {g : Gguf} (hg : (disk (some bytes)).gguf = some g)
    (hn : NamesOk g) (ho : ∀ t ∈ g.dir, g.dataOffset + t.offset < 2 ^ 64) (hkey : (g.kv.map (·.1)).Nodup)
    (ha : AlignedAs g.kv 32) (hnl : ∀ t ∈ g.dir, 10 ∉ t.name ∧ 13 ∉ t.name) (cv : Conv F) (ver mid qtype : Nat)
    (hv : ver < 2 ^ 32) (hmid : mid = 0 ∨ mid = 1) (hq : qtype < 19)
    (hfl : ∀ t ∈ c.tensors, Eligible t → FloatType t)
    (hch : ∀ t ∈ c.tensors, Eligible t → ∀ y, y = mid ∨ y = qtype → ∃ b, cv.chunk y (elements cv t) = some b ∧
      b.length = nb y t.ne ∧ b.length ≤ nelements t * 4)
    (hm : ∀ t ∈ g.dir, t.ndims = 2 → (∃ x, t.name = x ++ ascii "weight") → ok mid t.ne = true)
    (hid : ∀ t ∈ c.tensors, Eligible t → ∀ b, cv.chunk mid (elements cv t) = some b →
      cv.chunk qtype (if mid = 0 then cv.dec32 b else cv.dec16 b) = cv.chunk qtype (elements cv t))
    {type type' : List Nat} (hty : ∃ name, TypeName mid name ∧ (CaseVariant type name ∨ Number type mid))
    (hty' : ∃ name, TypeName qtype name ∧ (CaseVariant type' name ∨ Number type' qtype)) :
    ∃ first file, ∀ (room : List Nat → Option Nat) (via out : List Nat) (n n' : Nat), room via = some n →
      first.length ≤ n → room out = some n' → file.length ≤ n' →
      Toolchain.runQuant cv ver disk room [input, type', out] fs = .ok (0, Toolchain.put fs out file) ∧
      Toolchain.runQuant cv ver disk room [input, type, via] fs = .ok (0, Toolchain.put fs via first) ∧
      (Disk nb ok dec dflt (disk (some first)) first → (disk (some first)).signed = (disk (some bytes)).signed →
        (disk (some first)).order = (disk (some bytes)).order →
        Toolchain.runQuant cv ver disk room [via, type', out] (Toolchain.put fs via first) =
          .ok (0, Toolchain.put (Toolchain.put fs via first) out file)) := by
  obtain ⟨first, file, h1, h2, h3⟩ := C133_detour_partial hb hw h hg hn ho hkey ha hnl cv ver mid qtype hv hmid hq hfl hch
    hm hid
  refine ⟨first, file, fun room via out n n' e1 e2 e3 e4 => ⟨?_, ?_, fun hw' s1 s2 => ?_⟩⟩
  · obtain ⟨o, k1, k2⟩ := h2 n'
    rw [run_quant hfs hty' (by rw [e3]; exact k1), k2 e4]
  · obtain ⟨o, k1, k2⟩ := h1 n
    rw [run_quant hfs hty (by rw [e1]; exact k1), k2 e2]
  · obtain ⟨o, k1, k2⟩ := h3 _ _ _ hw' s1 s2 n'
    rw [run_quant (put_self _ _ _) hty' (by rw [e3]; exact k1), k2 e4]

theorem dt_first : (match bertsModelQuantize qfConv 2 preamble (lfDisk (some gmDisk)) (some 5000) 1 with
    | .ok (true, some o) => !o.fail && (match readGguf qfNb fmOk o.bytes with
      | .ok (some g) => decide (needed loadGg g.dir < 2 ^ 64 ∧ o.bytes.length < 2 ^ 63)
      | _ => false)
    | _ => false) = true := by decide +kernel

/-- The hypotheses of `C133_programs_partial` can be met, also those on the first file. -/
example : ∃ (room : List Nat → Option Nat) (first file : List Nat),
    Toolchain.runQuant qfConv 2 lfDisk room [ascii "a", ascii "q8_0", ascii "c"] lfStart =
      .ok (0, Toolchain.put lfStart (ascii "c") file) ∧
    Toolchain.runQuant qfConv 2 lfDisk room [ascii "a", ascii "f16", ascii "b"] lfStart =
      .ok (0, Toolchain.put lfStart (ascii "b") first) ∧
    Toolchain.runQuant qfConv 2 lfDisk room [ascii "b", ascii "q8_0", ascii "c"] (Toolchain.put lfStart (ascii "b") first) =
      .ok (0, Toolchain.put (Toolchain.put lfStart (ascii "b") first) (ascii "c") file) := by
  obtain ⟨h1, h2, c, l, g, h3, h4, h5, h6, h7, h8, h9, h10, h11⟩ := gm_ok
  have hst : lfStart (ascii "a") = some gmDisk := by unfold lfStart; exact put_self _ _ _
  have heq : gmWorld = lfDisk (some gmDisk) := by
    unfold lfDisk gmWorld
    simp only
    generalize readGguf qfNb fmOk gmDisk = r
    cases r <;> rfl
  rw [heq] at h2 h3 h4
  have hf16 : ∃ name, TypeName 1 name ∧ (CaseVariant (ascii "f16") name ∨ Number (ascii "f16") 1) :=
    (C58_accept_iff _ _).1 (by decide +kernel)
  obtain ⟨first, file, hf⟩ := C133_programs_partial lfDisk hst h1 h2 h3 h4 h5 h6 h7 h8 h9 qfConv 2 1 8 (by decide)
    (.inr rfl) (by decide) h10
    (by rintro t ht he y (rfl | rfl)
        · exact h11 t ht he
        · exact h11 t ht he)
    (fun _ _ _ _ => rfl) (fun t _ _ b hb => hb.symm) hf16 tc_type
  obtain ⟨r1, r2, r3⟩ := hf (fun _ => some (first.length + file.length + 5000)) (ascii "b") (ascii "c") _ _ rfl (by omega) rfl
    (by omega)
  have hfirst := dt_first
  have hal : 0 < loadGg.align ∧ loadGg.tensorSize % loadGg.align = 0 := by decide
  split at hfirst
  · rename_i o e
    simp only [Bool.and_eq_true, Bool.not_eq_true'] at hfirst
    obtain ⟨f1, f2⟩ := hfirst
    obtain ⟨o', e', e2⟩ := Quantize.quantize_roomier qfConv 2 preamble _
      (by omega : 5000 ≤ first.length + file.length + 5000) 1 e f1
    have r4 := run_quant_any (ver := 2) (cv := qfConv) (disk := lfDisk) (fs := lfStart) (input := ascii "a") (out := ascii "b")
      (room := fun _ => some (first.length + file.length + 5000)) hf16 (by rw [hst]; exact e')
    have hfile : first = o.bytes := by
      have := congrFun (Prod.mk.inj (Res.ok.inj (r2.symm.trans r4))).2 (ascii "b")
      rw [put_self, put_self] at this
      rw [Option.some.inj this, e2]
    have hd : Disk qfNb fmOk chDec 0 (lfDisk (some first)) first := by
      rw [hfile]
      split at f2
      · rename_i g' hg'
        simp only [decide_eq_true_eq] at f2
        have hgg : (lfDisk (some o.bytes)).gguf = some g' := by unfold lfDisk; simp only [hg']
        refine ⟨by rw [hgg]; exact hg', rfl, rfl, fun g'' hg'' => ?_, hal, f2.2⟩
        rw [hgg] at hg''
        injection hg'' with hg''
        subst hg''
        exact ⟨rfl, f2.1⟩
      · cases f2
    exact ⟨_, first, file, r1, r2, r3 hd rfl rfl⟩
  · cases hfirst

/-- C133, by way of F32: as F32 keeps all numbers, nothing is required of the other type. -/
theorem C133_f32 {nb : Nat → List Nat → Nat} {ok : Nat → List Nat → Bool} {dec : Nat → List Nat → List α}
    {dflt : α} {w : World α} {bytes : List Nat} (hb : Octets bytes) (hw : Disk nb ok dec dflt w bytes) {c : Ctx α}
    {l : Ledger} (h : load w = .ok (some c, l)) {g : Gguf} (hg : w.gguf = some g) (hn : NamesOk g)
    (ho : ∀ t ∈ g.dir, g.dataOffset + t.offset < 2 ^ 64) (hkey : (g.kv.map (·.1)).Nodup)
    (ha : AlignedAs g.kv 32) (hnl : ∀ t ∈ g.dir, 10 ∉ t.name ∧ 13 ∉ t.name) (cv : Conv F) (ver qtype : Nat)
    (hv : ver < 2 ^ 32) (hq : qtype < 19) (hfl : ∀ t ∈ c.tensors, Eligible t → FloatType t)
    (hch : ∀ t ∈ c.tensors, Eligible t → ∀ y, y = 0 ∨ y = qtype → ∃ b, cv.chunk y (elements cv t) = some b ∧
      b.length = nb y t.ne ∧ b.length ≤ nelements t * 4)
    (hm : ∀ t ∈ g.dir, t.ndims = 2 → (∃ x, t.name = x ++ ascii "weight") → ok 0 t.ne = true)
    (hid : ∀ xs b, cv.chunk 0 xs = some b → cv.dec32 b = xs) :
    ∃ first file, (∀ room, ∃ o : Out, bertsModelQuantize cv ver preamble w (some room) 0 = .ok (true, some o) ∧
        (first.length ≤ room → o.bytes = first)) ∧
      (∀ room, ∃ o : Out, bertsModelQuantize cv ver preamble w (some room) qtype = .ok (true, some o) ∧
        (file.length ≤ room → o.bytes = file)) ∧
      ∀ dec dflt (w' : World α), Disk nb ok dec dflt w' first → w'.signed = w.signed → w'.order = w.order →
        ∀ room, ∃ o : Out, bertsModelQuantize cv ver preamble w' (some room) qtype = .ok (true, some o) ∧
          (file.length ≤ room → o.bytes = file) :=
  C133_detour_partial hb hw h hg hn ho hkey ha hnl cv ver 0 qtype hv (.inl rfl) hq hfl hch hm
    (fun t _ _ b hb => by rw [if_pos rfl, hid _ b hb])

/-- A conversion with exact F32: each number is the first of four bytes. -/
def dtExact : Conv Nat := ⟨firsts, fun b => b, fun t xs => some (if t = 0 then xs.flatMap (fun x => [x, 0, 0, 0]) else xs)⟩

/-- `dtExact` loses nothing in F32. -/
theorem dt_exact (xs b : List Nat) (h : dtExact.chunk 0 xs = some b) : dtExact.dec32 b = xs := by
  have : b = xs.flatMap (fun x => [x, 0, 0, 0]) := (Option.some.inj h).symm
  subst this
  show firsts _ = _
  clear h
  induction xs with
  | nil => rfl
  | cons x xs ih =>
    rw [List.flatMap_cons]
    exact congrArg (x :: ·) ih

/-- The hypotheses of `C133_f32` can be met. -/
example : ∃ first file, (∀ room, ∃ o : Out, bertsModelQuantize dtExact 2 preamble gmWorld (some room) 0 = .ok (true, some o) ∧
      (first.length ≤ room → o.bytes = first)) ∧
    (∀ room, ∃ o : Out, bertsModelQuantize dtExact 2 preamble gmWorld (some room) 8 = .ok (true, some o) ∧
      (file.length ≤ room → o.bytes = file)) ∧
    ∀ dec dflt (w' : World Int), Disk qfNb fmOk dec dflt w' first → w'.signed = false → w'.order = id →
      ∀ room, ∃ o : Out, bertsModelQuantize dtExact 2 preamble w' (some room) 8 = .ok (true, some o) ∧
        (file.length ≤ room → o.bytes = file) := by
  obtain ⟨h1, h2, c, l, g, h3, h4, h5, h6, h7, h8, h9, h10, h11⟩ := gm_ok
  refine C133_f32 h1 h2 h3 h4 h5 h6 h7 h8 h9 dtExact 2 8 (by decide) (by decide) h10 ?_ (fun _ _ _ _ => rfl) dt_exact
  rintro t ht he y (rfl | rfl)
  · obtain ⟨b, b1, b2, _⟩ := h11 t ht he
    have hb : elements dtExact t = b := Option.some.inj b1
    have hl : ∀ xs : List Nat, (xs.flatMap fun x => [x, 0, 0, 0]).length = 4 * xs.length := by
      intro xs
      induction xs with
      | nil => rfl
      | cons x xs ih => simp only [List.flatMap_cons, List.length_append, List.length_cons, List.length_nil, ih]; omega
    have hn : b.length = nelements t := by
      rw [b2]
      show 1 * _ = _
      rw [Nat.one_mul]
      rfl
    refine ⟨b.flatMap fun x => [x, 0, 0, 0], by rw [hb]; rfl, ?_, ?_⟩
    · rw [hl, hn]; rfl
    · rw [hl, hn]; omega
  · exact h11 t ht he

/-- The hypotheses of `C133_detour_partial` can be met. -/
example : ∃ first file, (∀ room, ∃ o : Out, bertsModelQuantize qfConv 2 preamble gmWorld (some room) 1 = .ok (true, some o) ∧
      (first.length ≤ room → o.bytes = first)) ∧
    (∀ room, ∃ o : Out, bertsModelQuantize qfConv 2 preamble gmWorld (some room) 8 = .ok (true, some o) ∧
      (file.length ≤ room → o.bytes = file)) ∧
    ∀ dec dflt (w' : World Int), Disk qfNb fmOk dec dflt w' first → w'.signed = false → w'.order = id →
      ∀ room, ∃ o : Out, bertsModelQuantize qfConv 2 preamble w' (some room) 8 = .ok (true, some o) ∧
        (file.length ≤ room → o.bytes = file) := by
  obtain ⟨h1, h2, c, l, g, h3, h4, h5, h6, h7, h8, h9, h10, h11⟩ := gm_ok
  refine C133_detour_partial h1 h2 h3 h4 h5 h6 h7 h8 h9 qfConv 2 1 8 (by decide) (.inr rfl) (by decide) h10 ?_
    (fun _ _ _ _ => rfl) ?_
  · rintro t ht he y (rfl | rfl)
    · exact h11 t ht he
    · exact h11 t ht he
  · intro t _ _ b hb
    exact hb.symm

/-- A conversion to F16 that rounds (to even numbers); the conversion to every other type is exact. -/
def dtConv : Conv Nat := ⟨firsts, fun b => b, fun t xs => some (if t = 1 then xs.map (· / 2 * 2) else xs)⟩

/-- C133 fails for F16, which rounds: quantizing to F16 and then to Q8_0 does not give the file that quantizing to Q8_0
gives, though all three runs succeed. -/
theorem C133_counterexample : ∃ (fs1 fs2 fs3 : Toolchain.Files) (file file' : List Nat),
    Toolchain.runQuant dtConv 2 lfDisk (fun _ => some 5000) [ascii "a", ascii "f16", ascii "b"] lfStart = .ok (0, fs1) ∧
    Toolchain.runQuant dtConv 2 lfDisk (fun _ => some 5000) [ascii "b", ascii "q8_0", ascii "c"] fs1 = .ok (0, fs2) ∧
    Toolchain.runQuant dtConv 2 lfDisk (fun _ => some 5000) [ascii "a", ascii "q8_0", ascii "c"] lfStart = .ok (0, fs3) ∧
    fs2 (ascii "c") = some file ∧ fs3 (ascii "c") = some file' ∧ file ≠ file' ∧
    (∃ c l, load (lfDisk (some file)) = .ok (some c, l)) ∧ ∃ c l, load (lfDisk (some file')) = .ok (some c, l) := by
  have h : (match Toolchain.runQuant dtConv 2 lfDisk (fun _ => some 5000) [ascii "a", ascii "f16", ascii "b"] lfStart with
      | .ok (0, fs1) =>
        match Toolchain.runQuant dtConv 2 lfDisk (fun _ => some 5000) [ascii "b", ascii "q8_0", ascii "c"] fs1,
          Toolchain.runQuant dtConv 2 lfDisk (fun _ => some 5000) [ascii "a", ascii "q8_0", ascii "c"] lfStart with
        | .ok (0, fs2), .ok (0, fs3) =>
          match fs2 (ascii "c"), fs3 (ascii "c") with
          | some file, some file' => decide (file ≠ file') &&
            (match load (lfDisk (some file)) with | .ok (some _, _) => true | _ => false) &&
            (match load (lfDisk (some file')) with | .ok (some _, _) => true | _ => false)
          | _, _ => false
        | _, _ => false
      | _ => false) = true := by decide +kernel
  split at h
  · rename_i fs1 e1
    split at h
    · rename_i fs2 fs3 e2 e3
      split at h
      · rename_i file file' e4 e5
        rw [Bool.and_eq_true, Bool.and_eq_true] at h
        obtain ⟨⟨h1, h2⟩, h3⟩ := h
        refine ⟨fs1, fs2, fs3, file, file', e1, e2, e3, e4, e5, of_decide_eq_true h1, ?_, ?_⟩
        · split at h2
          · rename_i c l e; exact ⟨c, l, e⟩
          · cases h2
        · split at h3
          · rename_i c l e; exact ⟨c, l, e⟩
          · cases h3
      · cases h
    · cases h
  · cases h

end Berts.Props
