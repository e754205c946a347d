import Verif.Proofs.Again
import Verif.Props.Leftover

/-! # Property C132: quantizing to F16 or F32 once more -/

namespace Berts.Props

open Berts.FileFormat
open Berts.Quantize (Out bertsModelQuantize metaData Conv Quantizable QuantizedFrom AlignedAs Eligible FloatType elements
  nelements Converted)
open Berts.Load
open Berts.Vocab (ascii)

variable {α F : Type}

/-- C132 (partial: types F16 and F32, see `C132_counterexample`): let the file be converted to F16 or F32, and let conversion to this type lose nothing of what it has
made.  Quantizing the new file to this type again gives the same file. -/
theorem C132_again_partial {nb : Nat → List Nat → Nat} {ok : Nat → List Nat → Bool} {dec : Nat → List Nat → List α}
    {dflt : α} {w : World α} {bytes : List Nat} (hb : Octets bytes) (hw : Disk nb ok dec dflt w bytes) {c : Ctx α}
    {l : Ledger} (h : load w = .ok (some c, l)) {g : Gguf} (hg : w.gguf = some g) (hn : NamesOk g)
    (ho : ∀ t ∈ g.dir, g.dataOffset + t.offset < 2 ^ 64) (hkey : (g.kv.map (·.1)).Nodup)
    (ha : AlignedAs g.kv 32) (hnl : ∀ t ∈ g.dir, 10 ∉ t.name ∧ 13 ∉ t.name) (cv : Conv F) (ver qtype : Nat)
    (hv : ver < 2 ^ 32) (hq : qtype = 0 ∨ qtype = 1) (hfl : ∀ t ∈ c.tensors, Eligible t → FloatType t)
    (hch : ∀ t ∈ c.tensors, Eligible t → ∃ b, cv.chunk qtype (elements cv t) = some b ∧ b.length = nb qtype t.ne ∧
      b.length ≤ nelements t * 4)
    (hm : ∀ t ∈ g.dir, t.ndims = 2 → (∃ x, t.name = x ++ ascii "weight") → ok qtype t.ne = true)
    (hid : ∀ xs b, cv.chunk qtype xs = some b → cv.chunk qtype (if qtype = 0 then cv.dec32 b else cv.dec16 b) = some b) :
    ∃ file, (∀ room, ∃ o : Out, bertsModelQuantize cv ver preamble w (some room) qtype = .ok (true, some o) ∧
        (file.length ≤ room → o.bytes = file)) ∧
      ∀ dec dflt (w' : World α), Disk nb ok dec dflt w' file → w'.signed = w.signed → w'.order = w.order →
        ∀ room, ∃ o : Out, bertsModelQuantize cv ver preamble w' (some room) qtype = .ok (true, some o) ∧
          (file.length ≤ room → o.bytes = file) := by
  have hq19 : qtype < 19 := by omega
  have hr := hw.gguf
  rw [hg] at hr
  obtain ⟨_, _, hf, _⟩ := ((read_iff nb ok hb).1 g).1 hr
  have hk := file_meta hf
  obtain ⟨_, _, _, _, _, _, _, hi, _⟩ := hf
  have hs : Quantizable cv nb qtype g c.tensors := ⟨hkey, ha, hnl, fun t h => (hi t h).2, hfl, hch⟩
  obtain ⟨ps, infos, h2, h3, h4, h5, h6⟩ := Quantize.quantize_files h hg hw.file hn ho (ver := ver) (header := preamble)
    hq19 hs
  refine ⟨metaData 32 (preamble (Quantize.quantKv ver qtype g.kv) g.dir.length) infos ++ Quantize.body 32 (ps.map (·.2.2)),
    fun room => ?_, fun dec dflt w' hw' e1 e2 room => ?_⟩
  · obtain ⟨o, k1, k2⟩ := h6 room
    exact ⟨o, k1, fun hr => k2 (by rw [List.length_append] at hr; exact hr)⟩
  obtain ⟨g', r1, r2⟩ := quantized_read hk (fun t h => (hi t h).1) hv hq19 hm hs
    (Convert.quantize_described h hg hw.file hn ho h2 h3 h4 h5) (written_sum h4 h5).symm hw' e1 e2
  obtain ⟨n1, n2, n3, c', l', k1, k2, k3, k4, k5, k6⟩ :=
    Quantize.quantized_load h hg hw.file hn ho hq19 hs h2 h3 h4 h5 rfl r1 r2
  have ho' : ∀ t ∈ g'.dir, g'.dataOffset + t.offset < 2 ^ 64 := fun t ht => Nat.lt_trans (n2 t ht) (by decide)
  -- the tensors of the new file are converted to themselves
  have hel : ∀ p ∈ ps, Eligible (Quantize.newT p) → Eligible p.1 := fun p _ he => he
  have hconv : ∀ p ∈ ps, Eligible p.1 → p.2.1 = qtype ∧ cv.chunk qtype (elements cv (Quantize.newT p)) = some p.2.2 := by
    intro p hp he
    obtain ⟨q1, q2⟩ := (h3 p hp).1 he
    refine ⟨q1, ?_⟩
    have := hid _ _ q2
    unfold elements Quantize.newT
    rw [q1]
    exact this
  have hs' : Quantizable cv nb qtype g' c'.tensors := by
    refine ⟨by rw [r1.keys]; exact Quantize.quantKv_nodup hkey _ _, by rw [r1.keys]; exact Quantize.aligned_same hs, ?_, ?_, ?_, ?_⟩
    · intro t ht
      obtain ⟨e, q1, q2, _⟩ := n3 t ht
      rw [← q2]
      exact hnl e q1
    · intro t ht
      rw [r1.dir] at ht
      obtain ⟨e, _, rfl⟩ := List.mem_map.1 ht
      rfl
    · intro t ht he
      rw [k5] at ht
      obtain ⟨p, hp, rfl⟩ := List.mem_map.1 ht
      have : p.2.1 = qtype := (hconv p hp he).1
      rcases hq with hq | hq
      · exact .inl (this.trans hq)
      · exact .inr (this.trans hq)
    · intro t ht he
      rw [k5] at ht
      obtain ⟨p, hp, rfl⟩ := List.mem_map.1 ht
      have hpc : p.1 ∈ c.tensors := by rw [← h2]; exact List.mem_map_of_mem hp
      obtain ⟨b, b1, b2, b3⟩ := hch p.1 hpc he
      have : b = p.2.2 := by
        have := ((h3 p hp).1 he).2
        rw [b1] at this
        exact Option.some.inj this
      subst this
      exact ⟨_, (hconv p hp he).2, b2, b3⟩
  obtain ⟨ps', infos', m2, m3, m4, m5, m6⟩ := Quantize.quantize_files k1 r2.gguf r2.file n1 ho' (ver := ver)
    (header := preamble) hq19 hs'
  have hsame := Quantize.written_unique (ps' := ps.map fun p => (Quantize.newT p, p.2)) (infos' := infos)
    (m2.trans (k5.trans (by simp [Function.comp_def]))) m3 ?_ m4 (by simp [h4]) m5 ?_
  · obtain ⟨rfl, rfl⟩ := hsame
    obtain ⟨o, s1, s2⟩ := m6 room
    refine ⟨o, s1, fun hlen => ?_⟩
    have hdl : g'.dir.length = g.dir.length := by
      rw [r1.dir, List.length_map, h4, ← List.length_map (f := (·.1)) (as := ps), h2, ← List.length_map (f := (·.name)),
        Quantize.tensor_names h hg hw.file hn ho, List.length_map]
    rw [r1.keys, Quantize.quantKv_again hkey, hdl] at s2
    simp only [List.map_map, Function.comp_def] at s2
    exact s2 (by rw [List.length_append] at hlen; exact hlen)
  · intro q hq'
    obtain ⟨p, hp, rfl⟩ := List.mem_map.1 hq'
    refine ⟨fun he => hconv p hp he, fun he => rfl⟩
  · intro i q hq'
    rw [List.getElem?_map, Option.map_eq_some_iff] at hq'
    obtain ⟨p, hp, rfl⟩ := hq'
    simp only [List.map_map, Function.comp_def]
    exact h5 i p hp

/-- The hypotheses of `C132_again_partial` can be met. -/
example : ∃ file, (∀ room, ∃ o : Out, bertsModelQuantize qfConv 2 preamble gmWorld (some room) 1 = .ok (true, some o) ∧
    (file.length ≤ room → o.bytes = file)) ∧
    ∀ dec dflt (w' : World Int), Disk qfNb fmOk dec dflt w' file → w'.signed = false → w'.order = id →
      ∀ room, ∃ o : Out, bertsModelQuantize qfConv 2 preamble w' (some room) 1 = .ok (true, some o) ∧
        (file.length ≤ room → o.bytes = file) := by
  obtain ⟨h1, h2, c, l, g, h3, h4, h5, h6, h7, h8, h9, h10, h11⟩ := gm_ok
  exact C132_again_partial h1 h2 h3 h4 h5 h6 h7 h8 h9 qfConv 2 1 (by decide) (.inr rfl) h10 h11 (fun _ _ _ _ => rfl)
    (fun _ b _ => rfl)

/-- C132 fails for the other types: the first run leaves a model, the second run, with the same arguments, a file that is
no model file. -/
theorem C132_counterexample : ∃ (disk : Option (List Nat) → World Int) (cv : Conv Nat) (room : List Nat → Option Nat)
    (fs fs1 fs2 : Toolchain.Files) (file : List Nat),
    Toolchain.runQuant cv 2 disk room [ascii "a", ascii "q8_0", ascii "a"] fs = .ok (0, fs1) ∧
    (∃ c l, load (disk (fs1 (ascii "a"))) = .ok (some c, l)) ∧
    Toolchain.runQuant cv 2 disk room [ascii "a", ascii "q8_0", ascii "a"] fs1 = .ok (0, fs2) ∧
    fs2 (ascii "a") = some file ∧ Unreadable file := by
  obtain ⟨room, file, file', h1, ⟨c, l, h2⟩, h3, h4⟩ := lf_lost
  refine ⟨lfDisk, qfConv, room, lfStart, _, _, file', h1, ⟨c, l, ?_⟩, h3, put_self _ _ _, h4⟩
  rw [put_self]
  exact h2

end Berts.Props
