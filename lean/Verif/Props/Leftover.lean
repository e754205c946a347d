import Verif.Proofs.Leftover
import Verif.Props.Toolchain
import Verif.Props.Grammar

/-! # Property C131: what the quantizer leaves behind -/

namespace Berts.Props

open Berts.FileFormat
open Berts.Quantize (Out bertsModelQuantize metaData Conv Quantizable QuantizedFrom AlignedAs Eligible FloatType elements
  nelements SrcOk NoNl ChunkOk Converted)
open Berts.Load
open Berts.Convert (decoded)
open Berts.Vocab (ascii)
open Berts.Toolchain
open Berts.Examples.Spec (TypeName CaseVariant Number)

variable {α F : Type}

theorem preamble_ne (kv : List (List Nat × Kv)) (n : Nat) : preamble kv n ≠ [] := by
  intro h
  have := congrArg List.length h
  have h4 : (ascii "GGUF").length = 4 := by decide +kernel
  simp only [preamble, List.length_append, h4, List.length_nil] at this
  omega

theorem put_self (fs : Files) (p f : List Nat) : put fs p f p = some f := if_pos rfl

/-- The file system after the quantizer, for any result of quantizing. -/
theorem run_quant_any {cv : Conv F} {ver : Nat} {disk : Option (List Nat) → World α} {room : List Nat → Option Nat}
    {input type out : List Nat} {fs : Files} {qtype : Nat}
    (hty : ∃ name, TypeName qtype name ∧ (CaseVariant type name ∨ Number type qtype)) {b : Bool} {o : Out}
    (h : bertsModelQuantize cv ver preamble (disk (fs input)) (room out) qtype = .ok (b, some o)) :
    runQuant cv ver disk room [input, type, out] fs = .ok (0, put fs out o.bytes) := by
  have hp := (C58_accept_iff type qtype).2 hty
  have hne : type.length ≠ 0 := by
    intro h0
    rw [List.length_eq_zero_iff.1 h0] at hp
    rw [(C58_ub_iff []).2 (.inr (.inl rfl))] at hp
    cases hp
  unfold runQuant Quantize.quantProgram
  simp only [if_neg hne, hp, Eval.res_ok, h]

/-- C131 (partial: the claim is that the output is complete or as before, see the counterexamples): when the quantizer
has ended, no file has changed; or the status is 0 and the file at the output path alone was replaced, by the file
that is also written with any more room, or by one that is no model file. -/
theorem C131_outcomes_partial (cv : Conv F) (ver : Nat) (disk : Option (List Nat) → World α) (room : List Nat → Option Nat)
    {args : List (List Nat)} {fs fs' : Files} {status : Nat}
    (h : runQuant cv ver disk room args fs = .ok (status, fs')) :
    fs' = fs ∨ ∃ input type out qtype n file, args = [input, type, out] ∧ status = 0 ∧ room out = some n ∧
      (∃ name, TypeName qtype name ∧ (CaseVariant type name ∨ Number type qtype)) ∧
      fs' = put fs out file ∧ file.length ≤ n ∧
      ((∀ n', n ≤ n' → ∃ o, bertsModelQuantize cv ver preamble (disk (fs input)) (some n') qtype = .ok (true, some o) ∧
        o.bytes = file) ∨ Unreadable file) := by
  unfold runQuant at h
  cases hq : Quantize.quantProgram cv ver preamble (fun p => disk (fs p)) room args with
  | ok r =>
    rw [hq] at h
    simp only [Res.bind] at h
    injection h with h
    injection h with h1 h2
    cases ho : r.2 with
    | none => rw [ho] at h2; exact .inl h2.symm
    | some o =>
      rw [ho] at h2
      unfold Quantize.quantProgram at hq
      split at hq
      · rename_i input type out
        simp only at h2
        split at hq
        · injection hq with hq; rw [← hq] at ho; cases ho
        · cases hp : Examples.parseFtype type with
          | ok f =>
            rw [hp] at hq
            simp only [Res.bind] at hq
            cases f with
            | none => simp only at hq; injection hq with hq; rw [← hq] at ho; cases ho
            | some t =>
              simp only at hq
              cases hb : bertsModelQuantize cv ver preamble (disk (fs input)) (room out) t with
              | ok x =>
                rw [hb] at hq
                simp only at hq
                injection hq with hq
                rw [← hq] at ho h1
                simp only at ho h1
                obtain ⟨b, y⟩ := x
                simp only at ho
                subst ho
                cases hr : room out with
                | none =>
                  rw [hr] at hb
                  exfalso
                  unfold bertsModelQuantize Quantize.modelQuantize at hb
                  cases hf : ftype t <;> rw [hf] at hb <;> simp only [Res.bind] at hb <;> try cases hb
                  cases hl : load (disk (fs input)) <;> rw [hl] at hb <;> simp only at hb <;> try cases hb
                  split at hb
                  · cases hb
                  · cases hb
                | some n =>
                  rw [hr] at hb
                  obtain ⟨k1, k2⟩ := Quantize.quantize_left cv ver preamble_ne (disk (fs input)) t hb
                  refine .inr ⟨input, type, out, t, n, o.bytes, rfl, h1.symm, hr, (C58_accept_iff type t).1 hp, h2.symm, k1, ?_⟩
                  rcases k2 with ⟨rfl, k2⟩ | k2
                  · exact .inl fun n' hn => Quantize.quantize_roomier cv ver preamble _ hn t hb k2
                  · exact .inr (unreadable_of_head k2)
              | ub => rw [hb] at hq; cases hq
              | abort => rw [hb] at hq; cases hq
              | hang => rw [hb] at hq; cases hq
          | ub => rw [hp] at hq; cases hq
          | abort => rw [hp] at hq; cases hq
          | hang => rw [hp] at hq; cases hq
      · injection hq with hq; rw [← hq] at ho; cases ho
  | ub => rw [hq] at h; cases h
  | abort => rw [hq] at h; cases h
  | hang => rw [hq] at h; cases h

/-- C131 fails for every model with a matrix in another type than F16 and F32: the file at the output path, also if it is
the model itself, is replaced by one that is no model file; the status is 0. -/
theorem C131_failed_counterexample (cv : Conv F) (ver : Nat) (disk : Option (List Nat) → World α) (room : List Nat → Option Nat)
    {input type out : List Nat} {fs : Files} {c : Ctx α} {l : Ledger} {g : Gguf}
    (h : load (disk (fs input)) = .ok (some c, l)) (hg : (disk (fs input)).gguf = some g)
    (hs : SrcOk (g.dir.map (·.name)) c.tensors) (hnl : ∀ t ∈ c.tensors, NoNl t) {qtype : Nat}
    (hty : ∃ name, TypeName qtype name ∧ (CaseVariant type name ∨ Number type qtype)) (hq : qtype < 19)
    (hc : ChunkOk cv qtype c.tensors) (ht : ∀ t ∈ c.tensors, Eligible t → t.type < 19)
    (hf : ∃ t ∈ c.tensors, Eligible t ∧ ¬ FloatType t) {n : Nat} (hr : room out = some n) :
    ∃ file, runQuant cv ver disk room [input, type, out] fs = .ok (0, put fs out file) ∧ Unreadable file := by
  obtain ⟨o, h1⟩ := Quantize.modelQuantize_fail cv 32 qtype _ c.tensors n (preamble (Quantize.quantKv ver qtype g.kv) g.dir.length)
    hq hs hnl hc ht hf
  have hb : bertsModelQuantize cv ver preamble (disk (fs input)) (room out) qtype = .ok (false, some o) := by
    unfold bertsModelQuantize
    have hf' : ftype qtype = .ok () := by unfold ftype; rw [if_pos hq]
    rw [hf', h, hr]
    simp only [Res.bind, hg]
    exact h1
  refine ⟨o.bytes, run_quant_any hty hb, ?_⟩
  rw [hr] at hb
  rcases (Quantize.quantize_left cv ver preamble_ne (disk (fs input)) qtype hb).2 with ⟨h, _⟩ | h
  · cases h
  · exact unreadable_of_head h

/-- C131, room: a model that can be quantized is replaced by its quantized file if that fits, and by a file that is no
model file if not; the status is 0 in both cases. -/
theorem C131_room (cv : Conv F) (ver : Nat) (disk : Option (List Nat) → World α) {input type : List Nat} {fs : Files}
    {qtype : Nat} (hty : ∃ name, TypeName qtype name ∧ (CaseVariant type name ∨ Number type qtype)) {file : List Nat}
    (h : ∀ n, ∃ o, bertsModelQuantize cv ver preamble (disk (fs input)) (some n) qtype = .ok (true, some o) ∧
      (file.length ≤ n → o.bytes = file)) (room : List Nat → Option Nat) (out : List Nat) {n : Nat} (hr : room out = some n) :
    (file.length ≤ n → runQuant cv ver disk room [input, type, out] fs = .ok (0, put fs out file)) ∧
    (n < file.length → ∃ file', runQuant cv ver disk room [input, type, out] fs = .ok (0, put fs out file') ∧
      Unreadable file') := by
  obtain ⟨o, h1, h2⟩ := h n
  have hb : bertsModelQuantize cv ver preamble (disk (fs input)) (room out) qtype = .ok (true, some o) := by rw [hr]; exact h1
  refine ⟨fun hn => h2 hn ▸ run_quant_any hty hb, fun hn => ⟨o.bytes, run_quant_any hty hb, ?_⟩⟩
  obtain ⟨k1, k2⟩ := Quantize.quantize_left cv ver preamble_ne (disk (fs input)) qtype h1
  rcases k2 with ⟨_, k2⟩ | k2
  · obtain ⟨o', r1, r2⟩ := Quantize.quantize_roomier cv ver preamble _ (Nat.le_of_lt hn) qtype h1 k2
    obtain ⟨o'', s1, s2⟩ := h file.length
    rw [r1] at s1
    injection s1 with s1
    injection s1 with _ s1
    injection s1 with s1
    rw [s1, s2 (Nat.le_refl _)] at r2
    rw [← r2] at k1
    omega
  · exact unreadable_of_head k2

/-- C131, in place: quantizing a model to a type other than F16 and F32 succeeds once; a second quantization of the new
file, to whatever type and path, leaves a file there that is no model file, so a model quantized in place twice is
lost.  Both runs end with status 0.  (Hypotheses on the file as for `C128_quantized_partial`.) -/
theorem C131_twice_counterexample {nb : Nat → List Nat → Nat} {ok : Nat → List Nat → Bool} {dec : Nat → List Nat → List α} {dflt : α}
    (disk : Option (List Nat) → World α) {input : List Nat} {fs : Files} {bytes : List Nat} (hfs : fs input = some bytes)
    (hb : Octets bytes) (hw : Disk nb ok dec dflt (disk (some bytes)) bytes) {c : Ctx α}
    {l : Ledger} (h : load (disk (some bytes)) = .ok (some c, l)) {g : Gguf} (hg : (disk (some bytes)).gguf = some g)
    (hn : NamesOk g) (ho : ∀ t ∈ g.dir, g.dataOffset + t.offset < 2 ^ 64) (hkey : (g.kv.map (·.1)).Nodup)
    (ha : AlignedAs g.kv 32) (hnl : ∀ t ∈ g.dir, 10 ∉ t.name ∧ 13 ∉ t.name) (cv : Conv F) (ver qtype : Nat)
    (hv : ver < 2 ^ 32) (hq : 2 ≤ qtype ∧ qtype < 19) (hfl : ∀ t ∈ c.tensors, Eligible t → FloatType t)
    (hch : ∀ t ∈ c.tensors, Eligible t → ∃ b, cv.chunk qtype (elements cv t) = some b ∧ b.length = nb qtype t.ne ∧
      b.length ≤ nelements t * 4)
    (hm : ∀ t ∈ g.dir, t.ndims = 2 → (∃ x, t.name = x ++ ascii "weight") → ok qtype t.ne = true)
    (hex : ∃ t ∈ c.tensors, Eligible t) {type : List Nat}
    (hty : ∃ name, TypeName qtype name ∧ (CaseVariant type name ∨ Number type qtype)) :
    ∃ file, ∀ (room : List Nat → Option Nat) out n, room out = some n → file.length ≤ n →
      runQuant cv ver disk room [input, type, out] fs = .ok (0, put fs out file) ∧
      (Disk nb ok dec dflt (disk (some file)) file → (disk (some file)).signed = (disk (some bytes)).signed →
        (disk (some file)).order = (disk (some bytes)).order →
        (∃ c' l', load (disk (some file)) = .ok (some c', l') ∧ QuantizedFrom cv qtype (disk (some file)).conv c c') ∧
        ∀ (room' : List Nat → Option Nat) out' n', room' out' = some n' → ∀ qtype' type', qtype' < 19 →
          (∃ name, TypeName qtype' name ∧ (CaseVariant type' name ∨ Number type' qtype')) →
          ∃ file', runQuant cv ver disk room' [out, type', out'] (put fs out file) =
              .ok (0, put (put fs out file) out' file') ∧ Unreadable file') := by
  have hr := hw.gguf
  rw [hg] at hr
  obtain ⟨_, _, hf, _⟩ := ((read_iff nb ok hb).1 g).1 hr
  have hk := file_meta hf
  obtain ⟨_, _, _, _, _, _, _, hi, _⟩ := hf
  have hs : Quantizable cv nb qtype g c.tensors := ⟨hkey, ha, hnl, fun t h => (hi t h).2, hfl, hch⟩
  obtain ⟨ps, infos, h2, h3, h4, h5, h6⟩ := Quantize.quantize_files h hg hw.file hn ho (ver := ver) (header := preamble)
    hq.2 hs
  refine ⟨metaData 32 (preamble (Quantize.quantKv ver qtype g.kv) g.dir.length) infos ++ Quantize.body 32 (ps.map (·.2.2)),
    fun room out n hroom hlen => ⟨?_, fun hw' e1 e2 => ?_⟩⟩
  · refine (C131_room cv ver disk hty (fun n => ?_) room out hroom).1 hlen
    obtain ⟨o, k1, k2⟩ := h6 n
    exact ⟨o, by rw [hfs]; exact k1, fun hr => k2 (by rw [List.length_append] at hr; exact hr)⟩
  · obtain ⟨g', r1, r2⟩ := quantized_read hk (fun t h => (hi t h).1) hv hq.2 hm hs
      (Convert.quantize_described h hg hw.file hn ho h2 h3 h4 h5) (written_sum h4 h5).symm hw' e1 e2
    obtain ⟨n1, n2, _, c', l', k1, k2, k3, k4, k5, k6⟩ :=
      Quantize.quantized_load h hg hw.file hn ho hq.2 hs h2 h3 h4 h5 rfl r1 r2
    have hqf := quantizedFrom h2 h3 k2 k3 k4 k5 k6
    refine ⟨⟨c', l', k1, hqf⟩, fun room' out' n' hroom' qtype' type' hq' hty' => ?_⟩
    have hput : put fs out (metaData 32 (preamble (Quantize.quantKv ver qtype g.kv) g.dir.length) infos ++
        Quantize.body 32 (ps.map (·.2.2))) out = some _ := if_pos rfl
    have hnames := Quantize.tensor_names k1 r2.gguf r2.file n1
      (fun t ht => Nat.lt_trans (n2 t ht) (by decide))
    have hback : ∀ t' ∈ c'.tensors, ∃ t ∈ c.tensors, t'.name = t.name ∧ t'.ndims = t.ndims ∧
        (Eligible t → t'.type = qtype) := by
      intro t' ht'
      obtain ⟨i, hi'⟩ := List.getElem?_of_mem ht'
      have hlt : i < c.tensors.length := by
        have := (List.getElem?_eq_some_iff.1 hi').1
        rw [hqf.length] at this
        exact this
      obtain ⟨p, p1, p2⟩ := hqf.tensors i _ (List.getElem?_eq_getElem hlt)
      rw [hi'] at p2
      injection p2 with p2
      subst p2
      exact ⟨_, List.getElem_mem hlt, rfl, rfl, fun he => (p1.1 he).1⟩
    have hel : ∀ t' ∈ c'.tensors, Eligible t' → t'.type = qtype := by
      intro t' ht' he
      obtain ⟨t, _, q2, q3, q4⟩ := hback t' ht'
      exact q4 ⟨q3 ▸ he.1, q2 ▸ he.2⟩
    have hnf : ∀ t' ∈ c'.tensors, Eligible t' → ¬ FloatType t' := by
      intro t' ht' he hfl
      have := hel t' ht' he
      unfold FloatType at hfl
      omega
    refine C131_failed_counterexample cv ver disk room' (by rw [hput]; exact k1) (by rw [hput]; exact r2.gguf) ⟨n1.1, hnames⟩ ?_ hty' hq'
      (fun t ht he hf => absurd hf (hnf t ht he)) (fun t ht he => by rw [hel t ht he]; exact hq.2) ?_ hroom'
    · intro t' ht'
      obtain ⟨t, q1, q2, _⟩ := hback t' ht'
      have hmem : t.name ∈ g.dir.map (·.name) := by
        rw [← Quantize.tensor_names h hg hw.file hn ho]
        exact List.mem_map_of_mem q1
      obtain ⟨e, e1, e2⟩ := List.mem_map.1 hmem
      unfold NoNl
      rw [q2, ← e2]
      exact hnl e e1
    · obtain ⟨t, ht, he⟩ := hex
      obtain ⟨i, hi'⟩ := List.getElem?_of_mem ht
      obtain ⟨p, p1, p2⟩ := hqf.tensors i t hi'
      have hmem := List.mem_of_getElem? p2
      exact ⟨_, hmem, he, hnf _ hmem he⟩

/-- C131, afterwards: from a file that is no model file no model is loaded, fill_mask prints nothing and ends with status
1, and the quantizer changes no file. -/
theorem C131_lost {nb : Nat → List Nat → Nat} {ok : Nat → List Nat → Bool} {dec : Nat → List Nat → List α} {dflt : α}
    {disk : Option (List Nat) → World α} {file : List Nat} (hu : Unreadable file)
    (hw : Disk nb ok dec dflt (disk (some file)) file) {fs : Files} {path : List Nat} (hfs : fs path = some file) :
    (∃ l, load (disk (fs path)) = .ok (none, l)) ∧
    (∀ (cv : Conv F) ver room type out status fs',
      runQuant cv ver disk room [path, type, out] fs = .ok (status, fs') → fs' = fs) ∧
    (∀ A gg u e setOrder junkI junk k prompt status rs, Examples.fillMaskMain A gg u e setOrder (fun p => disk (fs p)) dflt
      junkI junk [path, k, prompt] = .ok (status, rs) → status = 1 ∧ rs = []) := by
  have hg : (disk (some file)).gguf = none := by
    have := hw.gguf
    rw [hu nb ok] at this
    exact (Res.ok.inj this).symm
  have hl : ∃ l, load (disk (fs path)) = .ok (none, l) := by
    rw [hfs]
    unfold load
    rw [hg]
    exact ⟨_, rfl⟩
  refine ⟨hl, ?_, ?_⟩
  · intro cv ver room type out status fs' h
    obtain ⟨l, hl⟩ := hl
    unfold runQuant Quantize.quantProgram at h
    simp only at h
    split at h
    · simp only [Res.bind] at h
      injection h with h; injection h with _ h; exact h.symm
    · cases hp : Examples.parseFtype type with
      | ok f =>
        rw [hp] at h
        cases f with
        | none => simp only [Res.bind] at h; injection h with h; injection h with _ h; exact h.symm
        | some t =>
          simp only [Res.bind, bertsModelQuantize] at h
          cases hf : ftype t with
          | ok _ =>
            rw [hf] at h
            simp only [hl] at h
            injection h with h; injection h with _ h; exact h.symm
          | ub => rw [hf] at h; cases h
          | abort => rw [hf] at h; cases h
          | hang => rw [hf] at h; cases h
      | ub => rw [hp] at h; cases h
      | abort => rw [hp] at h; cases h
      | hang => rw [hp] at h; cases h
  · intro A gg u e setOrder junkI junk k prompt status rs h
    obtain ⟨l, hl⟩ := hl
    unfold Examples.fillMaskMain at h
    simp only at h
    cases hp : Examples.parseK k with
    | ok k' =>
      rw [hp] at h
      cases k' with
      | none => simp only [Res.bind] at h; injection h with h; injection h with h1 h2; exact ⟨h1.symm, h2.symm⟩
      | some k' =>
        simp only [Res.bind, hl] at h
        injection h with h; injection h with h1 h2; exact ⟨h1.symm, h2.symm⟩
    | ub => rw [hp] at h; cases h
    | abort => rw [hp] at h; cases h
    | hang => rw [hp] at h; cases h

/-! ### A small model quantized in place twice -/

/-- A disk that finds what is in a file. -/
def lfDisk (f : Option (List Nat)) : World Int :=
  ⟨(match f with | some b => (match readGguf qfNb fmOk b with | .ok g => g | _ => none) | none => none), fun _ => true, f,
    fun _ _ => 0, decoded chDec 0, loadGg, false, id⟩

/-- The hypotheses of `C131_lost` can be met. -/
example : Unreadable [0] ∧ Disk qfNb fmOk chDec 0 (lfDisk (some [0])) [0] := by
  have hu : Unreadable [0] := unreadable_of_head (by simp)
  have hg : (lfDisk (some [0])).gguf = none := by unfold lfDisk; simp only [hu qfNb fmOk]
  have hal : 0 < loadGg.align ∧ loadGg.tensorSize % loadGg.align = 0 := by decide
  exact ⟨hu, by rw [hg]; exact hu _ _, rfl, rfl, fun g h => (by rw [hg] at h; cases h), hal, by decide⟩

def lfStart : Files := put (fun _ => none) (ascii "a") gmDisk

theorem lf_first : (match bertsModelQuantize qfConv 2 preamble (lfDisk (some gmDisk)) (some 5000) 8 with
    | .ok (true, some o) => !o.fail && (match readGguf qfNb fmOk o.bytes with
      | .ok (some g) => decide (needed loadGg g.dir < 2 ^ 64 ∧ o.bytes.length < 2 ^ 63)
      | _ => false)
    | _ => false) = true := by decide +kernel

theorem lf_matrix : (match load gmWorld with
    | .ok (some c, _) => c.tensors.any fun t => t.ndims == 2 && (ascii "weight").isSuffixOf t.name
    | _ => false) = true := by decide +kernel

/-- The hypotheses of `C131_twice_counterexample`, `C131_room` and `C131_failed_counterexample` can be met: the model is
quantized and lost. -/
theorem lf_lost : ∃ (room : List Nat → Option Nat) (file file' : List Nat),
    runQuant qfConv 2 lfDisk room [ascii "a", ascii "q8_0", ascii "a"] lfStart = .ok (0, put lfStart (ascii "a") file) ∧
    (∃ c l, load (lfDisk (some file)) = .ok (some c, l)) ∧
    runQuant qfConv 2 lfDisk room [ascii "a", ascii "q8_0", ascii "a"] (put lfStart (ascii "a") file) =
      .ok (0, put (put lfStart (ascii "a") file) (ascii "a") file') ∧ Unreadable file' := by
  obtain ⟨h1, h2, c, l, g, h3, h4, h5, h6, h7, h8, h9, h10, h11⟩ := gm_ok
  have hex : ∃ t ∈ c.tensors, Eligible t := by
    have h := lf_matrix
    rw [h3] at h
    obtain ⟨t, t1, t2⟩ := List.any_eq_true.1 h
    simp only [Bool.and_eq_true, beq_iff_eq, List.isSuffixOf_iff_suffix] at t2
    obtain ⟨t2, x, t3⟩ := t2
    exact ⟨t, t1, t2, x, t3.symm⟩
  have hst : lfStart (ascii "a") = some gmDisk := by unfold lfStart put; exact if_pos rfl
  have heq : gmWorld = lfDisk (some gmDisk) := by
    unfold lfDisk gmWorld
    simp only
    generalize readGguf qfNb fmOk gmDisk = r
    cases r <;> rfl
  rw [heq] at h2 h3 h4
  obtain ⟨file, hf⟩ := C131_twice_counterexample (nb := qfNb) (ok := fmOk) (dec := chDec) (dflt := 0) lfDisk (input := ascii "a")
    (fs := lfStart) hst h1 h2 h3 h4 h5 h6 h7 h8 h9 qfConv 2 8 (by decide) (by decide) h10 h11 (fun _ _ _ _ => rfl) hex tc_type
  obtain ⟨r1, r2⟩ := hf (fun _ => some (file.length + 5000)) (ascii "a") _ rfl (by omega)
  have hfirst := lf_first
  have hal : 0 < loadGg.align ∧ loadGg.tensorSize % loadGg.align = 0 := by decide
  split at hfirst
  · rename_i o e
    simp only [Bool.and_eq_true, Bool.not_eq_true'] at hfirst
    obtain ⟨f1, f2⟩ := hfirst
    obtain ⟨o', e', e2⟩ := Quantize.quantize_roomier qfConv 2 preamble _ (by omega : 5000 ≤ file.length + 5000) 8 e f1
    have r3 := run_quant_any (ver := 2) (cv := qfConv) (disk := lfDisk) (fs := lfStart) (input := ascii "a") (out := ascii "a")
      (room := fun _ => some (file.length + 5000)) tc_type (by rw [hst]; exact e')
    have hfile : file = o.bytes := by
      have := congrFun (Prod.mk.inj (Res.ok.inj (r1.symm.trans r3))).2 (ascii "a")
      rw [put_self, put_self] at this
      rw [Option.some.inj this, e2]
    have hd : Disk qfNb fmOk chDec 0 (lfDisk (some file)) file := by
      rw [hfile]
      split at f2
      · rename_i g' hg'
        simp only [decide_eq_true_eq] at f2
        have hgg : (lfDisk (some o.bytes)).gguf = some g' := by unfold lfDisk; simp only [hg']
        refine ⟨by rw [hgg]; exact hg', rfl, rfl, fun g'' hg'' => ?_, hal, f2.2⟩
        rw [hgg] at hg''
        injection hg'' with hg''
        subst hg''
        exact ⟨rfl, f2.1⟩
      · cases f2
    obtain ⟨⟨c', l', k1, _⟩, k2⟩ := r2 hd rfl rfl
    obtain ⟨file', k3, k4⟩ := k2 (fun _ => some (file.length + 5000)) (ascii "a") _ rfl 8 (ascii "q8_0") (by decide) tc_type
    exact ⟨_, file, file', r1, ⟨c', l', k1⟩, k3, k4⟩
  · cases hfirst

end Berts.Props
