import Verif.Proofs.Grammar
import Verif.Props.FileFormat

/-! # Property C128: which files are read, and as what -/

namespace Berts.Props

open Berts.FileFormat
open Berts.Convert (decoded)
open Berts.Quantize (Out bertsModelQuantize metaData Conv Quantizable QuantizedFrom AlignedAs Eligible FloatType elements
  nelements le)
open Berts.Load
open Berts.Vocab (ascii)

deriving instance DecidableEq for Kv, TInfo

variable {α F : Type}

/-- C128: of all files, exactly those of the grammar whose alignment is a positive number are read; metadata and
directory are those that the file begins with, and the data are expected from the first multiple of the alignment
behind them.  Undefined is the division by an alignment of 0, and nothing else. -/
theorem C128_exact (nb : Nat → List Nat → Nat) (ok : Nat → List Nat → Bool) {file : List Nat} (h : Octets file) :
    (∀ g, readGguf nb ok file = .ok (some g) ↔ ∃ a rest, FileAs nb ok file g.kv g.dir rest ∧ AlignedAs g.kv a ∧ 0 < a ∧
      g.dataOffset % a = 0 ∧ file.length - rest.length ≤ g.dataOffset ∧ g.dataOffset < file.length - rest.length + a) ∧
    (readGguf nb ok file = .ub ↔ ∃ kv dir rest, FileAs nb ok file kv dir rest ∧ AlignedAs kv 0) ∧
    readGguf nb ok file ≠ .hang :=
  read_iff nb ok h

/-- C128: a file has one reading only. -/
theorem C128_unambiguous {nb : Nat → List Nat → Nat} {ok : Nat → List Nat → Bool} {file : List Nat}
    {kv kv' : List (List Nat × Kv)} {dir dir' : List TInfo} {rest rest' : List Nat} (h : FileAs nb ok file kv dir rest)
    (h' : FileAs nb ok file kv' dir' rest') : kv = kv' ∧ dir = dir' ∧ rest = rest' := by
  have h1 := contents_of h
  rw [contents_of h'] at h1
  injection h1 with h1
  injection h1 with h1
  injection h1 with e1 e2
  injection e1 with e3 e4
  exact ⟨e3.symm, e4.symm, e2.symm⟩

/-- C128, rewriting (partial: alignment 32): what was read from any file can
be written, and then the same is read. -/
theorem C128_rewrite_partial (nb : Nat → List Nat → Nat) (ok : Nat → List Nat → Bool) {file : List Nat} (h : Octets file)
    {g : Gguf} (hg : readGguf nb ok file = .ok (some g)) (ha : AlignedAs g.kv 32)
    (data : List Nat) :
    ∃ off, readGguf nb ok (metaData 32 (preamble g.kv g.dir.length) (g.dir.map record) ++ data) =
        .ok (some ⟨g.kv, g.dir, off⟩) ∧
      off % 32 = 0 ∧ (metaData 32 (preamble g.kv g.dir.length) (g.dir.map record) ++ data).drop off = data := by
  obtain ⟨_, _, hf, _⟩ := ((read_iff nb ok h).1 g).1 hg
  have hm := file_meta hf
  obtain ⟨_, _, _, _, hd, _, _, hi, _⟩ := hf
  exact C127_read nb ok hm hd (fun t h => (hi t h).1) (fun t h => (hi t h).2) ha data

/-- C128, loading: a model is loaded only from a file of the grammar. -/
theorem C128_load {nb : Nat → List Nat → Nat} {ok : Nat → List Nat → Bool} {dec : Nat → List Nat → List α} {dflt : α}
    {w : World α} {bytes : List Nat} (hb : Octets bytes) (hw : Disk nb ok dec dflt w bytes) {c : Ctx α} {l : Ledger}
    (h : load w = .ok (some c, l)) :
    ∃ g rest, w.gguf = some g ∧ FileAs nb ok bytes g.kv g.dir rest := by
  cases hg : w.gguf with
  | none => unfold load at h; rw [hg] at h; cases h
  | some g =>
    have hr := hw.gguf
    rw [hg] at hr
    obtain ⟨_, rest, hf, _⟩ := ((read_iff nb ok hb).1 g).1 hr
    exact ⟨g, rest, rfl, hf⟩

/-- C128, quantizer on any file (partial, as C80): whatever bytes the
file holds, if it is loaded and can be quantized, then the quantizer writes a file, the same whatever the room, if
there is enough; whenever this file is read, it is loaded as the same model with converted weights, and texts are
tokenized as before.  Nothing is assumed about the sizes of numbers, keys and names in the file. -/
theorem C128_quantized_partial {nb : Nat → List Nat → Nat} {ok : Nat → List Nat → Bool} {dec : Nat → List Nat → List α}
    {dflt : α} {w : World α} {bytes : List Nat} (hb : Octets bytes) (hw : Disk nb ok dec dflt w bytes) {c : Ctx α}
    {l : Ledger} (h : load w = .ok (some c, l)) {g : Gguf} (hg : w.gguf = some g) (hn : NamesOk g)
    (ho : ∀ t ∈ g.dir, g.dataOffset + t.offset < 2 ^ 64) (hkey : (g.kv.map (·.1)).Nodup)
    (ha : AlignedAs g.kv 32) (hnl : ∀ t ∈ g.dir, 10 ∉ t.name ∧ 13 ∉ t.name) (cv : Conv F) (ver qtype : Nat)
    (hv : ver < 2 ^ 32) (hq : qtype < 19) (hfl : ∀ t ∈ c.tensors, Eligible t → FloatType t)
    (hch : ∀ t ∈ c.tensors, Eligible t → ∃ b, cv.chunk qtype (elements cv t) = some b ∧ b.length = nb qtype t.ne ∧
      b.length ≤ nelements t * 4)
    (hm : ∀ t ∈ g.dir, t.ndims = 2 → (∃ x, t.name = x ++ ascii "weight") → ok qtype t.ne = true) :
    ∃ file, (∀ room, ∃ o : Out, bertsModelQuantize cv ver preamble w (some room) qtype = .ok (true, some o) ∧
        (file.length ≤ room → o.bytes = file)) ∧
      ∀ dec dflt w', Disk nb ok dec dflt w' file → w'.signed = w.signed → w'.order = w.order →
        ∃ c' l', load w' = .ok (some c', l') ∧ QuantizedFrom cv qtype w'.conv c c' ∧
          ∀ u e setOrder text buf cap, Api.bertsTokenize (some (apiCtx u e setOrder c')) text buf cap =
            Api.bertsTokenize (some (apiCtx u e setOrder c)) text buf cap := by
  have hr := hw.gguf
  rw [hg] at hr
  obtain ⟨_, _, hf, _⟩ := ((read_iff nb ok hb).1 g).1 hr
  have hmeta := file_meta hf
  obtain ⟨_, _, _, _, _, _, _, hi, _⟩ := hf
  exact C127_quantized_partial h hg hw.file hn ho cv nb ok ver qtype hv hq
    ⟨hkey, ha, hnl, fun t h => (hi t h).2, hfl, hch⟩ hmeta (fun t h => (hi t h).1) hm

/-! Files meeting the hypotheses. -/

/-- A file with values of other types: a 64-bit number, numbers, and strings; the truth value is written as 2. -/
def gmEntries : List (List Nat) :=
  [strBytes (ascii "a") ++ (le 4 10 ++ le 8 7), strBytes (ascii "b") ++ (le 4 9 ++ (le 4 2 ++ (le 8 3 ++ [1, 0, 2, 0, 3, 0]))),
    strBytes (ascii "c") ++ (le 4 9 ++ (le 4 8 ++ (le 8 2 ++ [ascii "x", ascii "yz"].flatMap strBytes))),
    strBytes (ascii "d") ++ (le 4 7 ++ [2])]

def gmKv : List (List Nat × Kv) :=
  [(ascii "a", .other (le 4 10 ++ le 8 7)), (ascii "b", .other (le 4 9 ++ (le 4 2 ++ (le 8 3 ++ [1, 0, 2, 0, 3, 0])))),
    (ascii "c", .other (le 4 9 ++ (le 4 8 ++ (le 8 2 ++ [ascii "x", ascii "yz"].flatMap strBytes)))), (ascii "d", .bool true)]

def gmFile : List Nat :=
  ascii "GGUF" ++ (le 4 2 ++ (le 8 2 ++ (le 8 4 ++ (gmEntries.flatten ++ (fmDir.flatMap (fun t => Quantize.infoBytes (record t)) ++
    [5, 6])))))

/-- It is a file of the grammar without alignment, and is read. -/
example : Octets gmFile ∧ FileAs chNb fmOk gmFile gmKv fmDir [5, 6] ∧ AlignedAs gmKv 32 ∧
    ∃ g, readGguf chNb fmOk gmFile = .ok (some g) ∧ g.kv = gmKv ∧ g.dir = fmDir ∧ g.dataOffset = 224 := by
  have ho : Octets gmFile := by decide +kernel
  have hf : FileAs chNb fmOk gmFile gmKv fmDir [5, 6] := by
    refine ⟨2, gmEntries, by decide, by decide, by decide, by decide, ⟨?_, ?_, ?_, ?_, trivial⟩, ?_, rfl⟩
    · exact ⟨by decide +kernel, _, .other (.scalar (w := 8) (by decide) (by decide) (by decide)), rfl⟩
    · exact ⟨by decide +kernel, _, .other (.array (w := 2) (by decide) (by decide) (by decide)), rfl⟩
    · exact ⟨by decide +kernel, _, .other (.strings (ss := [ascii "x", ascii "yz"]) (by decide) (by decide +kernel)), rfl⟩
    · exact ⟨by decide +kernel, _, .yes (by decide), rfl⟩
    · intro t ht
      simp only [fmDir, List.mem_cons, List.not_mem_nil, or_false] at ht
      rcases ht with rfl | rfl
      · exact ⟨⟨by decide +kernel, by decide, by decide, by decide, by decide, rfl⟩, by decide +kernel⟩
      · exact ⟨⟨by decide +kernel, by decide, by decide, by decide, by decide, rfl⟩, by decide +kernel⟩
  have ha : AlignedAs gmKv 32 := .inr ⟨by unfold NoKey gmKv; decide +kernel, rfl⟩
  refine ⟨ho, hf, ha, ⟨gmKv, fmDir, 224⟩, ((C128_exact chNb fmOk ho).1 _).2 ⟨32, _, hf, ha, by decide, by decide, ?_, ?_⟩,
    rfl, rfl, rfl⟩
  · decide +kernel
  · decide +kernel

/-- The source of C80 as a file. -/
def gmDisk : List Nat := metaData 32 (preamble (qfGguf []).kv qfDir.length) (qfDir.map record) ++ qfBytes.drop 3

def gmWorld : World Int :=
  ⟨(match readGguf qfNb fmOk gmDisk with | .ok g => g | _ => none), fun _ => true, some gmDisk, fun _ _ => 0, decoded chDec 0,
    loadGg, false, id⟩

/-- It meets the hypotheses of `C128_load`, `C128_rewrite_partial` and `C128_quantized_partial`. -/
theorem gm_ok : Octets gmDisk ∧ Disk qfNb fmOk chDec 0 gmWorld gmDisk ∧ ∃ c l g, load gmWorld = .ok (some c, l) ∧
    gmWorld.gguf = some g ∧ NamesOk g ∧ (∀ t ∈ g.dir, g.dataOffset + t.offset < 2 ^ 64) ∧ 
    (g.kv.map (·.1)).Nodup ∧ AlignedAs g.kv 32 ∧ (∀ t ∈ g.dir, 10 ∉ t.name ∧ 13 ∉ t.name) ∧
    (∀ t ∈ c.tensors, Eligible t → FloatType t) ∧
    (∀ t ∈ c.tensors, Eligible t → ∃ b, qfConv.chunk 8 (elements qfConv t) = some b ∧ b.length = qfNb 8 t.ne ∧
      b.length ≤ nelements t * 4) := by
  have hread : ∃ g, readGguf qfNb fmOk gmDisk = .ok (some g) ∧ g.kv = (qfGguf []).kv ∧ g.dir = qfDir ∧
      g.dataOffset < 2 ^ 32 ∧ needed loadGg g.dir < 2 ^ 64 := by
    have h : (match readGguf qfNb fmOk gmDisk with
      | .ok (some g) => decide (g.kv = (qfGguf []).kv ∧ g.dir = qfDir ∧ g.dataOffset < 2 ^ 32 ∧ needed loadGg g.dir < 2 ^ 64)
      | _ => false) = true := by decide +kernel
    split at h
    · rename_i g e
      exact ⟨g, e, of_decide_eq_true h⟩
    · cases h
  obtain ⟨g, hr, hkv, hdir, hoff, hneed⟩ := hread
  have hg : gmWorld.gguf = some g := by unfold gmWorld; simp only [hr]
  have h : (match load gmWorld with | .ok (some c, _) => qfCheck c.tensors | _ => false) = true := by decide +kernel
  split at h
  · rename_i c l e
    have h1 : 0 < loadGg.align ∧ loadGg.tensorSize % loadGg.align = 0 := by decide
    have h2 : gmDisk.length < 2 ^ 63 := by decide +kernel
    refine ⟨by decide +kernel, ⟨by rw [hr, hg], rfl, rfl, fun g' h' => ?_, h1, h2⟩, c, l, g, e, hg, ?_, ?_, ?_, ?_, ?_, ?_, ?_⟩
    · rw [hg] at h'
      injection h' with h'
      subst h'
      exact ⟨rfl, hneed⟩
    · have : (qfDir.map (·.name)).Nodup ∧ ∀ t ∈ qfDir, t.name.length < 64 := by decide +kernel
      rw [← hdir] at this
      exact this
    · have : ∀ t ∈ qfDir, t.offset < 2 ^ 32 := by decide +kernel
      rw [hdir]
      intro t ht
      have := this t ht
      omega
    · rw [hkv]; decide +kernel
    · rw [hkv]
      refine .inr ⟨?_, rfl⟩
      have : ∀ k ∈ (qfGguf []).kv.map (·.1), k ≠ ascii "general.alignment" := by decide +kernel
      exact fun p hp => this _ (List.mem_map_of_mem hp)
    · rw [hdir]; decide +kernel
    · intro t ht he
      have := List.all_eq_true.1 h t ht
      simp [he.1] at this
      exact .inl this.1.1
    · intro t ht he
      have := List.all_eq_true.1 h t ht
      simp [he.1] at this
      refine ⟨_, rfl, ?_⟩
      simp only [elements, this.1.1, if_true]
      exact ⟨this.1.2, this.2⟩
  · cases h

end Berts.Props
