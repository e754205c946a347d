import Verif.Proofs.QuantizeFile
import Verif.Props.Pipeline
import Verif.Props.Examples

/-! # Property C80: a quantized file is loaded as its source with converted weights -/

namespace Berts.Props

open Berts.Quantize
open Berts.Load
open Berts.Vocab (ascii decimal)
open Berts.Graph (T Gg)
open Berts.Eval (EModel ECtx Accepted expected layersOf bertsEval)
open Berts.Spec (Arith)

variable {α F : Type}

theorem written_room {ps : List (LT × Nat × List Nat)} {infos : List Info} {m room : Nat} (h4 : infos.length = ps.length)
    (h5 : ∀ (i : Nat) p, ps[i]? = some p → infos[i]? = some ⟨p.1.name, p.1.ndims, p.1.ne, p.2.1, p.2.2.length,
        offsetOf 32 (ps.map (·.2.2)) i⟩) (hroom : m + (infos.map fun e => up 32 e.size).sum ≤ room) :
    m + (body 32 (ps.map (·.2.2))).length ≤ room := by
  rw [body_length 32 (by omega)]
  have : (infos.map fun e => up 32 e.size) = (ps.map (·.2.2)).map fun d => Graph.pad d.length 32 := by
    apply List.ext_getElem?
    intro i
    rw [List.getElem?_map, List.getElem?_map, List.getElem?_map]
    cases hpi : ps[i]? with
    | none =>
      have : ps.length ≤ i := by simpa using hpi
      rw [List.getElem?_eq_none (by omega)]
      rfl
    | some p => rw [h5 i p hpi]; rfl
  rw [this] at hroom
  exact hroom

theorem quantizedFrom {cv : Conv F} {qtype : Nat} {conv : LT → T α} {c c' : Ctx α} {ps : List (LT × Nat × List Nat)}
    (h2 : ps.map (·.1) = c.tensors) (h3 : ∀ p ∈ ps, Converted cv qtype p.1 p.2) (k2 : c'.hp = c.hp)
    (k3 : c'.type = qtype) (k4 : c'.vocab = c.vocab) (k5 : c'.tensors = ps.map newT)
    (k6 : Load.Named (fun k => (getTensor c'.tensors k).map conv) c.hp.hp.nLayers c'.weights) :
    QuantizedFrom cv qtype conv c c' := by
  refine ⟨k2, k3, k4, by rw [k5, ← h2]; simp, ?_, k6⟩
  intro i t ht
  rw [← h2, List.getElem?_map, Option.map_eq_some_iff] at ht
  obtain ⟨p, hp, rfl⟩ := ht
  refine ⟨p.2, h3 p (List.mem_of_getElem? hp), ?_⟩
  rw [k5, List.getElem?_map, hp]
  rfl

/-- C80 (partial: sources with alignment 32, see `C80_alignment_counterexample`, whose metadata keys are distinct): a
model that can be loaded is quantized, and the file written is loaded again as the same model with converted
weights; texts are tokenized as before. -/
theorem C80_load_partial {w : World α} {c : Ctx α} {l : Ledger} {g : Gguf} {bytes : List Nat}
    (h : load w = .ok (some c, l)) (hg : w.gguf = some g) (hf : w.file = some bytes) (hn : NamesOk g)
    (ho : ∀ t ∈ g.dir, g.dataOffset + t.offset < 2 ^ 64) (cv : Conv F) (nb : Nat → List Nat → Nat) (ver qtype : Nat)
    (header : List (List Nat × Kv) → Nat → List Nat) (hq : qtype < 19) (hs : Quantizable cv nb qtype g c.tensors) :
    ∃ infos : List Info, ∀ room, ∃ o : Out, bertsModelQuantize cv ver header w (some room) qtype = .ok (true, some o) ∧
      let kv := quantKv ver qtype g.kv
      let pre := header kv g.dir.length
      ((metaData 32 pre infos).length + (infos.map fun e => up 32 e.size).sum ≤ room →
        metaData 32 pre infos <+: o.bytes ∧
        ∀ g' w', ReadBack nb kv pre infos g' → Reopens w w' g' o.bytes →
          ∃ c' l', load w' = .ok (some c', l') ∧ QuantizedFrom cv qtype w'.conv c c' ∧
            ∀ u e setOrder text buf cap, Api.bertsTokenize (some (apiCtx u e setOrder c')) text buf cap =
              Api.bertsTokenize (some (apiCtx u e setOrder c)) text buf cap) := by
  obtain ⟨ps, infos, h2, h3, h4, h5, h6⟩ := quantize_files h hg hf hn ho (ver := ver) (header := header) hq hs
  refine ⟨infos, fun room => ?_⟩
  obtain ⟨o, h1, h6⟩ := h6 room
  refine ⟨o, h1, ?_⟩
  intro kv pre hroom
  have hb := h6 (written_room h4 h5 hroom)
  refine ⟨by rw [hb]; exact List.prefix_append _ _, ?_⟩
  intro g' w' hr hw
  obtain ⟨_, _, _, c', l', k1, k2, k3, k4, k5, k6⟩ := quantized_load h hg hf hn ho hq hs h2 h3 h4 h5 hb hr hw
  refine ⟨c', l', k1, quantizedFrom h2 h3 k2 k3 k4 k5 k6, ?_⟩
  intro u e setOrder text buf cap
  unfold apiCtx
  rw [k4, k2]

/-- C80 (partial, as above, and for consistent files whose layer normalisation weights are vectors): the quantized
model evaluates the same inputs as the source, and gives the reference value for the converted weights. -/
theorem C80_eval_partial {w : World α} {c : Ctx α} {l : Ledger} {g : Gguf} {bytes : List Nat}
    (h : load w = .ok (some c, l)) (hg : w.gguf = some g) (hf : w.file = some bytes) (hn : NamesOk g)
    (ho : ∀ t ∈ g.dir, g.dataOffset + t.offset < 2 ^ 64) (cv : Conv F) (nb : Nat → List Nat → Nat) (ver qtype : Nat)
    (header : List (List Nat × Kv) → Nat → List Nat) (hq : qtype < 19) (hs : Quantizable cv nb qtype g c.tensors)
    (V P S : Nat) (hcons : Consistent g V P S) (hV : V ≤ 2 ^ 31) (hP : P < 2 ^ 31) (hS : S ≤ 2 ^ 31)
    (hln : ∀ t ∈ g.dir, (∃ x, t.name = x ++ ascii "LayerNorm.weight") → t.ndims ≠ 2) :
    ∃ infos : List Info, ∀ room, ∃ o : Out, bertsModelQuantize cv ver header w (some room) qtype = .ok (true, some o) ∧
      let kv := quantKv ver qtype g.kv
      let pre := header kv g.dir.length
      ((metaData 32 pre infos).length + (infos.map fun e => up 32 e.size).sum ≤ room →
        ∀ g' w', ReadBack nb kv pre infos g' → Reopens w w' g' o.bytes → ConvOk w'.conv →
          ∃ c' l', load w' = .ok (some c', l') ∧ QuantizedFrom cv qtype w'.conv c c' ∧
            ∀ (tokens : List Nat) (segs : Option (List Nat)) (poolType : Nat),
              Accepted (emodel c) tokens (segs.getD (tokens.map fun _ => 0)) poolType → 0 < tokens.length →
              (∀ t ∈ tokens, t < V) →
              (if c.hp.arch = 0 then c.hp.hp.maxTokens ≤ P else c.vocab.padId + tokens.length < P) →
              ∀ L : Int, -(c.hp.hp.nLayers : Int) ≤ L → L ≤ c.hp.hp.nLayers → ∀ (A : Arith α) (gg : Gg) (buf : List α),
                buf.length = c.hp.hp.hidden * (if poolType = 0 then tokens.length else 1) →
                bertsEval A gg (some ⟨some (emodel c')⟩) tokens segs (some (L, poolType)) (some buf) (some buf.length) =
                  .ok (true, some (expected A (emodel c') (layersOf c.hp.hp.nLayers L) poolType tokens
                    (segs.getD (tokens.map fun _ => 0))), some buf.length)) := by
  obtain ⟨ps, infos, h2, h3, h4, h5, h6⟩ := quantize_files h hg hf hn ho (ver := ver) (header := header) hq hs
  refine ⟨infos, fun room => ?_⟩
  obtain ⟨o, h1, h6⟩ := h6 room
  refine ⟨o, h1, ?_⟩
  intro kv pre hroom
  have hb := h6 (written_room h4 h5 hroom)
  intro g' w' hr hw hc
  obtain ⟨m1, m2, m3, c', l', k1, k2, k3, k4, k5, k6⟩ := quantized_load h hg hf hn ho hq hs h2 h3 h4 h5 hb hr hw
  refine ⟨c', l', k1, quantizedFrom h2 h3 k2 k3 k4 k5 k6, ?_⟩
  intro tokens segs poolType ha h0 htok hpos L hL1 hL2 A gg buf hbuf
  rw [← k2] at hpos hL1 hL2 hbuf
  rw [← k4] at hpos
  have := C73_consistent_partial k1 hw.gguf hw.file m1 (fun t ht => by have := m2 t ht; omega) hc V P S
    (consistent_same m3 hln hs.keys hr.keys hcons) hV hP hS tokens segs poolType
    ⟨by have := ha.count; simpa only [emodel, k2] using this, ha.len, by
      have := ha.segs; simpa only [emodel, k2] using this, ha.pool⟩ h0 htok hpos L hL1 hL2 A gg buf hbuf
  rw [this, k2]

/-- C80 for the program (partial, as above): called with a model that can be loaded and the name of a type in any
letter case, or its number, it leaves a file that is loaded as this model with converted weights. -/
theorem C80_program_partial {world : List Nat → World α} {model : List Nat} {c : Ctx α} {l : Ledger} {g : Gguf}
    {bytes : List Nat} (h : load (world model) = .ok (some c, l)) (hg : (world model).gguf = some g)
    (hf : (world model).file = some bytes) (hn : NamesOk g) (ho : ∀ t ∈ g.dir, g.dataOffset + t.offset < 2 ^ 64)
    (cv : Conv F) (nb : Nat → List Nat → Nat) (ver : Nat) (header : List (List Nat × Kv) → Nat → List Nat)
    (qtype : Nat) (name arg : List Nat) (htype : Examples.Spec.TypeName qtype name)
    (harg : Examples.Spec.CaseVariant arg name ∨ Examples.Spec.Number arg qtype)
    (hs : Quantizable cv nb qtype g c.tensors) :
    ∃ infos : List Info, ∀ (out : List Nat) (space : List Nat → Option Nat) (room : Nat), space out = some room →
      ∃ o : Out,
      quantProgram cv ver header world space [model, arg, out] = .ok (0, some o) ∧
      let kv := quantKv ver qtype g.kv
      let pre := header kv g.dir.length
      ((metaData 32 pre infos).length + (infos.map fun e => up 32 e.size).sum ≤ room →
        ∀ g' w', ReadBack nb kv pre infos g' → Reopens (world model) w' g' o.bytes →
          ∃ c' l', load w' = .ok (some c', l') ∧ QuantizedFrom cv qtype w'.conv c c') := by
  have hq : qtype < 19 := by cases htype <;> decide
  obtain ⟨infos, h1⟩ := C80_load_partial h hg hf hn ho cv nb ver qtype header hq hs
  refine ⟨infos, fun out space room hroom => ?_⟩
  obtain ⟨o, h1, h2⟩ := h1 room
  refine ⟨o, ?_, fun hr g' w' k1 k2 => ?_⟩
  · have hp := (C58_accept_iff arg qtype).2 ⟨name, htype, harg⟩
    have h0 : arg.length ≠ 0 := by
      intro e
      have : arg = [] := by simpa using e
      rw [this, (C58_ub_iff []).2 (.inr (.inl rfl))] at hp
      cases hp
    unfold quantProgram
    simp only [h0, if_false, hp, Res.bind, hroom, h1]
  · obtain ⟨c', l', m1, m2, _⟩ := (h2 hr).2 g' w' k1 k2
    exact ⟨c', l', m1, m2⟩

/-- C80: the exit status of the program is that of `main` of C68 with this `berts_model_quantize`, whatever the arguments; if
they are not three, or the second is no type, there is no file. -/
theorem C80_status (cv : Conv F) (ver : Nat) (header : List (List Nat × Kv) → Nat → List Nat)
    (world : List Nat → World α) (space : List Nat → Option Nat) (args : List (List Nat)) :
    ((quantProgram cv ver header world space args).bind fun r => .ok r.1) =
      ((Examples.quantMain args fun model out t =>
        (bertsModelQuantize cv ver header (world model) (space out) t).bind fun r => .ok r.1).bind fun r => .ok r.1) ∧
    ∀ s o, quantProgram cv ver header world space args = .ok (s, some o) → s = 0 := by
  unfold quantProgram Examples.quantMain
  rcases args with _ | ⟨model, _ | ⟨type, _ | ⟨out, _ | ⟨b, args⟩⟩⟩⟩
  · exact ⟨rfl, by rintro s o h; cases h⟩
  · exact ⟨rfl, by rintro s o h; cases h⟩
  · exact ⟨rfl, by rintro s o h; cases h⟩
  · simp only
    by_cases h0 : type.length = 0
    · rw [if_pos h0, if_pos h0]
      exact ⟨rfl, by rintro s o h; cases h⟩
    · rw [if_neg h0, if_neg h0]
      generalize Examples.parseFtype type = f
      rcases f with f | _ | _ | _
      · rcases f with _ | t
        · exact ⟨rfl, by rintro s o h; cases h⟩
        · simp only [Res.bind]
          generalize bertsModelQuantize _ _ _ _ _ _ = r
          rcases r with ⟨b, o⟩ | _ | _ | _
          · exact ⟨by cases b <;> rfl, by rintro s o h; cases h; rfl⟩
          all_goals exact ⟨rfl, by rintro s o h; cases h⟩
      all_goals exact ⟨rfl, by rintro s o h; cases h⟩
  · exact ⟨rfl, by rintro s o h; cases h⟩

/-! A small source: the file of `pipeWorld` with weights of type F32 (four bytes each), quantized to one byte each. -/

def qfDir : List TInfo :=
  [⟨ascii "berts.vocab.size", 1, [3], 16, 3, 0⟩, ⟨ascii "berts.vocab.data", 1, [4], 16, 4, 3⟩,
    ⟨ascii "berts.bert.embeddings.word_embeddings.weight", 2, [1, 3], 0, 12, 7⟩,
    ⟨ascii "berts.bert.embeddings.token_type_embeddings.weight", 2, [1, 2], 0, 8, 19⟩,
    ⟨ascii "berts.bert.embeddings.position_embeddings.weight", 2, [1, 4], 0, 16, 27⟩,
    ⟨ascii "berts.bert.embeddings.LayerNorm.weight", 1, [1], 0, 4, 43⟩,
    ⟨ascii "berts.bert.embeddings.LayerNorm.bias", 1, [1], 0, 4, 47⟩,
    ⟨ascii "berts.bert.pooler.dense.weight", 2, [1, 1], 0, 4, 51⟩,
    ⟨ascii "berts.bert.pooler.dense.bias", 1, [1], 0, 4, 55⟩]

def qfBytes : List Nat :=
  [0, 0, 0, 1, 2, 1, 97, 35, 35, 98] ++ [5, 0, 0, 0, 6, 0, 0, 0, 7, 0, 0, 0] ++ [1, 0, 0, 0, 2, 0, 0, 0] ++
    [1, 0, 0, 0, 2, 0, 0, 0, 3, 0, 0, 0, 4, 0, 0, 0] ++ [2, 0, 0, 0] ++ [3, 0, 0, 0] ++ [9, 0, 0, 0] ++ [1, 0, 0, 0]

def qfGguf (align : List (List Nat × Kv)) : Gguf := ⟨pipeKv 1 0 ++ align, qfDir, 3⟩

def qfWorld (align : List (List Nat × Kv)) : World Int :=
  ⟨some (qfGguf align), fun _ => true, some qfBytes, fun _ _ => 0, pipeConv, loadGg, true, id⟩

/-- Every fourth byte. -/
def firsts : List Nat → List Nat
  | a :: _ :: _ :: _ :: l => a :: firsts l
  | _ => []

def qfConv : Conv Nat := ⟨firsts, fun b => b, fun _ xs => some xs⟩

def qfNb (type : Nat) (ne : List Nat) : Nat := (if type = 0 then 4 else 1) * ne.foldl (· * ·) 1

def qfHeader (_ : List (List Nat × Kv)) (_ : Nat) : List Nat := List.replicate 36 71

/-- The directory of the new file. -/
def qfInfos : List Info :=
  [⟨ascii "berts.vocab.size", 1, [3], 16, 3, 0⟩, ⟨ascii "berts.vocab.data", 1, [4], 16, 4, 32⟩,
    ⟨ascii "berts.bert.embeddings.word_embeddings.weight", 2, [1, 3], 8, 3, 64⟩,
    ⟨ascii "berts.bert.embeddings.token_type_embeddings.weight", 2, [1, 2], 8, 2, 96⟩,
    ⟨ascii "berts.bert.embeddings.position_embeddings.weight", 2, [1, 4], 8, 4, 128⟩,
    ⟨ascii "berts.bert.embeddings.LayerNorm.weight", 1, [1], 0, 4, 160⟩,
    ⟨ascii "berts.bert.embeddings.LayerNorm.bias", 1, [1], 0, 4, 192⟩,
    ⟨ascii "berts.bert.pooler.dense.weight", 2, [1, 1], 8, 1, 224⟩,
    ⟨ascii "berts.bert.pooler.dense.bias", 1, [1], 0, 4, 256⟩]

/-- The new file as it is opened again, with the data at `off`. -/
def qfNew (align : List (List Nat × Kv)) (off : Nat) : Gguf :=
  ⟨quantKv 2 8 (qfGguf align).kv, qfInfos.map fun e => ⟨e.name, e.ndims, e.ne, e.type, qfNb e.type e.ne, e.offset⟩, off⟩

def qfReopened (align : List (List Nat × Kv)) (off : Nat) (out : List Nat) : World Int :=
  ⟨some (qfNew align off), fun _ => true, some out, fun _ _ => 0, pipeConv, loadGg, true, id⟩

/-- The bytes of the new file. -/
def qfOut (align : List (List Nat × Kv)) : Option (Bool × List Nat) :=
  match bertsModelQuantize qfConv 2 qfHeader (qfWorld align) (some 2000) 8 with
  | .ok (b, some o) => some (b, o.bytes)
  | _ => none

/-- The conditions on eligible tensors, for all matrices. -/
def qfCheck (ts : List LT) : Bool :=
  ts.all fun t => t.ndims ≠ 2 || (t.type == 0 && (firsts t.data).length == qfNb 8 t.ne &&
    decide ((firsts t.data).length ≤ nelements t * 4))

example : ∃ c l, load (qfWorld []) = .ok (some c, l) ∧ NamesOk (qfGguf []) ∧
    (∀ t ∈ (qfGguf []).dir, (qfGguf []).dataOffset + t.offset < 2 ^ 64) ∧
    Quantizable qfConv qfNb 8 (qfGguf []) c.tensors ∧
    (∀ t ∈ (qfGguf []).dir, (∃ x, t.name = x ++ ascii "LayerNorm.weight") → t.ndims ≠ 2) := by
  have h : (match load (qfWorld []) with | .ok (some c, _) => qfCheck c.tensors | _ => false) = true := by
    decide +kernel
  split at h
  · rename_i c l e
    refine ⟨c, l, e, ?_, ?_, ⟨?_, ?_, ?_, ?_, ?_, ?_⟩, ?_⟩
    · have : (qfDir.map (·.name)).Nodup ∧ ∀ t ∈ qfDir, t.name.length < 64 := by decide +kernel
      exact this
    · have : ∀ t ∈ qfDir, 3 + t.offset < 2 ^ 64 := by decide +kernel
      exact this
    · decide +kernel
    · refine .inr ⟨?_, rfl⟩
      have : ∀ k ∈ (qfGguf []).kv.map (·.1), k ≠ ascii "general.alignment" := by decide +kernel
      exact fun p hp => this _ (List.mem_map_of_mem hp)
    · have : ∀ t ∈ qfDir, 10 ∉ t.name ∧ 13 ∉ t.name := by decide +kernel
      exact this
    · have : ∀ t ∈ qfDir, t.nbytes = qfNb t.type t.ne := by decide +kernel
      exact this
    · intro t ht he
      have := List.all_eq_true.1 h t ht
      simp [he.1] at this
      exact .inl this.1.1
    · intro t ht he
      have := List.all_eq_true.1 h t ht
      simp [he.1] at this
      refine ⟨_, rfl, ?_⟩
      simp only [elements, this.1.1, if_true]
      exact ⟨this.1.2, this.2⟩
    · have : ∀ t ∈ qfDir, t.name.drop (t.name.length - 6) = ascii "weight" → t.ndims = 2 →
          t.name.drop (t.name.length - 16) ≠ ascii "LayerNorm.weight" := by decide +kernel
      rintro t ht ⟨x, hx⟩ h2
      have hl : (ascii "LayerNorm.weight").length = 16 := by decide +kernel
      have hd : (ascii "LayerNorm.weight").drop 10 = ascii "weight" := by decide +kernel
      refine this t ht ?_ h2 ?_
      · rw [hx, List.length_append, hl, show x.length + 16 - 6 = x.length + 10 by omega, ← List.drop_drop,
          List.drop_left, hd]
      · rw [hx, List.length_append, hl, Nat.add_sub_cancel, List.drop_left]
  · cases h

/-- The new file is found as `C80_load_partial` says, and evaluates as the source does (the weights are small
integers). -/
example : (qfOut []).isSome = true ∧ (∀ r ∈ qfOut [], r.1 = true ∧
    (metaData 32 (qfHeader [] 9) qfInfos).isPrefixOf r.2 = true ∧
    loadEval tinyA tinyG (qfReopened [] 672 r.2) [0, 2, 1] none (some (0, 2)) (some [0]) (some 1) =
      loadEval tinyA tinyG (qfWorld []) [0, 2, 1] none (some (0, 2)) (some [0]) (some 1)) := by
  decide +kernel

example : ReadBack qfNb (quantKv 2 8 (qfGguf []).kv) (qfHeader [] 9) qfInfos (qfNew [] 672) := by
  refine ⟨rfl, rfl, ?_⟩
  rintro a (ha | ⟨_, rfl⟩)
  · have := (u32_iff _ _ _).2 ha
    rw [show u32 ⟨quantKv 2 8 (qfGguf []).kv, [], 0⟩ "general.alignment" = .abort from by decide +kernel] at this
    cases this
  · decide +kernel

def qfAlign : List (List Nat × Kv) := [(ascii "general.alignment", .u32 64)]

/-- C80 fails for sources with another alignment: a file with alignment 64 is loaded and quantized with success, but
the new file says 64 as well and is laid out with 32.  Its reader finds other bytes in the place of the vocabulary,
and loading it runs into undefined behaviour. -/
theorem C80_alignment_counterexample :
    loads (qfWorld qfAlign) = some true ∧
    ReadBack qfNb (quantKv 2 8 (qfGguf qfAlign).kv) (qfHeader [] 9) qfInfos (qfNew qfAlign 704) ∧
    ∃ bytes, qfOut qfAlign = some (true, bytes) ∧ metaData 32 (qfHeader [] 9) qfInfos <+: bytes ∧
      load (qfReopened qfAlign 704 bytes) = .ub ∧ loads (qfReopened qfAlign 672 bytes) = some true := by
  refine ⟨by decide +kernel, ⟨rfl, rfl, ?_⟩, ?_⟩
  · have h64 : u32 ⟨quantKv 2 8 (qfGguf qfAlign).kv, [], 0⟩ "general.alignment" = .ok 64 := by decide +kernel
    rintro a (ha | ⟨ha, _⟩)
    · have := (u32_iff _ _ _).2 ha
      rw [h64] at this
      cases this
      decide +kernel
    · exact absurd ha (Convert.has_key ((u32_iff _ _ _).1 h64))
  · have h : (match qfOut qfAlign with
      | some (b, bytes) => b && (metaData 32 (qfHeader [] 9) qfInfos).isPrefixOf bytes &&
          (match load (qfReopened qfAlign 704 bytes) with | .ub => true | _ => false) &&
          decide (loads (qfReopened qfAlign 672 bytes) = some true)
      | none => false) = true := by decide +kernel
    split at h
    · rename_i b bytes e
      simp only [Bool.and_eq_true, decide_eq_true_eq, List.isPrefixOf_iff_prefix] at h
      obtain ⟨⟨⟨rfl, h1⟩, h2⟩, h3⟩ := h
      refine ⟨bytes, e, h1, ?_, h3⟩
      split at h2
      · assumption
      · cases h2
    · cases h

end Berts.Props
