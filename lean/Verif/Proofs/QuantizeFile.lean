import Verif.Spec.QuantizeFile
import Verif.Proofs.Quantize
import Verif.Proofs.ConvertFile
import Verif.Props.Quantize

/-! # Helper lemmas: a quantized file is loaded as the source with converted weights -/

namespace Berts.Quantize

open Berts.Load
open Berts.Handle (res_inv)
open Berts.Vocab (ascii decimal)
open Berts.Graph (T)

variable {α F : Type}

/-! ## Metadata -/

theorem setKey_new (kv : List (List Nat × Kv)) (k : List Nat) (v : Kv) (h : k ∉ kv.map (·.1)) :
    setKey kv k v = kv ++ [(k, v)] := by
  induction kv with
  | nil => rfl
  | cons p kv ih =>
    rw [List.map_cons, List.mem_cons, not_or] at h
    rw [setKey, if_neg (fun e => h.1 e.symm), ih h.2]
    rfl

theorem copyKv_eq (src : List (List Nat × Kv)) : ∀ dst, ((dst ++ src).map (·.1)).Nodup → copyKv src dst = dst ++ src := by
  induction src with
  | nil => intro dst _; simp [copyKv]
  | cons p src ih =>
    intro dst h
    have hp : p.1 ∉ dst.map (·.1) := by
      intro hm
      rw [List.map_append, List.nodup_append] at h
      exact h.2.2 _ hm _ (by simp) rfl
    have := ih (dst ++ [p]) (by simpa using h)
    unfold copyKv at this ⊢
    rw [List.foldl_cons, setKey_new _ _ _ hp, this]
    simp

theorem find_setKey (kv : List (List Nat × Kv)) (k k' : List Nat) (v : Kv) :
    (setKey kv k v).find? (fun p => p.1 == k') =
      if k = k' then some (k, v) else kv.find? (fun p => p.1 == k') := by
  induction kv with
  | nil =>
    by_cases h : k = k'
    · simp [setKey, h]
    · simp [setKey, h]
  | cons p kv ih =>
    rw [setKey]
    by_cases hp : p.1 = k
    · rw [if_pos hp]
      by_cases h : k = k'
      · simp [h]
      · have h2 : (p.1 == k') = false := by simpa [hp] using h
        simp [h, h2]
    · rw [if_neg hp, List.find?_cons, ih]
      by_cases h : k = k'
      · have h2 : (p.1 == k') = false := by rw [← h]; simpa using hp
        simp [h, h2]
      · simp [h, List.find?_cons]

theorem find_quantKv {ver qtype : Nat} {g g' : Gguf} (hk : (g.kv.map (·.1)).Nodup) (hg : g'.kv = quantKv ver qtype g.kv)
    (k : String) : find g' k =
      if ascii "general.file_type" = ascii k then some (.u32 qtype)
      else if ascii "general.quantization_version" = ascii k then some (.u32 ver) else find g k := by
  unfold find
  rw [hg, quantKv, copyKv_eq _ [] (by simpa using hk), List.nil_append, find_setKey, find_setKey]
  split
  · rfl
  · split <;> rfl

theorem find_same {ver qtype : Nat} {g g' : Gguf} (hk : (g.kv.map (·.1)).Nodup) (hg : g'.kv = quantKv ver qtype g.kv)
    (k : String) (h : ascii "general.file_type" ≠ ascii k ∧ ascii "general.quantization_version" ≠ ascii k) :
    find g' k = find g k := by
  rw [find_quantKv hk hg, if_neg h.1, if_neg h.2]

theorem hparams_same {ver qtype : Nat} {g g' : Gguf} (hk : (g.kv.map (·.1)).Nodup)
    (hg : g'.kv = quantKv ver qtype g.kv) : hparams g' = hparams g := by
  unfold hparams u32 u32Opt f64Opt
  rw [find_same hk hg "berts.bert_type" (by decide +kernel), find_same hk hg "berts.vocab_size" (by decide +kernel),
    find_same hk hg "berts.hidden_dim" (by decide +kernel), find_same hk hg "berts.n_layers" (by decide +kernel),
    find_same hk hg "berts.attn_heads" (by decide +kernel), find_same hk hg "berts.max_token" (by decide +kernel),
    find_same hk hg "berts.intermediate_dim" (by decide +kernel), find_same hk hg "berts.segments" (by decide +kernel),
    find_same hk hg "berts.hidden_act" (by decide +kernel), find_same hk hg "berts.layer_norm_eps" (by decide +kernel),
    find_same hk hg "berts.initializer_range" (by decide +kernel)]

theorem type_same {ver qtype : Nat} {g g' : Gguf} (hk : (g.kv.map (·.1)).Nodup)
    (hg : g'.kv = quantKv ver qtype g.kv) : u32 g' "general.file_type" = .ok qtype := by
  unfold u32
  rw [find_quantKv hk hg, if_pos rfl]

theorem general_same {ver qtype : Nat} {g g' : Gguf} (hk : (g.kv.map (·.1)).Nodup)
    (hg : g'.kv = quantKv ver qtype g.kv) (hq : qtype < 19) (h : general g = .ok ()) : general g' = .ok () := by
  unfold general at h ⊢
  obtain ⟨x1, h1, h⟩ := res_inv h
  obtain ⟨x2, h2, h⟩ := res_inv h
  obtain ⟨x3, h3, h⟩ := res_inv h
  obtain ⟨x4, h4, h⟩ := res_inv h
  obtain ⟨x5, h5, h⟩ := res_inv h
  obtain ⟨x6, h6, h⟩ := res_inv h
  obtain ⟨x7, h7, h⟩ := res_inv h
  obtain ⟨x8, h8, h⟩ := res_inv h
  have hs : ∀ k : String, ascii "general.file_type" ≠ ascii k ∧ ascii "general.quantization_version" ≠ ascii k →
      strOr g' k = strOr g k := by
    intro k hk'
    unfold strOr
    rw [find_same hk hg k hk']
  have hv : u32Opt g' "general.quantization_version" = .ok (some ver) := by
    unfold u32Opt
    rw [find_quantKv hk hg, if_neg (by decide +kernel), if_pos rfl]
  have ha : u32Opt g' "general.alignment" = u32Opt g "general.alignment" := by
    unfold u32Opt
    rw [find_same hk hg _ (by decide +kernel)]
  rw [hs _ (by decide +kernel), hs _ (by decide +kernel), hs _ (by decide +kernel), hs _ (by decide +kernel),
    hs _ (by decide +kernel), hs _ (by decide +kernel), hv, ha, h1, h3, h4, h5, h6, h7, h8, type_same hk hg]
  simp [Res.bind, ftype, hq]

theorem vocab_same {ver qtype : Nat} {g g' : Gguf} (hk : (g.kv.map (·.1)).Nodup)
    (hg : g'.kv = quantKv ver qtype g.kv) (signed : Bool) (order) (arch : Nat) (ts ts' : List LT)
    (h : ∀ k ∈ [ascii "berts.vocab.size", ascii "berts.vocab.data", ascii "berts.merge.data"],
      getTensor ts' k = getTensor ts k) : vocabInit signed order arch g' ts' = vocabInit signed order arch g ts := by
  have hu : ∀ k : String, ascii "general.file_type" ≠ ascii k ∧ ascii "general.quantization_version" ≠ ascii k →
      u32Opt g' k = u32Opt g k := by
    intro k hk'
    unfold u32Opt
    rw [find_same hk hg k hk']
  have hb : ∀ (k : String) (d : Bool), ascii "general.file_type" ≠ ascii k ∧ ascii "general.quantization_version" ≠ ascii k →
      boolOr g' k d = boolOr g k d := by
    intro k d hk'
    unfold boolOr
    rw [find_same hk hg k hk']
  have h1 : bertMeta g' = bertMeta g := by
    unfold bertMeta
    rw [hu _ (by decide +kernel), hu _ (by decide +kernel), hu _ (by decide +kernel), hu _ (by decide +kernel),
      hu _ (by decide +kernel)]
  have h2 : robertaMeta g' = robertaMeta g := by
    unfold robertaMeta
    rw [hu _ (by decide +kernel), hu _ (by decide +kernel), hu _ (by decide +kernel), hu _ (by decide +kernel),
      hu _ (by decide +kernel), hu _ (by decide +kernel), hu _ (by decide +kernel)]
  have h3 : bertCond g' = bertCond g := by
    unfold bertCond
    simp only [hb "berts.do_lower_case" _ (by decide +kernel), hb "berts.do_basic_tokenize" _ (by decide +kernel),
      hb "berts.tokenize_chinese_chars" _ (by decide +kernel), hb "berts.strip_accent" _ (by decide +kernel)]
  unfold vocabInit bertInit robertaInit
  rw [h _ (by simp), h _ (by simp), h1, h2, h3, h (ascii "berts.merge.data") (by simp)]

/-! ## Tensors -/

/-- A tensor with what was written for it. -/
def newT (p : LT × Nat × List Nat) : LT := { p.1 with type := p.2.1, data := p.2.2 }

theorem getTensor_newT (ps : List (LT × Nat × List Nat)) (k : List Nat) :
    getTensor (ps.map newT) k = (ps.find? fun p => p.1.name == k).map newT := by
  unfold getTensor
  rw [List.find?_map]
  rfl

theorem getTensor_fst (ps : List (LT × Nat × List Nat)) (k : List Nat) :
    getTensor (ps.map (·.1)) k = (ps.find? fun p => p.1.name == k).map (·.1) := by
  unfold getTensor
  rw [List.find?_map]
  rfl

theorem getTensor_plain {cv : Conv F} {qtype : Nat} (ps : List (LT × Nat × List Nat))
    (hc : ∀ p ∈ ps, Converted cv qtype p.1 p.2) (k : List Nat) (hk : ¬ ∃ x, k = x ++ ascii "weight") :
    getTensor (ps.map newT) k = getTensor (ps.map (·.1)) k := by
  rw [getTensor_newT, getTensor_fst]
  cases h : ps.find? fun p => p.1.name == k with
  | none => rfl
  | some p =>
    have hm := List.mem_of_find?_eq_some h
    have hn := List.find?_some h
    simp only [beq_iff_eq] at hn
    have := (hc p hm).2 (fun e => hk (by obtain ⟨_, x, hx⟩ := e; exact ⟨x, hn ▸ hx⟩))
    simp only [Option.map_some, newT, this]

theorem no_weight (k : String) (h : ((ascii k).drop ((ascii k).length - 6) == ascii "weight") = false) :
    ¬ ∃ x, ascii k = x ++ ascii "weight" := by
  rintro ⟨x, hx⟩
  rw [hx] at h
  have hl : (ascii "weight").length = 6 := by decide +kernel
  rw [List.length_append, hl, Nat.add_sub_cancel, List.drop_left] at h
  simp at h

/-! ## The source -/

theorem general_of_load {w : World α} {c : Ctx α} {l : Ledger} {g : Gguf} (h : load w = .ok (some c, l))
    (hg : w.gguf = some g) : general g = .ok () := by
  have hc := load_cases h
  generalize hr : some c = r at hc
  generalize l.acq = la at hc
  generalize l.h.freed = lf at hc
  cases hc with
  | noFile h0 => cases hr
  | noPool g' size => cases hr
  | noStream g' size => cases hr
  | truncated g' size bytes' => cases hr
  | finished g' size bytes' ts r acq freed h1 h2 h3 h4 h5 h6 =>
    rw [hg] at h1
    cases h1
    unfold initGg at h2
    obtain ⟨_, h2, _⟩ := res_inv h2
    exact h2

theorem load_tensors {w : World α} {c : Ctx α} {l : Ledger} {g : Gguf} {bytes : List Nat}
    (h : load w = .ok (some c, l)) (hg : w.gguf = some g) (hf : w.file = some bytes) (hn : NamesOk g)
    (ho : ∀ t ∈ g.dir, g.dataOffset + t.offset < 2 ^ 64) : c.tensors = loadedFrom g bytes w.junk 0 g.dir := by
  have hc := load_cases h
  generalize hr : some c = r at hc
  generalize l.acq = la at hc
  generalize l.h.freed = lf at hc
  cases hc with
  | noFile h0 => cases hr
  | noPool g' size => cases hr
  | noStream g' size => cases hr
  | truncated g' size bytes' => cases hr
  | finished g' size bytes' ts r acq freed h1 h2 h3 h4 h5 h6 =>
    rw [hg] at h1
    cases h1
    rw [hf] at h4
    cases h4
    have hts : ts = loadedFrom g bytes w.junk 0 g.dir := by
      have := (loop_sound w.gg g hn ho _ _ bytes g.dir 0 0 ⟨bytes, 0, false⟩ [] ts (fun _ h => h) rfl rfl h5).2
      rwa [List.nil_append] at this
    subst hts
    subst hr
    cases h6 with
    | create hp type r k1 k2 k3 k4 k5 k6 =>
      cases k6 with
      | ok v ws m1 m2 => rfl

section

variable {w : World α} {c : Ctx α} {l : Ledger} {g : Gguf} {bytes : List Nat}
  (h : load w = .ok (some c, l)) (hg : w.gguf = some g) (hf : w.file = some bytes) (hn : NamesOk g)
  (ho : ∀ t ∈ g.dir, g.dataOffset + t.offset < 2 ^ 64)

include h hg hf hn ho

theorem tensor_names : c.tensors.map (·.name) = g.dir.map (·.name) := by
  obtain ⟨_, hl, hi⟩ := Props.C56_complete_partial h hg hf hn ho
  apply List.ext_getElem?
  intro i
  rw [List.getElem?_map, List.getElem?_map]
  cases ht : g.dir[i]? with
  | none =>
    have : g.dir.length ≤ i := by simpa using ht
    rw [List.getElem?_eq_none (by omega)]
    rfl
  | some t =>
    obtain ⟨x, hx, hname, _⟩ := hi i t ht
    rw [hx]
    simp [hname]

theorem tensor_entry {t : LT} (ht : t ∈ c.tensors) :
    ∃ e ∈ g.dir, e.name = t.name ∧ e.ndims = t.ndims ∧ e.ne = t.ne ∧ e.type = t.type ∧ t.data.length = e.nbytes := by
  obtain ⟨_, hl, hi⟩ := Props.C56_complete_partial h hg hf hn ho
  obtain ⟨i, hi', e⟩ := List.mem_iff_getElem.1 ht
  have hd : g.dir[i]? = some g.dir[i] := List.getElem?_eq_getElem (by omega)
  obtain ⟨x, hx, h1, h2, h3, h4, h5, _⟩ := hi i _ hd
  rw [List.getElem?_eq_getElem hi', e] at hx
  cases hx
  exact ⟨g.dir[i], List.getElem_mem _, h1.symm, h2.symm, h3.symm, h4.symm, h5⟩

variable {cv : Conv F} {nb : Nat → List Nat → Nat} {ver qtype : Nat}
  {header : List (List Nat × Kv) → Nat → List Nat} (hq : qtype < 19) (hs : Quantizable cv nb qtype g c.tensors)

include hq hs

theorem quantize_file (room : Nat) :
    ∃ (ps : List (LT × Nat × List Nat)) (infos : List Info) (o : Out),
      bertsModelQuantize cv ver header w (some room) qtype = .ok (true, some o) ∧
      ps.map (·.1) = c.tensors ∧ (∀ p ∈ ps, Converted cv qtype p.1 p.2) ∧ infos.length = ps.length ∧
      (∀ (i : Nat) p, ps[i]? = some p → infos[i]? = some ⟨p.1.name, p.1.ndims, p.1.ne, p.2.1, p.2.2.length,
        offsetOf 32 (ps.map (·.2.2)) i⟩) ∧
      ((metaData 32 (header (quantKv ver qtype g.kv) g.dir.length) infos).length + (body 32 (ps.map (·.2.2))).length ≤ room →
        o.bytes = metaData 32 (header (quantKv ver qtype g.kv) g.dir.length) infos ++ body 32 (ps.map (·.2.2))) := by
  obtain ⟨ps, infos, o, h1, h2⟩ := Props.C54_convert_partial cv 32 qtype (g.dir.map (·.name)) c.tensors room
    (header (quantKv ver qtype g.kv) g.dir.length) (by omega) hq ⟨hn.1, tensor_names h hg hf hn ho⟩
    (by
      intro t ht
      obtain ⟨e, he, e1, _⟩ := tensor_entry h hg hf hn ho ht
      have := hs.names e he
      rw [e1] at this
      exact this)
    (fun t ht he _ => by
      obtain ⟨b, h1, h2, h3⟩ := hs.chunk t ht he
      exact ⟨b, h1, h3⟩) hs.floats
  refine ⟨ps, infos, o, ?_, h2⟩
  unfold bertsModelQuantize ftype
  rw [if_pos hq, h, hg]
  simpa only [Res.bind] using h1

/-- The same, for all amounts of space. -/
theorem quantize_files :
    ∃ (ps : List (LT × Nat × List Nat)) (infos : List Info),
      ps.map (·.1) = c.tensors ∧ (∀ p ∈ ps, Converted cv qtype p.1 p.2) ∧ infos.length = ps.length ∧
      (∀ (i : Nat) p, ps[i]? = some p → infos[i]? = some ⟨p.1.name, p.1.ndims, p.1.ne, p.2.1, p.2.2.length,
        offsetOf 32 (ps.map (·.2.2)) i⟩) ∧
      ∀ room, ∃ o : Out, bertsModelQuantize cv ver header w (some room) qtype = .ok (true, some o) ∧
        ((metaData 32 (header (quantKv ver qtype g.kv) g.dir.length) infos).length +
            (body 32 (ps.map (·.2.2))).length ≤ room →
          o.bytes = metaData 32 (header (quantKv ver qtype g.kv) g.dir.length) infos ++ body 32 (ps.map (·.2.2))) := by
  obtain ⟨ps, infos, _, _, h2, h3, h4, h5, _⟩ := quantize_file h hg hf hn ho (ver := ver) (header := header) hq hs 0
  refine ⟨ps, infos, h2, h3, h4, h5, fun room => ?_⟩
  obtain ⟨ps', infos', o, h1, h2', h3', h4', h5', h6⟩ :=
    quantize_file h hg hf hn ho (ver := ver) (header := header) hq hs room
  obtain ⟨rfl, rfl⟩ := written_unique (h2'.trans h2.symm) h3' h3 h4' h4 h5' h5
  exact ⟨o, h1, h6⟩

theorem written_size {ps : List (LT × Nat × List Nat)} (hp : ps.map (·.1) = c.tensors)
    (hc : ∀ p ∈ ps, Converted cv qtype p.1 p.2) {p : LT × Nat × List Nat} (hm : p ∈ ps) :
    p.2.2.length = nb p.2.1 p.1.ne := by
  have ht : p.1 ∈ c.tensors := by rw [← hp]; exact List.mem_map_of_mem hm
  by_cases he : Eligible p.1
  · obtain ⟨e1, e2⟩ := (hc p hm).1 he
    obtain ⟨b, h1, h2, h3⟩ := hs.chunk _ ht he
    rw [h1] at e2
    injection e2 with e2
    rw [← e2, h2, e1]
  · have e := (hc p hm).2 he
    obtain ⟨x, hx, _, _, e3, e4, e5⟩ := tensor_entry h hg hf hn ho ht
    rw [e]
    simp only
    rw [e5, hs.sizes x hx, e3, e4]

omit h hg hf hn ho hq hs in
theorem aligned_same {ts : List LT} (hs : Quantizable cv nb qtype g ts) : AlignedAs (quantKv ver qtype g.kv) 32 := by
  have hfind : find ⟨quantKv ver qtype g.kv, [], 0⟩ "general.alignment" = find ⟨g.kv, [], 0⟩ "general.alignment" :=
    find_same (g := ⟨g.kv, [], 0⟩) (g' := ⟨quantKv ver qtype g.kv, [], 0⟩) (ver := ver) (qtype := qtype) hs.keys rfl _
      (by decide +kernel)
  rcases hs.align with ha | ⟨ha, _⟩
  · rw [← u32_iff] at ha
    refine .inl ((u32_iff _ _ _).1 ?_)
    unfold u32 at ha ⊢
    rw [hfind]
    exact ha
  · rw [← find_none] at ha
    exact .inr ⟨(find_none _ _).1 (hfind.trans ha), rfl⟩

theorem quantized_load {ps : List (LT × Nat × List Nat)} (hp : ps.map (·.1) = c.tensors)
    (hc : ∀ p ∈ ps, Converted cv qtype p.1 p.2) {infos : List Info} (hlen : infos.length = ps.length)
    (hi : ∀ (i : Nat) p, ps[i]? = some p → infos[i]? = some ⟨p.1.name, p.1.ndims, p.1.ne, p.2.1, p.2.2.length,
        offsetOf 32 (ps.map (·.2.2)) i⟩) {pre out : List Nat}
    (hout : out = metaData 32 pre infos ++ body 32 (ps.map (·.2.2))) {g' : Gguf} {w' : World α}
    (hr : ReadBack nb (quantKv ver qtype g.kv) pre infos g') (hw : Reopens w w' g' out) :
    NamesOk g' ∧ OffsetsOk g' ∧
    (∀ t ∈ g'.dir, ∃ e ∈ g.dir, e.name = t.name ∧ e.ne = t.ne ∧
      (t.type = e.type ∨ (e.ndims = 2 ∧ ∃ x, e.name = x ++ ascii "weight"))) ∧
    ∃ c' l', load w' = .ok (some c', l') ∧ c'.hp = c.hp ∧ c'.type = qtype ∧ c'.vocab = c.vocab ∧
      c'.tensors = ps.map newT ∧
      Named (fun k => (getTensor c'.tensors k).map w'.conv) c.hp.hp.nLayers c'.weights := by
  have hoff : g'.dataOffset = (metaData 32 pre infos).length := by
    rw [hr.data 32 (aligned_same hs)]
    have hval := metaSize_val 32 (by omega) pre infos
    unfold metaSize at hval
    rw [hval]
    unfold readerOffset
    rw [up_eq, List.length_append, List.length_flatMap]
  have hdlen : g'.dir.length = ps.length := by rw [hr.dir, List.length_map, hlen]
  have hdir : ∀ (i : Nat) p, ps[i]? = some p → g'.dir[i]? = some ⟨p.1.name, p.1.ndims, p.1.ne, p.2.1, p.2.2.length,
      offsetOf 32 (ps.map (·.2.2)) i⟩ := by
    intro i p hpi
    rw [hr.dir, List.getElem?_map, hi i p hpi]
    simp only [Option.map_some]
    rw [written_size h hg hf hn ho hq hs hp hc (List.mem_of_getElem? hpi)]
  have hnames : g'.dir.map (·.name) = g.dir.map (·.name) := by
    rw [← tensor_names h hg hf hn ho, ← hp]
    apply List.ext_getElem?
    intro i
    rw [List.getElem?_map, List.getElem?_map, List.getElem?_map]
    cases hpi : ps[i]? with
    | none =>
      have : ps.length ≤ i := by simpa using hpi
      rw [List.getElem?_eq_none (by omega)]
      rfl
    | some p => rw [hdir i p hpi]; rfl
  have hn' : NamesOk g' := by
    refine ⟨by rw [hnames]; exact hn.1, fun t ht => ?_⟩
    have hm : t.name ∈ g.dir.map (·.name) := by rw [← hnames]; exact List.mem_map_of_mem ht
    rw [List.mem_map] at hm
    obtain ⟨e, he, e1⟩ := hm
    rw [← e1]
    exact hn.2 e he
  -- where the data are
  have hentry : ∀ t ∈ g'.dir, ∃ i p, ps[i]? = some p ∧ t = ⟨p.1.name, p.1.ndims, p.1.ne, p.2.1, p.2.2.length,
      offsetOf 32 (ps.map (·.2.2)) i⟩ := by
    intro t ht
    obtain ⟨i, hi', e⟩ := List.mem_iff_getElem.1 ht
    have hpi : ps[i]? = some ps[i] := List.getElem?_eq_getElem (by omega)
    have := hdir i _ hpi
    rw [List.getElem?_eq_getElem hi', e] at this
    injection this with this
    exact ⟨i, _, hpi, this⟩
  have hbound : ∀ t ∈ g'.dir, g'.dataOffset + t.offset + t.nbytes ≤ out.length := by
    intro t ht
    obtain ⟨i, p, hpi, rfl⟩ := hentry t ht
    have hd : (ps.map (·.2.2))[i]? = some p.2.2 := by rw [List.getElem?_map, hpi]; rfl
    have hlt : i < ps.length := (List.getElem?_eq_some_iff.1 hpi).1
    have h6 := offset_step 32 (ps.map (·.2.2)) i p.2.2 hd
    have h7 := offset_mono 32 (ps.map (·.2.2)) (i + 1) (ps.map (·.2.2)).length (by rw [List.length_map]; omega)
    have h8 := le_pad' 32 p.2.2.length (by omega)
    rw [up_eq] at h6
    rw [hout, List.length_append, body_length' 32 (by omega), hoff]
    simp only
    omega
  have ho' : OffsetsOk g' := by
    intro t ht
    have := hbound t ht
    have := hw.fits.2
    omega
  have hcomp : ∀ t ∈ g'.dir, Complete g' out t := by
    intro t ht j hj
    have := hbound t ht
    omega
  have hts : loadedFrom g' out w'.junk 0 g'.dir = ps.map newT := by
    apply List.ext_getElem?
    intro i
    rw [loadedFrom_get, List.getElem?_map]
    cases hpi : ps[i]? with
    | none =>
      have : ps.length ≤ i := by simpa using hpi
      rw [List.getElem?_eq_none (by omega)]
      rfl
    | some p =>
      have hd : (ps.map (·.2.2))[i]? = some p.2.2 := by rw [List.getElem?_map, hpi]; rfl
      rw [hdir i p hpi]
      simp only [Option.map_some, loadedT, newT]
      have hslice : (out.drop (g'.dataOffset + offsetOf 32 (ps.map (·.2.2)) i)).take p.2.2.length = p.2.2 := by
        rw [hout, hoff, ← List.drop_drop, List.drop_left]
        exact body_slice 32 (by omega) _ i _ hd
      rw [hslice, fill_complete _ _ _ rfl]
  obtain ⟨g0, b0, n, hg0, hf0, hact, harch, hmand, htype, _, hnl, ⟨_, _, _, hnL, _⟩, hnamed, hvoc⟩ :=
    Props.C57_supported h
  rw [hg] at hg0
  cases hg0
  obtain ⟨k1, k2, k3, k4⟩ := Convert.load_values h hg hf hn ho
  have hhp : hparams g' = .ok c.hp := by rw [hparams_same hs.keys hr.keys, k1]
  have hv' : vocabInit w'.signed w'.order c.hp.arch g' (ps.map newT) = .ok (some c.vocab) := by
    rw [hw.signed, hw.order, vocab_same hs.keys hr.keys _ _ _ c.tensors (ps.map newT), hvoc]
    intro k hk
    rw [← hp]
    apply getTensor_plain ps hc
    simp only [List.mem_cons, List.not_mem_nil, or_false] at hk
    rcases hk with rfl | rfl | rfl <;> exact no_weight _ (by decide +kernel)
  obtain ⟨r, l', h1, h2⟩ := Props.C57_exact w' g' out c.hp (some c.vocab) hw.gguf hw.file hw.pool hn' ho' hw.align.1
    hw.align.2 hw.fits.1 (general_same hs.keys hr.keys hq (general_of_load h hg)) hcomp hhp (by rw [hts]; exact hv')
  obtain ⟨hp1, _, _, _, _, _, _, hp2, _⟩ := hparams_iff g c.hp k1
  have hsome := h2.2 ⟨Convert.has_unique hp2 hact, by
      rcases harch with ha | ha
      · exact .inl (Convert.has_unique hp1 ha)
      · exact .inr (Convert.has_unique hp1 ha), rfl, by
      intro k hk
      have := (named_iff _ _).1 ⟨_, k4⟩ k hk
      rw [Option.isSome_map, get_loaded] at this
      rw [hnames]
      exact this⟩
  rw [Option.isSome_iff_exists] at hsome
  obtain ⟨c', rfl⟩ := hsome
  have ho2 : ∀ t ∈ g'.dir, g'.dataOffset + t.offset < 2 ^ 64 := fun t ht => by have := ho' t ht; omega
  obtain ⟨e1, e2, e3, e4⟩ := Convert.load_values h1 hw.gguf hw.file hn' ho2
  have e5 := load_tensors h1 hw.gguf hw.file hn' ho2
  rw [hts] at e3 e4 e5
  rw [hhp] at e1
  injection e1 with e1
  rw [type_same hs.keys hr.keys] at e2
  injection e2 with e2
  rw [← e1, hv'] at e3
  injection e3 with e3
  injection e3 with e3
  rw [← e1, ← e5] at e4
  refine ⟨hn', ho', fun t ht => ?_, c', l', h1, e1.symm, e2.symm, e3.symm, e5, e4⟩
  obtain ⟨i, p, hpi, rfl⟩ := hentry t ht
  have hm := List.mem_of_getElem? hpi
  obtain ⟨e, he, f1, f2, f3, f4, _⟩ := tensor_entry h hg hf hn ho (t := p.1) (by rw [← hp]; exact List.mem_map_of_mem hm)
  refine ⟨e, he, f1, f3, ?_⟩
  by_cases hel : Eligible p.1
  · refine .inr ⟨f2.trans hel.1, ?_⟩
    rw [f1]
    exact hel.2
  · refine .inl ?_
    rw [(hc p hm).2 hel]
    exact f4.symm

end

/-! ## Consistency -/

theorem not_weight (x : List Nat) (s : String) (hl : 6 ≤ (ascii s).length)
    (h : ((ascii s).drop ((ascii s).length - 6) == ascii "weight") = false) :
    ¬ ∃ y, x ++ ascii s = y ++ ascii "weight" := by
  rintro ⟨y, hy⟩
  have h6 : (ascii "weight").length = 6 := by decide +kernel
  have hd := congrArg (fun z => z.drop (z.length - 6)) hy
  simp only [List.length_append, h6] at hd
  rw [Nat.add_sub_cancel, List.drop_left] at hd
  rw [show x.length + (ascii s).length - 6 = x.length + ((ascii s).length - 6) by omega, ← List.drop_drop,
    List.drop_left] at hd
  rw [hd] at h
  simp at h

theorem has_same {ver qtype : Nat} {g g' : Gguf} (hk : (g.kv.map (·.1)).Nodup) (hg : g'.kv = quantKv ver qtype g.kv)
    (k : String) (h : ascii "general.file_type" ≠ ascii k ∧ ascii "general.quantization_version" ≠ ascii k) (n : Nat) :
    HasU32 g' k n ↔ HasU32 g k n := by
  rw [← u32_iff, ← u32_iff]
  unfold u32
  rw [find_same hk hg k h]

section

variable {g g' : Gguf}
  (hd : ∀ t ∈ g'.dir, ∃ e ∈ g.dir, e.name = t.name ∧ e.ne = t.ne ∧
      (t.type = e.type ∨ (e.ndims = 2 ∧ ∃ x, e.name = x ++ ascii "weight")))
  (hln : ∀ t ∈ g.dir, (∃ x, t.name = x ++ ascii "LayerNorm.weight") → t.ndims ≠ 2)

include hd

theorem matrix_same {k : List Nat} {a b : Nat} (h : IsMatrix g k a b) : IsMatrix g' k a b := by
  intro t ht hk
  obtain ⟨e, he, e1, e2, _⟩ := hd t ht
  have := h e he (e1.trans hk)
  rwa [e2] at this

theorem bias_same {k : List Nat} {n : Nat} (hw : ¬ ∃ y, k = y ++ ascii "weight") (h : IsVector g k n) :
    IsVector g' k n := by
  intro t ht hk
  obtain ⟨e, he, e1, e2, e3⟩ := hd t ht
  have := h e he (e1.trans hk)
  rw [e2] at this
  refine ⟨this.1, ?_⟩
  rcases e3 with e3 | ⟨_, e3⟩
  · rw [e3]; exact this.2
  · rw [e1.trans hk] at e3
    exact absurd e3 hw

include hln

theorem norm_same {k : List Nat} {n : Nat} (hw : ∃ y, k = y ++ ascii "LayerNorm.weight") (h : IsVector g k n) :
    IsVector g' k n := by
  intro t ht hk
  obtain ⟨e, he, e1, e2, e3⟩ := hd t ht
  have := h e he (e1.trans hk)
  rw [e2] at this
  refine ⟨this.1, ?_⟩
  rcases e3 with e3 | ⟨e3, _⟩
  · rw [e3]; exact this.2
  · exact absurd e3 (hln e he (by rw [e1.trans hk]; exact hw))

theorem layer_same {hidden interm i : Nat} (h : LayerShapes g hidden interm i) : LayerShapes g' hidden interm i := by
  obtain ⟨h1, h2, h3, h4, h5⟩ := h
  refine ⟨fun s hs => matrix_same hd (h1 s hs), matrix_same hd h2, matrix_same hd h3, fun s hs => ?_,
    bias_same hd (not_weight _ _ (by decide +kernel) (by decide +kernel)) h5⟩
  have hv := h4 s hs
  simp only [List.mem_cons, List.not_mem_nil, or_false] at hs
  rcases hs with rfl | rfl | rfl | rfl | rfl | rfl | rfl | rfl | rfl
  · exact bias_same hd (not_weight _ _ (by decide +kernel) (by decide +kernel)) hv
  · exact bias_same hd (not_weight _ _ (by decide +kernel) (by decide +kernel)) hv
  · exact bias_same hd (not_weight _ _ (by decide +kernel) (by decide +kernel)) hv
  · exact bias_same hd (not_weight _ _ (by decide +kernel) (by decide +kernel)) hv
  · refine norm_same hd hln ⟨ascii "berts.bert.encoder.layer." ++ decimal i ++ ascii ".attention.output.", ?_⟩ hv
    rw [List.append_assoc]
    congr 1
  · exact bias_same hd (not_weight _ _ (by decide +kernel) (by decide +kernel)) hv
  · exact bias_same hd (not_weight _ _ (by decide +kernel) (by decide +kernel)) hv
  · refine norm_same hd hln ⟨ascii "berts.bert.encoder.layer." ++ decimal i ++ ascii ".output.", ?_⟩ hv
    rw [List.append_assoc]
    congr 1
  · exact bias_same hd (not_weight _ _ (by decide +kernel) (by decide +kernel)) hv

theorem consistent_same {ver qtype : Nat} (hk : (g.kv.map (·.1)).Nodup) (hg : g'.kv = quantKv ver qtype g.kv)
    {V P S : Nat} (h : Consistent g V P S) : Consistent g' V P S := by
  have hs := fun k hk' n => (has_same hk hg k hk' n).1
  refine ⟨?_, ?_, ?_, ?_, ?_, ?_⟩
  · intro a b n ha hb hn
    obtain ⟨k1, k2, k3, k4, k5, k6, k7, k8⟩ := h.shapes a b n (hs _ (by decide +kernel) _ ha) (hs _ (by decide +kernel) _ hb)
      (hs _ (by decide +kernel) _ hn)
    refine ⟨matrix_same hd k1, matrix_same hd k2, matrix_same hd k3,
      norm_same hd hln ⟨ascii "berts.bert.embeddings.", by decide +kernel⟩ k4,
      bias_same hd (no_weight _ (by decide +kernel)) k5, matrix_same hd k6, bias_same hd (no_weight _ (by decide +kernel)) k7,
      fun i hi => layer_same hd hln (k8 i hi)⟩
  · exact fun h0 => h.hidden (hs _ (by decide +kernel) _ h0)
  · exact fun h0 => h.interm (hs _ (by decide +kernel) _ h0)
  · exact fun a b ha hb => h.heads a b (hs _ (by decide +kernel) _ ha) (hs _ (by decide +kernel) _ hb)
  · intro n hn
    refine h.segments n ?_
    rcases hn with hn | ⟨hn, e⟩
    · exact .inl (hs _ (by decide +kernel) _ hn)
    · refine .inr ⟨?_, e⟩
      rw [← find_none] at hn ⊢
      rwa [find_same hk hg _ (by decide +kernel)] at hn
  · exact fun n hn => h.layers n (hs _ (by decide +kernel) _ hn)

end

end Berts.Quantize
