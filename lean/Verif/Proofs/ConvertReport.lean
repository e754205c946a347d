import Verif.Proofs.ConvertText

/-! # The output of the converter describes the file -/

namespace Berts.ConvertLog

open Berts.Convert Berts.Spec
open Berts.Vocab (ascii decimal placeTokens fillLoop writeBlobs converterTokens)
open Berts.Load (Kv TInfo Gguf)

variable {α β γ : Type}

/-! ## Texts -/

theorem pyText_eq (t : Option (List Nat)) : pyText t = orNone t := by cases t <;> rfl

theorem bool_noTrail (o : Option Bool) : NoTrail (pyOptBool o) := by
  rcases o with _ | _ | _
  · exact noTrail_of (c := 101) (by decide +kernel) (by decide)
  · exact noTrail_of (c := 101) (by decide +kernel) (by decide)
  · exact noTrail_of (c := 101) (by decide +kernel) (by decide)

theorem tokenText_eq (a b : Nat) : tokenText a b = lines [ascii "[tokens]", ascii "  total  = " ++ decimal a,
    ascii "  used   = " ++ decimal (a - b), ascii "  unused = " ++ decimal b] := by
  have e1 : ascii "\n[tokens]\n  total  = " = 10 :: (ascii "[tokens]" ++ 10 :: ascii "  total  = ") := by decide +kernel
  have e2 : ascii "\n  used   = " = 10 :: ascii "  used   = " := by decide +kernel
  have e3 : ascii "\n  unused = " = 10 :: ascii "  unused = " := by decide +kernel
  have e4 : ascii "\n" = [10] := by decide +kernel
  have h := strip_eq (x := lines [ascii "[tokens]", ascii "  total  = " ++ decimal a,
    ascii "  used   = " ++ decimal (a - b), ascii "  unused = " ++ decimal b]) (c := 91) (by
      simp only [lines]; rw [List.head?_append, show (ascii "[tokens]").head? = some 91 by decide +kernel]; rfl) (by decide) (by
      simp only [lines]
      exact .append _ (.cons _ (.append _ (.cons _ (.append _ (.cons _ (.append _ (decimal_noTrail _))))))))
  rw [← h]
  unfold tokenText
  refine congrArg strip ?_
  simp only [e1, e2, e3, e4, lines, List.append_assoc, List.cons_append]

theorem mergeText_eq (n : Nat) : mergeText n = lines [ascii "[merges]", ascii "  total = " ++ decimal n] := by
  have e1 : ascii "\n[merges]\n  total = " = 10 :: (ascii "[merges]" ++ 10 :: ascii "  total = ") := by decide +kernel
  have e4 : ascii "\n" = [10] := by decide +kernel
  have h := strip_eq (x := lines [ascii "[merges]", ascii "  total = " ++ decimal n]) (c := 91) (by
      simp only [lines]; rw [List.head?_append, show (ascii "[merges]").head? = some 91 by decide +kernel]; rfl) (by decide) (by
      simp only [lines]
      exact .append _ (.cons _ (.append _ (decimal_noTrail _))))
  rw [← h]
  unfold mergeText
  refine congrArg strip ?_
  simp only [e1, e4, lines, List.append_assoc, List.cons_append]

theorem noLead_head {k : List Nat} (h : NoLead k) (hn : k ≠ []) : ∃ c, k.head? = some c ∧ isBlank c = false := by
  cases k with
  | nil => exact absurd rfl hn
  | cons c k => exact ⟨c, rfl, blank_false.2 (h c rfl)⟩

theorem paramText_eq (E : Env α) (f16 : Bool) {key : List Nat} (hk : NoLead key) (hn : key ≠ []) (p : Param α) :
    paramText E f16 key p = lines [key ++ ascii ":", ascii "  quantized = " ++ pyBool (quantized f16 p),
      ascii "  n_dims = " ++ decimal (squeeze p.shape).length, ascii "  size = " ++ fixed1 (sizeOrg E p) 1024 ++
      ascii " KiB -> " ++ fixed1 (sizeNew f16 p) 1024 ++ ascii " KiB"] := by
  obtain ⟨c, hc, hb⟩ := noLead_head hk hn
  have e1 : ascii ":\n  quantized = " = ascii ":" ++ 10 :: ascii "  quantized = " := by decide +kernel
  have e2 : ascii "\n  n_dims = " = 10 :: ascii "  n_dims = " := by decide +kernel
  have e3 : ascii "\n  size = " = 10 :: ascii "  size = " := by decide +kernel
  have e5 : ascii " KiB\n" = ascii " KiB" ++ [10] := by decide +kernel
  have e4 : ascii "\n" = [10] := by decide +kernel
  have h := strip_eq (x := lines [key ++ ascii ":", ascii "  quantized = " ++ pyBool (quantized f16 p),
      ascii "  n_dims = " ++ decimal (squeeze p.shape).length, ascii "  size = " ++ fixed1 (sizeOrg E p) 1024 ++
      ascii " KiB -> " ++ fixed1 (sizeNew f16 p) 1024 ++ ascii " KiB"]) (c := c) (by
      simp only [lines]; rw [List.append_assoc, List.head?_append, hc]; rfl) hb (by
      simp only [lines]
      exact .append _ (.cons _ (.append _ (.cons _ (.append _ (.cons _ (.append _
        (noTrail_of (c := 66) (by decide +kernel) (by decide)))))))))
  rw [← h]
  unfold paramText
  refine congrArg strip ?_
  simp only [e1, e2, e3, e4, e5, lines, List.append_assoc, List.cons_append, List.nil_append]

theorem totalText_eq (a b : Nat) : totalText a b = lines [List.replicate 40 61,
    ascii "original size  = " ++ fixed1 a (1024 * 1024) ++ ascii " MiB",
    ascii "quantized size = " ++ fixed1 b (1024 * 1024) ++ ascii " MiB", List.replicate 40 61] := by
  have e1 : ascii "\noriginal size  = " = 10 :: ascii "original size  = " := by decide +kernel
  have e2 : ascii " MiB\nquantized size = " = ascii " MiB" ++ 10 :: ascii "quantized size = " := by decide +kernel
  have e3 : ascii " MiB\n" = ascii " MiB" ++ [10] := by decide +kernel
  have e4 : ascii "\n" = [10] := by decide +kernel
  have h := strip_eq (x := lines [List.replicate 40 61,
    ascii "original size  = " ++ fixed1 a (1024 * 1024) ++ ascii " MiB",
    ascii "quantized size = " ++ fixed1 b (1024 * 1024) ++ ascii " MiB", List.replicate 40 61]) (c := 61) (by
      simp only [lines]; rw [List.head?_append]; rfl) (by decide) (by
      simp only [lines]
      exact .append _ (.cons _ (.append _ (.cons _ (.append _ (.cons _
        (noTrail_of (c := 61) (by decide +kernel) (by decide))))))))
  rw [← h]
  unfold totalText rule
  refine congrArg strip ?_
  simp only [e1, e2, e3, e4, lines, List.append_assoc, List.cons_append, List.nil_append]

theorem hparamText_eq (E : Env α) (arch : String) (c : Config) (hf : ∀ x, NoTrail (E.f64 x)) :
    hparamText E arch c = lines [ascii "[hparams]", ascii "  arch       = " ++ ascii arch,
      ascii "  vocab_size = " ++ decimal c.vocabSize,
      ascii "  hidden_dim = " ++ decimal c.hidden, ascii "  n_layers   = " ++ decimal c.layers,
      ascii "  attn_heads = " ++ decimal c.heads,
      ascii "  max_token  = " ++ decimal c.maxPos, ascii "  interm_dim = " ++ decimal c.interm,
      ascii "  hidden_act = " ++ c.act,
      ascii "  segments   = " ++ decimal c.typeVocab, ascii "  eps        = " ++ E.f64 c.eps,
      ascii "  init_range = " ++ E.f64 c.initRange] := by
  have e1 : ascii "\n[hparams]\n  arch       = " = 10 :: (ascii "[hparams]" ++ 10 :: ascii "  arch       = ") := by decide +kernel
  have e2 : ascii "\n  vocab_size = " = 10 :: ascii "  vocab_size = " := by decide +kernel
  have e3 : ascii "\n  hidden_dim = " = 10 :: ascii "  hidden_dim = " := by decide +kernel
  have e4 : ascii "\n  n_layers   = " = 10 :: ascii "  n_layers   = " := by decide +kernel
  have e5 : ascii "\n  attn_heads = " = 10 :: ascii "  attn_heads = " := by decide +kernel
  have e6 : ascii "\n  max_token  = " = 10 :: ascii "  max_token  = " := by decide +kernel
  have e7 : ascii "\n  interm_dim = " = 10 :: ascii "  interm_dim = " := by decide +kernel
  have e8 : ascii "\n  hidden_act = " = 10 :: ascii "  hidden_act = " := by decide +kernel
  have e9 : ascii "\n  segments   = " = 10 :: ascii "  segments   = " := by decide +kernel
  have e10 : ascii "\n  eps        = " = 10 :: ascii "  eps        = " := by decide +kernel
  have e11 : ascii "\n  init_range = " = 10 :: ascii "  init_range = " := by decide +kernel
  have e12 : ascii "\n" = [10] := by decide +kernel
  have h := strip_eq (x := lines [ascii "[hparams]", ascii "  arch       = " ++ ascii arch,
      ascii "  vocab_size = " ++ decimal c.vocabSize,
      ascii "  hidden_dim = " ++ decimal c.hidden, ascii "  n_layers   = " ++ decimal c.layers,
      ascii "  attn_heads = " ++ decimal c.heads,
      ascii "  max_token  = " ++ decimal c.maxPos, ascii "  interm_dim = " ++ decimal c.interm,
      ascii "  hidden_act = " ++ c.act,
      ascii "  segments   = " ++ decimal c.typeVocab, ascii "  eps        = " ++ E.f64 c.eps,
      ascii "  init_range = " ++ E.f64 c.initRange]) (c := 91) (by
      simp only [lines]; rw [List.head?_append, show (ascii "[hparams]").head? = some 91 by decide +kernel]; rfl) (by decide) (by
      simp only [lines]
      exact .append _ (.cons _ (.append _ (.cons _ (.append _ (.cons _ (.append _ (.cons _ (.append _ (.cons _ (.append _ (.cons _
        (.append _ (.cons _ (.append _ (.cons _ (.append _ (.cons _ (.append _ (.cons _ (.append _ (.cons _ (.append _
          (hf _))))))))))))))))))))))))
  rw [← h]
  unfold hparamText
  refine congrArg strip ?_
  simp only [e1, e2, e3, e4, e5, e6, e7, e8, e9, e10, e11, e12, lines, List.append_assoc, List.cons_append]

theorem bertSpecialText_eq (E : Env α) (t : Tokenizer) (hu : NoTrail (orNone E.unkText)) :
    bertSpecialText E t = lines [ascii "[special tokens]", ascii "  cls_id  = " ++ pyNat t.cls ++ ascii " " ++ orNone E.clsText,
      ascii "  mask_id = " ++ pyNat t.mask ++ ascii " " ++ orNone E.maskText,
      ascii "  pad_id  = " ++ pyNat t.pad ++ ascii " " ++ orNone E.padText,
      ascii "  sep_id  = " ++ pyNat t.sep ++ ascii " " ++ orNone E.sepText,
      ascii "  unk_id  = " ++ pyNat t.unk ++ ascii " " ++ orNone E.unkText] := by
  have e1 : ascii "\n[special tokens]\n  cls_id  = " = 10 :: (ascii "[special tokens]" ++ 10 :: ascii "  cls_id  = ") := by
    decide +kernel
  have e2 : ascii "\n  mask_id = " = 10 :: ascii "  mask_id = " := by decide +kernel
  have e3 : ascii "\n  pad_id  = " = 10 :: ascii "  pad_id  = " := by decide +kernel
  have e4 : ascii "\n  sep_id  = " = 10 :: ascii "  sep_id  = " := by decide +kernel
  have e5 : ascii "\n  unk_id  = " = 10 :: ascii "  unk_id  = " := by decide +kernel
  have e6 : ascii "\n" = [10] := by decide +kernel
  have h := strip_eq (x := lines [ascii "[special tokens]",
      ascii "  cls_id  = " ++ pyNat t.cls ++ ascii " " ++ orNone E.clsText,
      ascii "  mask_id = " ++ pyNat t.mask ++ ascii " " ++ orNone E.maskText,
      ascii "  pad_id  = " ++ pyNat t.pad ++ ascii " " ++ orNone E.padText,
      ascii "  sep_id  = " ++ pyNat t.sep ++ ascii " " ++ orNone E.sepText,
      ascii "  unk_id  = " ++ pyNat t.unk ++ ascii " " ++ orNone E.unkText]) (c := 91) (by
      simp only [lines]; rw [List.head?_append, show (ascii "[special tokens]").head? = some 91 by decide +kernel]; rfl)
      (by decide) (by
      simp only [lines]
      exact .append _ (.cons _ (.append _ (.cons _ (.append _ (.cons _ (.append _ (.cons _ (.append _ (.cons _ (.append _
        hu)))))))))))
  rw [← h]
  unfold bertSpecialText specialLines
  refine congrArg strip ?_
  simp only [e1, e2, e3, e4, e5, e6, pyText_eq, lines, List.append_assoc, List.cons_append]

theorem robertaSpecialText_eq (E : Env α) (t : Tokenizer) (hu : NoTrail (orNone E.eosText)) :
    robertaSpecialText E t = lines [ascii "[special tokens]", ascii "  cls_id  = " ++ pyNat t.cls ++ ascii " " ++ orNone E.clsText,
      ascii "  mask_id = " ++ pyNat t.mask ++ ascii " " ++ orNone E.maskText,
      ascii "  pad_id  = " ++ pyNat t.pad ++ ascii " " ++ orNone E.padText,
      ascii "  sep_id  = " ++ pyNat t.sep ++ ascii " " ++ orNone E.sepText,
      ascii "  unk_id  = " ++ pyNat t.unk ++ ascii " " ++ orNone E.unkText,
      ascii "  bos_id  = " ++ pyNat t.bos ++ ascii " " ++ orNone E.bosText,
      ascii "  eos_id  = " ++ pyNat t.eos ++ ascii " " ++ orNone E.eosText] := by
  have e1 : ascii "\n[special tokens]\n  cls_id  = " = 10 :: (ascii "[special tokens]" ++ 10 :: ascii "  cls_id  = ") := by
    decide +kernel
  have e2 : ascii "\n  mask_id = " = 10 :: ascii "  mask_id = " := by decide +kernel
  have e3 : ascii "\n  pad_id  = " = 10 :: ascii "  pad_id  = " := by decide +kernel
  have e4 : ascii "\n  sep_id  = " = 10 :: ascii "  sep_id  = " := by decide +kernel
  have e5 : ascii "\n  unk_id  = " = 10 :: ascii "  unk_id  = " := by decide +kernel
  have e6 : ascii "\n" = [10] := by decide +kernel
  have e7 : ascii "\n  bos_id  = " = 10 :: ascii "  bos_id  = " := by decide +kernel
  have e8 : ascii "\n  eos_id  = " = 10 :: ascii "  eos_id  = " := by decide +kernel
  have h := strip_eq (x := lines [ascii "[special tokens]",
      ascii "  cls_id  = " ++ pyNat t.cls ++ ascii " " ++ orNone E.clsText,
      ascii "  mask_id = " ++ pyNat t.mask ++ ascii " " ++ orNone E.maskText,
      ascii "  pad_id  = " ++ pyNat t.pad ++ ascii " " ++ orNone E.padText,
      ascii "  sep_id  = " ++ pyNat t.sep ++ ascii " " ++ orNone E.sepText,
      ascii "  unk_id  = " ++ pyNat t.unk ++ ascii " " ++ orNone E.unkText,
      ascii "  bos_id  = " ++ pyNat t.bos ++ ascii " " ++ orNone E.bosText,
      ascii "  eos_id  = " ++ pyNat t.eos ++ ascii " " ++ orNone E.eosText]) (c := 91) (by
      simp only [lines]; rw [List.head?_append, show (ascii "[special tokens]").head? = some 91 by decide +kernel]; rfl)
      (by decide) (by
      simp only [lines]
      exact .append _ (.cons _ (.append _ (.cons _ (.append _ (.cons _ (.append _ (.cons _ (.append _ (.cons _ (.append _
        (.cons _ (.append _ (.cons _ (.append _ hu)))))))))))))))
  rw [← h]
  unfold robertaSpecialText specialLines
  refine congrArg strip ?_
  simp only [e1, e2, e3, e4, e5, e6, e7, e8, pyText_eq, lines, List.append_assoc, List.cons_append]

theorem optionText_eq (E : Env α) (t : Tokenizer) :
    optionText E t = lines [ascii "[tokenizer params]", ascii "  do_lower_case = " ++ pyOptBool t.lowerCase,
      ascii "  do_basic_tokenize = " ++ pyOptBool t.basic, ascii "  tokenize_chinese_chars = " ++ pyOptBool t.chinese,
      ascii "  never_split = " ++ pyText (t.neverSplit.map E.never), ascii "  strip_accents = " ++ pyOptBool t.strip] := by
  have e1 : ascii "\n[tokenizer params]\n  do_lower_case = " =
      10 :: (ascii "[tokenizer params]" ++ 10 :: ascii "  do_lower_case = ") := by decide +kernel
  have e2 : ascii "\n  do_basic_tokenize = " = 10 :: ascii "  do_basic_tokenize = " := by decide +kernel
  have e3 : ascii "\n  tokenize_chinese_chars = " = 10 :: ascii "  tokenize_chinese_chars = " := by decide +kernel
  have e4 : ascii "\n  never_split = " = 10 :: ascii "  never_split = " := by decide +kernel
  have e5 : ascii "\n  strip_accents = " = 10 :: ascii "  strip_accents = " := by decide +kernel
  have e6 : ascii "\n" = [10] := by decide +kernel
  have h := strip_eq (x := lines [ascii "[tokenizer params]", ascii "  do_lower_case = " ++ pyOptBool t.lowerCase,
      ascii "  do_basic_tokenize = " ++ pyOptBool t.basic, ascii "  tokenize_chinese_chars = " ++ pyOptBool t.chinese,
      ascii "  never_split = " ++ pyText (t.neverSplit.map E.never), ascii "  strip_accents = " ++ pyOptBool t.strip]) (c := 91) (by
      simp only [lines]; rw [List.head?_append, show (ascii "[tokenizer params]").head? = some 91 by decide +kernel]; rfl)
      (by decide) (by
      simp only [lines]
      exact .append _ (.cons _ (.append _ (.cons _ (.append _ (.cons _ (.append _ (.cons _ (.append _ (.cons _ (.append _
        (bool_noTrail _))))))))))))
  rw [← h]
  unfold optionText
  refine congrArg strip ?_
  simp only [e1, e2, e3, e4, e5, e6, lines, List.append_assoc, List.cons_append]

/-! ## Metadata -/

/-- The entry of an optional number. -/
def natList (k : String) : Option Nat → List (List Nat × Kv)
  | none => []
  | some n => [(ascii k, .u32 n)]

theorem u32kv_some {k : String} {n : Nat} {l : List (List Nat × Kv)} (h : u32kv k n = some l) : l = [(ascii k, .u32 n)] := by
  unfold u32kv at h
  split at h
  · exact (Option.some.inj h).symm
  · cases h

theorem optU32_some {k : String} {o : Option Nat} {l : List (List Nat × Kv)} (h : optU32 k o = some l) : l = natList k o := by
  cases o with
  | none => exact (Option.some.inj h).symm
  | some n => exact u32kv_some h

theorem lookup_natList (k' : String) (o : Option Nat) (k : String) :
    lookup (natList k' o) k = if k' = k then o.map Kv.u32 else none := by
  cases o with
  | none => simp [natList, lookup_nil]
  | some b => simp [natList, lookup_cons, lookup_nil]

theorem hparamKv_some {arch act : Nat} {c : Config} {l : List (List Nat × Kv)} (h : hparamKv arch act c = some l) :
    l = hparamList arch act c := by
  unfold hparamKv at h
  simp only [Option.bind_eq_bind, Option.bind_eq_some_iff] at h
  obtain ⟨a1, h1, a2, h2, a3, h3, a4, h4, a5, h5, a6, h6, a7, h7, a8, h8, a9, h9, h⟩ := h
  rw [u32kv_some h1, u32kv_some h2, u32kv_some h3, u32kv_some h4, u32kv_some h5, u32kv_some h6, u32kv_some h7,
    u32kv_some h8, u32kv_some h9] at h
  exact (Option.some.inj h).symm

/-- The entries of the special tokens. -/
def specialNats (t : Tokenizer) : List (List Nat × Kv) :=
  natList "berts.cls_id" t.cls ++ natList "berts.mask_id" t.mask ++ natList "berts.pad_id" t.pad ++
    natList "berts.sep_id" t.sep ++ natList "berts.unk_id" t.unk

theorem specialKv_some {t : Tokenizer} {l : List (List Nat × Kv)} (h : specialKv t = some l) : l = specialNats t := by
  unfold specialKv at h
  simp only [Option.bind_eq_bind, Option.bind_eq_some_iff] at h
  obtain ⟨a1, h1, a2, h2, a3, h3, a4, h4, a5, h5, h⟩ := h
  rw [optU32_some h1, optU32_some h2, optU32_some h3, optU32_some h4, optU32_some h5] at h
  exact (Option.some.inj h).symm

theorem stored_lookup (g : Gguf) (k : String) : stored g k = lookup g.kv k := rfl

theorem idShown_of {g : Gguf} {k : String} {o : Option Nat} (h : stored g k = o.map .u32) : IdShown g k (pyNat o) := by
  cases o with
  | none => exact .inl ⟨h, rfl⟩
  | some n => exact .inr ⟨n, h, rfl⟩

theorem flagShown_of {g : Gguf} {k : String} {o : Option Bool} (h : stored g k = o.map .bool) :
    FlagShown g k (pyOptBool o) := by
  rcases o with _ | _ | _
  · exact .inl ⟨h, rfl⟩
  · exact .inr (.inr ⟨h, rfl⟩)
  · exact .inr (.inl ⟨h, rfl⟩)

theorem sameLetters_lower (a : List Nat) : SameLetters a (lower a) := by
  refine ⟨by simp [lower], fun x hx => ?_⟩
  unfold lower at hx
  rw [List.zip_map_right] at hx
  obtain ⟨⟨y, z⟩, hy, rfl⟩ := List.mem_map.1 hx
  have : y = z := by
    obtain ⟨i, hi⟩ := List.mem_iff_getElem?.1 hy
    rw [List.getElem?_zip_eq_some] at hi
    exact Option.some.inj (hi.1.symm.trans hi.2)
  subst this
  simp only [Prod.map]
  split <;> simp_all

theorem sameLetters_refl (a : List Nat) : SameLetters a a := by
  refine ⟨rfl, fun ⟨y, z⟩ hy => .inl ?_⟩
  obtain ⟨i, hi⟩ := List.mem_iff_getElem?.1 hy
  rw [List.getElem?_zip_eq_some] at hi
  exact Option.some.inj (hi.1.symm.trans hi.2)

theorem act_name {act : List Nat} {n : Nat} (h : actType act = some n) :
    ∃ name, actNames[n]? = some name ∧ SameLetters act (ascii name) := by
  have hs := sameLetters_lower act
  unfold actType at h
  split at h
  · cases h; rename_i e; exact ⟨_, rfl, e ▸ hs⟩
  · split at h
    · cases h; rename_i e; exact ⟨_, rfl, e ▸ hs⟩
    · split at h
      · cases h; rename_i e; exact ⟨_, rfl, e ▸ hs⟩
      · split at h
        · cases h; rename_i e; exact ⟨_, rfl, e ▸ hs⟩
        · cases h

/-- The metadata of a converted file. -/
def metaOf (arch : String) (name : List Nat) (kv : List (List Nat × Kv)) (ft : Nat) : List (List Nat × Kv) :=
  [(ascii "general.architecture", .str (ascii arch)), (ascii "general.name", .str name), (ascii "general.alignment", .u32 32)] ++
    kv ++ [(ascii "general.file_type", .u32 ft)]

theorem bert_some {c : Config} {t : Tokenizer} {kv : List (List Nat × Kv)} (h : writeBert c t = some kv) :
    c.act = ascii "gelu" ∧ (∀ w ws, t.neverSplit ≠ some (w :: ws)) ∧
    kv = hparamList 0 0 c ++ specialNats t ++ optBool "berts.do_lower_case" t.lowerCase ++
      optBool "berts.do_basic_tokenize" t.basic ++ optBool "berts.tokenize_chinese_chars" t.chinese ++
      optBool "berts.strip_accent" t.strip := by
  unfold writeBert at h
  simp only [Option.bind_eq_bind, Option.bind_eq_some_iff] at h
  obtain ⟨k1, h1, h⟩ := h
  rw [hparamKv_some h1] at h
  split at h
  · rename_i hg
    obtain ⟨k2, h2, h⟩ := Option.bind_eq_some_iff.1 h
    rw [specialKv_some h2] at h
    split at h
    · cases h
    · rename_i hn
      exact ⟨hg, fun w ws e => hn w ws e, (Option.some.inj h).symm⟩
  · cases h

theorem roberta_some {c : Config} {t : Tokenizer} {kv : List (List Nat × Kv)} (h : writeRoberta c t = some kv) :
    ∃ act, actType c.act = some act ∧ kv = hparamList 1 act c ++ specialNats t ++ natList "berts.bos_id" t.bos ++
      natList "berts.eos_id" t.eos := by
  unfold writeRoberta at h
  simp only [Option.bind_eq_bind, Option.bind_eq_some_iff] at h
  obtain ⟨act, ha, k1, h1, k2, h2, k3, h3, k4, h4, h⟩ := h
  rw [hparamKv_some h1, specialKv_some h2, optU32_some h3, optU32_some h4] at h
  exact ⟨act, ha, (Option.some.inj h).symm⟩

theorem lookup_natList_nil (k' k : String) : lookup (natList k' none) k = none := rfl

theorem bert_shown (E : Env α) {c : Config} {t : Tokenizer} {kv : List (List Nat × Kv)} (h : writeBert c t = some kv)
    (hf : ∀ x, NoTrail (E.f64 x)) (hu : NoTrail (orNone E.unkText))
    (name : List Nat) (ft : Nat) (dir : List TInfo) (off : Nat) :
    HparamsShown E.f64 ⟨metaOf "BERT" name kv ft, dir, off⟩ (hparamText E "BERT" c) ∧
    SpecialsShown E .bert ⟨metaOf "BERT" name kv ft, dir, off⟩ (bertSpecialText E t) ∧
    OptionsShown ⟨metaOf "BERT" name kv ft, dir, off⟩ (optionText E t) := by
  obtain ⟨hg, _, rfl⟩ := bert_some h
  refine ⟨⟨ascii "BERT", c.act, 0, c.vocabSize, c.hidden, c.layers, c.heads, c.maxPos, c.interm, c.typeVocab, c.eps,
    c.initRange, ?_, ?_, ⟨"gelu", rfl, by rw [hg]; exact sameLetters_refl _⟩, ?_, ?_, ?_, ?_, ?_, ?_, ?_, ?_, ?_,
    hparamText_eq E "BERT" c hf⟩, ⟨pyNat t.cls, pyNat t.mask, pyNat t.pad, pyNat t.sep, pyNat t.unk, pyNat none, pyNat none,
    idShown_of ?_, idShown_of ?_, idShown_of ?_, idShown_of ?_, idShown_of ?_, idShown_of ?_, idShown_of ?_, ?_⟩,
    ⟨_, _, _, _, _, flagShown_of ?_, flagShown_of ?_, flagShown_of ?_, flagShown_of ?_, optionText_eq E t⟩⟩
  all_goals first
    | (simp [HasNat, stored_lookup, metaOf, hparamList, specialNats, lookup_append, lookup_cons, lookup_nil, lookup_natList,
        lookup_optBool]; done)
    | (rw [bertSpecialText_eq E t hu, if_neg (by decide), List.append_nil])

theorem roberta_shown (E : Env α) {c : Config} {t : Tokenizer} {kv : List (List Nat × Kv)} (h : writeRoberta c t = some kv)
    (hf : ∀ x, NoTrail (E.f64 x)) (hu : NoTrail (orNone E.eosText))
    (name : List Nat) (ft : Nat) (dir : List TInfo) (off : Nat) :
    HparamsShown E.f64 ⟨metaOf "RoBERTa" name kv ft, dir, off⟩ (hparamText E "RoBERTa" c) ∧
    SpecialsShown E .roberta ⟨metaOf "RoBERTa" name kv ft, dir, off⟩ (robertaSpecialText E t) := by
  obtain ⟨act, ha, rfl⟩ := roberta_some h
  refine ⟨⟨ascii "RoBERTa", c.act, act, c.vocabSize, c.hidden, c.layers, c.heads, c.maxPos, c.interm, c.typeVocab, c.eps,
    c.initRange, ?_, ?_, act_name ha, ?_, ?_, ?_, ?_, ?_, ?_, ?_, ?_, ?_,
    hparamText_eq E "RoBERTa" c hf⟩, ⟨pyNat t.cls, pyNat t.mask, pyNat t.pad, pyNat t.sep, pyNat t.unk, pyNat t.bos, pyNat t.eos,
    idShown_of ?_, idShown_of ?_, idShown_of ?_, idShown_of ?_, idShown_of ?_, idShown_of ?_, idShown_of ?_, ?_⟩⟩
  all_goals first
    | (simp [HasNat, stored_lookup, metaOf, hparamList, specialNats, lookup_append, lookup_cons, lookup_nil, lookup_natList,
        lookup_optBool]; done)
    | (rw [robertaSpecialText_eq E t hu, if_pos rfl]; rfl)

/-! ## The output -/

theorem writeBertP_yields (E : Env α) {c : Config} {t : Tokenizer} {kv : List (List Nat × Kv)} (h : writeBert c t = some kv) :
    Yields (writeBertP E c t) kv [hparamText E "BERT" c, bertSpecialText E t, optionText E t] := by
  refine ⟨by rw [writeBertP_val, h], ?_⟩
  have hg := (bert_some h).1
  unfold writeBert at h
  simp only [Option.bind_eq_bind, Option.bind_eq_some_iff] at h
  obtain ⟨k1, h1, h⟩ := h
  rw [if_pos hg] at h
  obtain ⟨k2, h2, h⟩ := Option.bind_eq_some_iff.1 h
  unfold writeBertP
  rw [h1, h2, if_pos hg]
  rw [bind_out_some (say_val _), bind_out_some (try_val _), bind_out_some (try_val _), bind_out_some (say_val _),
    bind_out_some (try_val _), bind_out_some (say_val _)]
  split <;> rfl

theorem writeRobertaP_yields (E : Env α) {c : Config} {t : Tokenizer} {kv : List (List Nat × Kv)}
    (h : writeRoberta c t = some kv) :
    Yields (writeRobertaP E c t) kv [hparamText E "RoBERTa" c, robertaSpecialText E t] := by
  refine ⟨by rw [writeRobertaP_val, h], ?_⟩
  unfold writeRoberta at h
  simp only [Option.bind_eq_bind, Option.bind_eq_some_iff] at h
  obtain ⟨act, ha, k1, h1, k2, h2, k3, h3, k4, h4, h⟩ := h
  unfold writeRobertaP
  rw [ha, h2, h3, h4]
  rw [bind_out_some (say_val _), bind_out_some (try_val _), h1, bind_out_some (try_val _), bind_out_some (say_val _),
    bind_out_some (try_val _), bind_out_some (try_val _), bind_out_some (try_val _)]
  rfl

theorem writeVocabP_yields {c : Config} {t : Tokenizer} {ts : List Tensor} (h : writeVocab c t = some ts) :
    Yields (writeVocabP c t) ts [ascii "writing vocab...", lines [ascii "[tokens]", ascii "  total  = " ++ decimal c.vocabSize,
      ascii "  used   = " ++ decimal t.dict.length,
      ascii "  unused = " ++ decimal (((List.range c.vocabSize).filter fun i => i ∉ t.dict.map (·.2)).length)]] := by
  refine ⟨by rw [writeVocabP_val, h], ?_⟩
  unfold writeVocab converterTokens at h
  simp only [Option.bind_eq_bind, Option.bind_eq_some_iff] at h
  obtain ⟨filled, hf, ⟨ls, ds⟩, hb, _⟩ := h
  cases hp : placeTokens (List.replicate c.vocabSize none) t.dict with
  | none => rw [hp] at hf; cases hf
  | some tokens =>
    rw [hp] at hf
    simp only [] at hf
    obtain ⟨u1, u2, u3⟩ := unused_count hp
    unfold writeVocabP
    rw [hp, bind_out_some (say_val _), bind_out_some (try_val _), hf, bind_out_some (try_val _), hb,
      bind_out_some (try_val _)]
    have a1 : add [] ⟨ascii "berts.vocab.size", [ls.length], 16, ls⟩ = some [⟨ascii "berts.vocab.size", [ls.length], 16, ls⟩] := by
      unfold add
      rw [if_neg (by simp)]
      rfl
    have a2 : add [⟨ascii "berts.vocab.size", [ls.length], 16, ls⟩] ⟨ascii "berts.vocab.data", [ds.length], 16, ds⟩ =
        some [⟨ascii "berts.vocab.size", [ls.length], 16, ls⟩, ⟨ascii "berts.vocab.data", [ds.length], 16, ds⟩] := by
      unfold add
      rw [if_neg (by
        show ¬ ascii "berts.vocab.data" ∈ [ascii "berts.vocab.size"]
        rw [List.mem_singleton]
        exact vocab_names_ne)]
      rfl
    simp only []
    rw [a1, bind_out_some (try_val _), a2, bind_out_some (try_val _), bind_out_some (say_val _), tokenText_eq, u1, u2, u3]
    rfl

theorem mergeData_length (dict : List (List Nat × Nat)) (rs : List ((List Nat × List Nat) × Nat)) {l : List Nat}
    (h : mergeData dict rs = some l) : l.length = 3 * rs.length := by
  induction rs generalizing l with
  | nil => cases h; rfl
  | cons r rs ih =>
    obtain ⟨⟨a, b⟩, k⟩ := r
    simp only [mergeData, Option.bind_eq_bind, Option.bind_eq_some_iff] at h
    obtain ⟨⟨_, i⟩, _, ⟨_, j⟩, _, l', hl, h⟩ := h
    cases Option.some.inj h
    have := ih hl
    simp only [List.length_cons]
    omega

/-- What the merges print. -/
def mergeOut (t : Tokenizer) : List (List Nat) :=
  match t.ranks with
  | none => []
  | some rs => [ascii "writing bpe merges...", lines [ascii "[merges]", ascii "  total = " ++ decimal rs.length]]

theorem writeMergeP_yields {t : Tokenizer} {ts ms r : List Tensor} (h : writeMerge t = some ms) (hr : addAll ts ms = some r) :
    Yields (writeMergeP t ts) r (mergeOut t) := by
  refine ⟨by rw [writeMergeP_val, h]; exact hr, ?_⟩
  unfold writeMerge at h
  unfold writeMergeP mergeOut
  cases ht : t.ranks with
  | none => rfl
  | some rs =>
    rw [ht] at h
    simp only [Option.bind_eq_bind, Option.bind_eq_some_iff] at h
    obtain ⟨l, hl, h⟩ := h
    split at h
    · rename_i ha
      cases Option.some.inj h
      simp only []
      rw [bind_out_some (say_val _), hl, bind_out_some (try_val _), if_pos ha, bind_out_some (try_val _)]
      have : add ts ⟨ascii "berts.merge.data", [l.length], 18, l.flatMap (Quantize.le 4)⟩ = some r := by
        simp only [addAll] at hr
        obtain ⟨x, hx, hy⟩ := Option.bind_eq_some_iff.1 hr
        rw [hx]; exact hy
      rw [this, bind_out_some (try_val _), bind_out_some (say_val _), mergeText_eq]
      rfl
    · cases h

theorem writeBlobs_length (ts : List (List Nat)) {ls ds : List Nat} (h : writeBlobs ts = some (ls, ds)) :
    ls.length = ts.length := by
  induction ts generalizing ls ds with
  | nil => cases h; rfl
  | cons t ts ih =>
    rw [writeBlobs] at h
    split at h
    · cases h
    · cases hb : writeBlobs ts with
      | none => rw [hb] at h; simp at h
      | some b =>
        obtain ⟨ls', ds'⟩ := b
        rw [hb] at h
        simp at h
        rw [← h.1, List.length_cons, List.length_cons, ih hb]

/-- The tensors of the vocabulary. -/
theorem vocab_form {c : Config} {t : Tokenizer} {vs : List Tensor} (h : writeVocab c t = some vs) :
    ∃ ls ds, vs = [⟨ascii "berts.vocab.size", [c.vocabSize], 16, ls⟩, ⟨ascii "berts.vocab.data", [ds.length], 16, ds⟩] := by
  unfold writeVocab converterTokens at h
  simp only [Option.bind_eq_bind, Option.bind_eq_some_iff] at h
  obtain ⟨filled, hf, ⟨ls, ds⟩, hb, h⟩ := h
  cases Option.some.inj h
  cases hp : placeTokens (List.replicate c.vocabSize none) t.dict with
  | none => rw [hp] at hf; cases hf
  | some tokens =>
    rw [hp] at hf
    simp only [] at hf
    obtain ⟨u1, _⟩ := unused_count hp
    obtain ⟨out, ho, hl, _⟩ := Vocab.fillLoop_spec tokens tokens 0
    rw [hf] at ho
    cases Option.some.inj ho
    have := writeBlobs_length _ hb
    refine ⟨ls, ds, ?_⟩
    rw [this, hl, u1]

/-- The tensor of the merges. -/
theorem merge_form {t : Tokenizer} {ms : List Tensor} (h : writeMerge t = some ms) :
    match t.ranks with
    | none => ms = []
    | some rs => ∃ d, ms = [⟨ascii "berts.merge.data", [3 * rs.length], 18, d⟩] := by
  unfold writeMerge at h
  cases ht : t.ranks with
  | none => rw [ht] at h; exact (Option.some.inj h).symm
  | some rs =>
    rw [ht] at h
    simp only [Option.bind_eq_bind, Option.bind_eq_some_iff] at h
    obtain ⟨l, hl, h⟩ := h
    split at h
    · cases Option.some.inj h
      exact ⟨_, by rw [mergeData_length _ _ hl]⟩
    · cases h

/-- The parameters that are written, with their names. -/
def written (s : Source α) : List (List Nat × Param α) :=
  s.state.map (fun p => (p.key, p)) ++
    (s.lm.filter fun p => lmKey s.cls p.key ≠ ascii "predictions.bias").map fun p => (lmKey s.cls p.key, p)

theorem written_tensors (enc : Bool → List α → List Nat) (f16 : Bool) (s : Source α) :
    stateTensors enc f16 s.state ++ lmTensors enc f16 s.cls s.lm =
      (written s).map fun x => convTensor enc f16 (ascii "berts.bert." ++ x.1) x.2 := by
  unfold written stateTensors lmTensors
  rw [List.map_append, List.map_map, List.map_map]
  rfl

theorem written_params (s : Source α) : (written s).map (·.2) = s.state ++ s.lm.filter fun p => !isBias s.cls p := by
  unfold written
  rw [List.map_append, List.map_map, List.map_map, show ((fun x : List Nat × Param α => x.2) ∘ fun p : Param α => (p.key, p)) = id from rfl,
    show ((fun x : List Nat × Param α => x.2) ∘ fun p : Param α => (lmKey s.cls p.key, p)) = id from rfl, List.map_id, List.map_id]
  congr 1
  apply List.filter_congr
  intro p _
  have := bias_iff s.cls p
  by_cases hb : lmKey s.cls p.key = ascii "predictions.bias"
  · rw [this.1 hb]; simp [hb]
  · have : isBias s.cls p = false := by
      cases hx : isBias s.cls p with
      | false => rfl
      | true => exact absurd (this.2 hx) hb
    rw [this]; simp [hb]

theorem convertP_out {E : Env α} {enc : Bool → List α → List Nat} {f16 : Bool} {header : List Nat} {s : Source α}
    {arch : String} {kv : List (List Nat × Kv)} {mo : List (List Nat)} {vs ms : List Tensor}
    (hm : Yields (match s.cls with
      | .bert => do let kv ← writeBertP E s.config s.tok; pure ("BERT", kv)
      | .roberta => do let kv ← writeRobertaP E s.config s.tok; pure ("RoBERTa", kv)
      | .other => try' none) (arch, kv) mo)
    (hv : writeVocab s.config s.tok = some vs) (hms : writeMerge s.tok = some ms)
    (hn : ((vs ++ ms ++ (stateTensors enc f16 s.state ++ lmTensors enc f16 s.cls s.lm)).map (·.name)).Nodup) :
    (convertP E enc f16 header s).out = [ascii "start quantization", ascii "model loaded: " ++ s.name] ++ mo ++
      [ascii "writing vocab...", lines [ascii "[tokens]", ascii "  total  = " ++ decimal s.config.vocabSize,
        ascii "  used   = " ++ decimal s.tok.dict.length,
        ascii "  unused = " ++ decimal (((List.range s.config.vocabSize).filter fun i => i ∉ s.tok.dict.map (·.2)).length)]] ++
      mergeOut s.tok ++ [ascii "converting..."] ++ (written s).map (fun x => paramText E f16 x.1 x.2) ++
      [totalText (((s.state ++ s.lm).map (sizeOrg E)).sum) (((s.state ++ s.lm).map (sizeNew f16)).sum),
        ascii "quantization completed"] := by
  have hvn := vocab_nodup hv
  have h1 := addAll_eq vs (ms ++ (stateTensors enc f16 s.state ++ lmTensors enc f16 s.cls s.lm)) hvn
  rw [← List.append_assoc vs, if_pos hn, addAll_append] at h1
  obtain ⟨a, ha, h1⟩ := Option.bind_eq_some_iff.1 h1
  rw [addAll_append] at h1
  obtain ⟨b, hb, h1⟩ := Option.bind_eq_some_iff.1 h1
  have y1 : (stateLoop E enc f16 s.state ⟨a, 0, 0⟩).val = some ⟨b, (s.state.map (sizeOrg E)).sum, (s.state.map (sizeNew f16)).sum⟩ := by
    rw [stateLoop_val, hb]
    simp
  have y2 : (lmLoop E enc f16 s.cls s.lm ⟨b, (s.state.map (sizeOrg E)).sum, (s.state.map (sizeNew f16)).sum⟩).val =
      some ⟨vs ++ ms ++ (stateTensors enc f16 s.state ++ lmTensors enc f16 s.cls s.lm),
        ((s.state ++ s.lm).map (sizeOrg E)).sum, ((s.state ++ s.lm).map (sizeNew f16)).sum⟩ := by
    rw [lmLoop_val]
    simp only []
    rw [h1]
    simp
  have w1 := stateLoop_out E enc f16 s.state _ y1
  have w2 := lmLoop_out E enc f16 s.cls s.lm _ y2
  have hV := writeVocabP_yields hv
  have hM := writeMergeP_yields hms ha
  have key : ∃ c, Yields (convertP E enc f16 header s) c (ascii "start quantization" :: (ascii "model loaded: " ++ s.name) :: (mo ++
      ([ascii "writing vocab...", lines [ascii "[tokens]", ascii "  total  = " ++ decimal s.config.vocabSize,
        ascii "  used   = " ++ decimal s.tok.dict.length,
        ascii "  unused = " ++ decimal (((List.range s.config.vocabSize).filter fun i => i ∉ s.tok.dict.map (·.2)).length)]] ++
      (mergeOut s.tok ++ (ascii "converting..." :: (s.state.map (fun p => paramText E f16 p.key p) ++
      (((s.lm.filter fun p => lmKey s.cls p.key ≠ ascii "predictions.bias").map fun p =>
          paramText E f16 (lmKey s.cls p.key) p) ++
      (totalText (((s.state ++ s.lm).map (sizeOrg E)).sum) (((s.state ++ s.lm).map (sizeNew f16)).sum) ::
        ascii "quantization completed" :: [])))))))) := by
    unfold convertP
    apply Exists.intro
    exact Yields.say (Yields.say (Yields.bind hm (Yields.bind hV (Yields.bind hM (Yields.say (Yields.bind ⟨y1, w1⟩
      (Yields.bind ⟨y2, w2⟩ (Yields.say (Yields.say (Yields.pure _))))))))))
  obtain ⟨c, hc⟩ := key
  rw [hc.2]
  simp only [written, List.map_append, List.map_map, List.append_assoc, List.cons_append, List.nil_append, Function.comp_def]

theorem lmKey_lead {cls : Cls} {k : List Nat} (h : NoLead k) (hn : k ≠ []) : NoLead (lmKey cls k) ∧ lmKey cls k ≠ [] := by
  have hp : ∀ s : String, (ascii s).head? = some 112 → NoLead (ascii s) ∧ ascii s ≠ [] := by
    intro s hs
    refine ⟨fun c hc => ?_, fun e => ?_⟩
    · rw [hs] at hc
      cases hc
      omega
    · rw [e] at hs
      cases hs
  unfold lmKey renameLm
  split
  · repeat' split
    all_goals first
      | exact ⟨h, hn⟩
      | exact hp _ (by decide +kernel)
  · exact ⟨h, hn⟩

theorem shown_tensor (E : Env α) {enc : Bool → List α → List Nat}
    (he : ∀ q xs, (enc q xs).length = xs.length * if q then 2 else 4) (f16 : Bool) {key : List Nat} (hk : NoLead key)
    (hn : key ≠ []) (p : Param α) {t : Tensor} (ht : t = convTensor enc f16 (ascii "berts.bert." ++ key) p) (o : Nat) :
    TensorShown ⟨t.name, t.ne.length, t.ne, t.type, t.data.length, o⟩ (bytesOf E p) (paramText E f16 key p) := by
  subst ht
  refine ⟨key, fixed1 (sizeOrg E p) 1024, fixed1 (sizeNew f16 p) 1024, rfl, oneDecimal _ _ (by decide), ?_, ?_⟩
  · simp only [conv_size he]
    exact oneDecimal _ _ (by decide)
  · rw [paramText_eq E f16 hk hn]
    have ht : (convTensor enc f16 (ascii "berts.bert." ++ key) p).type = if quantized f16 p then 1 else 0 := rfl
    have h1 : (if (convTensor enc f16 (ascii "berts.bert." ++ key) p).type = 1 then ascii "True" else ascii "False") =
        pyBool (quantized f16 p) := by
      unfold pyBool
      by_cases hq : quantized f16 p = true
      · rw [if_pos hq, if_pos (by rw [ht, if_pos hq])]
      · rw [if_neg hq, if_neg (by rw [ht, if_neg hq]; decide)]
    have h2 : (convTensor enc f16 (ascii "berts.bert." ++ key) p).ne.length = (squeeze p.shape).length := by
      show (squeeze p.shape).reverse.length = _
      rw [List.length_reverse]
    simp only []
    rw [h1, h2]

theorem reported {E : Env α} {enc : Bool → List α → List Nat} {f16 : Bool} {header : List Nat} {s : Source α}
    (hE : EnvOk E enc s) {g : Gguf} {bytes : List Nat} (h : convert enc f16 header s = some (g, bytes)) :
    Reported E s g (convertP E enc f16 header s).out := by
  unfold convert at h
  simp only [Option.bind_eq_bind, Option.bind_eq_some_iff] at h
  obtain ⟨⟨arch, kv⟩, ha, vs, hv, ms, hms, h⟩ := h
  split at h
  · rename_i hn
    have hg := congrArg Prod.fst (Option.some.inj h)
    simp only [] at hg
    simp only [List.append_assoc] at hn
    rw [← List.append_assoc vs] at hn
    -- the part that depends on the architecture
    have hmeta : ∃ hp sp op, Yields (match s.cls with
        | .bert => do let kv ← writeBertP E s.config s.tok; pure ("BERT", kv)
        | .roberta => do let kv ← writeRobertaP E s.config s.tok; pure ("RoBERTa", kv)
        | .other => try' none) (arch, kv) ([hp, sp] ++ op) ∧
        HparamsShown E.f64 g hp ∧ SpecialsShown E s.cls g sp ∧
        (if s.cls = .bert then ∃ o, op = [o] ∧ OptionsShown g o else op = []) ∧
        HasNat g "berts.vocab_size" s.config.vocabSize := by
      cases hc : s.cls with
      | other => rw [hc] at ha; cases ha
      | bert =>
        rw [hc] at ha
        obtain ⟨kv', hb, he⟩ := Option.bind_eq_some_iff.1 ha
        cases Option.some.inj he
        have hs := bert_shown E hb hE.f64 hE.unk s.name (if f16 then 1 else 0)
          (directory 0 (vs ++ ms ++ stateTensors enc f16 s.state ++ lmTensors enc f16 s.cls s.lm)) header.length
        have hy := writeBertP_yields E hb
        rw [← hg]
        refine ⟨_, _, [optionText E s.tok], ?_, hs.1, hs.2.1, ?_, ?_⟩
        · have := Yields.bind hy (f := fun kv => (Pure.pure ("BERT", kv) : Py (String × List (List Nat × Kv)))) (Yields.pure _)
          simpa using this
        · rw [if_pos rfl]; exact ⟨_, rfl, hs.2.2⟩
        · obtain ⟨_, _, rfl⟩ := bert_some hb
          simp [HasNat, stored_lookup, hparamList, lookup_cons]
      | roberta =>
        rw [hc] at ha
        obtain ⟨kv', hb, he⟩ := Option.bind_eq_some_iff.1 ha
        cases Option.some.inj he
        have hs := roberta_shown E hb hE.f64 hE.eos s.name (if f16 then 1 else 0)
          (directory 0 (vs ++ ms ++ stateTensors enc f16 s.state ++ lmTensors enc f16 s.cls s.lm)) header.length
        have hy := writeRobertaP_yields E hb
        rw [← hg]
        refine ⟨_, _, [], ?_, hs.1, hs.2, ?_, ?_⟩
        · have := Yields.bind hy (f := fun kv => (Pure.pure ("RoBERTa", kv) : Py (String × List (List Nat × Kv)))) (Yields.pure _)
          simpa using this
        · rw [if_neg (by decide)]
        · obtain ⟨_, _, rfl⟩ := roberta_some hb
          simp [HasNat, stored_lookup, hparamList, lookup_cons]
    obtain ⟨hp, sp, op, hy, h1, h2, h3, h4⟩ := hmeta
    have hout := convertP_out (header := header) hy hv hms hn
    obtain ⟨ls, ds, hvf⟩ := vocab_form hv
    have hmf := merge_form hms
    obtain ⟨off, hdir⟩ := directory_append 0 (vs ++ ms) (stateTensors enc f16 s.state ++ lmTensors enc f16 s.cls s.lm)
    have hgd : g.dir = directory 0 (vs ++ ms) ++ directory off (stateTensors enc f16 s.state ++ lmTensors enc f16 s.cls s.lm) := by
      rw [← hg, ← hdir]
      simp only [List.append_assoc]
    have hq := written_params s
    have hwt := written_tensors enc f16 s
    have hwl : (directory off (stateTensors enc f16 s.state ++ lmTensors enc f16 s.cls s.lm)).length = (written s).length := by
      rw [directory_length, hwt, List.length_map]
    have hnames : (directory 0 (vs ++ ms)).map (·.name) = [ascii "berts.vocab.size", ascii "berts.vocab.data"] ++
        (if s.tok.ranks.isSome then [ascii "berts.merge.data"] else []) := by
      rw [Convert.directory_names, hvf]
      cases hr : s.tok.ranks with
      | none => rw [hr] at hmf; rw [hmf]; rfl
      | some rs =>
        rw [hr] at hmf
        obtain ⟨d, hd⟩ := hmf
        rw [hd]
        rfl
    refine ⟨hp, sp, op, _, mergeOut s.tok, (written s).map (fun x => paramText E f16 x.1 x.2),
      totalText (((s.state ++ s.lm).map (sizeOrg E)).sum) (((s.state ++ s.lm).map (sizeNew f16)).sum), directory 0 (vs ++ ms),
      directory off (stateTensors enc f16 s.state ++ lmTensors enc f16 s.cls s.lm), _, _, ?_, h1, h2, h3,
      ⟨s.config.vocabSize, h4, ⟨⟨ascii "berts.vocab.size", 1, [s.config.vocabSize], 16, ls.length, 0⟩, ?_, rfl, rfl⟩, rfl⟩, ?_, hgd, ?_,
      ⟨?_, ?_, ?_⟩, rfl, rfl, ?_⟩
    · rw [hout]
      simp only [List.append_assoc]
    · rw [hgd, hvf]
      exact List.mem_append_left _ List.mem_cons_self
    · unfold mergeOut
      cases hr : s.tok.ranks with
      | none => rfl
      | some rs =>
        rw [hr] at hmf
        obtain ⟨d, hd⟩ := hmf
        refine ⟨_, rfl, ?_, rfl⟩
        rw [hgd, hvf, hd]
        exact ⟨_, List.mem_append_left _ (List.mem_cons_of_mem _ (List.mem_cons_of_mem _ List.mem_cons_self)), rfl, rfl⟩
    · exact hnames
    · rw [← hq, List.length_map, hwl]
    · rw [List.length_map, hwl]
    · intro i p w m e1 e2 e3
      rw [← hq, List.getElem?_map] at e1
      rw [List.getElem?_map] at e3
      obtain ⟨t, o, e4, rfl⟩ := directory_get _ _ _ e2
      rw [hwt, List.getElem?_map] at e4
      cases hx : (written s)[i]? with
      | none => rw [hx] at e1; cases e1
      | some x =>
        rw [hx] at e1 e3 e4
        cases e1
        cases e3
        have hmem := List.mem_of_getElem? hx
        have hkey : NoLead x.1 ∧ x.1 ≠ [] := by
          unfold written at hmem
          rcases List.mem_append.1 hmem with hm | hm
          · obtain ⟨p, hp, rfl⟩ := List.mem_map.1 hm
            exact hE.keys p (List.mem_append_left _ hp)
          · obtain ⟨p, hp, rfl⟩ := List.mem_map.1 hm
            have := hE.keys p (List.mem_append_right _ (List.mem_filter.1 hp).1)
            exact lmKey_lead this.1 this.2
        exact shown_tensor E hE.enc f16 hkey.1 hkey.2 x.2 (Option.some.inj e4).symm o
    · have hnew : ((s.state ++ s.lm).map (sizeNew f16)).sum =
          weightBytes g + ((s.lm.filter (isBias s.cls)).map fun p => 4 * p.elems.length).sum := by
        have hf1 : (directory 0 (vs ++ ms)).filter (fun t => (ascii "berts.bert.").isPrefixOf t.name) = [] := by
          rw [List.filter_eq_nil_iff]
          intro t ht
          have hn : t.name ∈ (directory 0 (vs ++ ms)).map (·.name) := List.mem_map_of_mem ht
          rw [hnames] at hn
          have : t.name ∈ [ascii "berts.vocab.size", ascii "berts.vocab.data", ascii "berts.merge.data"] := by
            split at hn
            · exact hn
            · rw [List.append_nil] at hn
              exact List.mem_append_left [ascii "berts.merge.data"] hn
          have hall : ∀ n ∈ [ascii "berts.vocab.size", ascii "berts.vocab.data", ascii "berts.merge.data"],
              ¬ (ascii "berts.bert.").isPrefixOf n = true := by decide +kernel
          exact hall _ this
        have hf2 : (directory off (stateTensors enc f16 s.state ++ lmTensors enc f16 s.cls s.lm)).filter
            (fun t => (ascii "berts.bert.").isPrefixOf t.name) =
            directory off (stateTensors enc f16 s.state ++ lmTensors enc f16 s.cls s.lm) := by
          rw [List.filter_eq_self]
          intro t ht
          have hn : t.name ∈ (directory off (stateTensors enc f16 s.state ++ lmTensors enc f16 s.cls s.lm)).map (·.name) :=
            List.mem_map_of_mem ht
          rw [Convert.directory_names, hwt, List.map_map] at hn
          obtain ⟨x, _, hx⟩ := List.mem_map.1 hn
          rw [← hx]
          exact List.isPrefixOf_iff_prefix.2 (List.prefix_append _ _)
        unfold weightBytes
        rw [hgd, List.filter_append, hf1, hf2, List.nil_append, directory_nbytes, hwt, List.map_map,
          show ((fun t : Tensor => t.data.length) ∘ fun x : List Nat × Param α => convTensor enc f16 (ascii "berts.bert." ++ x.1) x.2) =
            (sizeNew f16) ∘ (fun x => x.2) from funext fun x => conv_size hE.enc f16 _ _, ← List.map_map, hq,
          List.map_append, List.sum_append, List.map_append, List.sum_append, sum_filter s.lm (sizeNew f16) (isBias s.cls),
          Nat.add_assoc]
        congr 3
        exact List.map_congr_left fun p hp => bias_size f16 (List.mem_filter.1 hp).2
      rw [← hnew]
      exact ⟨_, _, oneDecimal _ _ (by decide), oneDecimal _ _ (by decide), totalText_eq _ _⟩
  · cases h

/-! ## What a total tells -/

theorem cut_eq {c : Nat} {x y r r' : List Nat} (hx : c ∉ x) (hy : c ∉ y) (h : x ++ c :: r = y ++ c :: r') : x = y ∧ r = r' := by
  induction x generalizing y with
  | nil =>
    cases y with
    | nil => exact ⟨rfl, (List.cons.inj h).2⟩
    | cons b y => exact absurd (List.mem_cons_self) ((List.cons.inj h).1 ▸ hy)
  | cons a x ih =>
    cases y with
    | nil => exact absurd (List.mem_cons_self) ((List.cons.inj h).1 ▸ hx)
    | cons b y =>
      obtain ⟨h1, h2⟩ := List.cons.inj h
      obtain ⟨h3, h4⟩ := ih (fun m => hx (List.mem_cons_of_mem _ m)) (fun m => hy (List.mem_cons_of_mem _ m)) h2
      exact ⟨by rw [h1, h3], h4⟩

theorem decimal_digits (n : Nat) : ∀ c ∈ decimal n, 48 ≤ c ∧ c ≤ 57 := by
  induction n using Nat.strongRecOn with
  | ind n ih =>
    unfold decimal
    split
    · intro c hc
      rw [List.mem_singleton] at hc
      omega
    · intro c hc
      rcases List.mem_append.1 hc with hc | hc
      · exact ih (n / 10) (by omega) c hc
      · rw [List.mem_singleton] at hc
        omega

theorem oneDecimal_chars {n d : Nat} {t : List Nat} (h : OneDecimal n d t) : ∀ c ∈ t, 46 ≤ c ∧ c ≤ 57 := by
  obtain ⟨q, rfl, _⟩ := h
  intro c hc
  rcases List.mem_append.1 hc with hc | hc
  · have := decimal_digits _ c hc
    omega
  · simp at hc
    omega

theorem oneDecimal_close {n n' d : Nat} {t : List Nat} (h : OneDecimal n d t) (h' : OneDecimal n' d t) :
    10 * n ≤ 10 * n' + d := by
  obtain ⟨q, e, h1, h2⟩ := h
  obtain ⟨q', e', h3, h4⟩ := h'
  rw [e] at e'
  have h5 : decimal (q / 10) = decimal (q' / 10) ∧ [48 + q % 10] = [48 + q' % 10] := by
    refine cut_eq (c := 46) ?_ ?_ e'
    · intro hc; have := decimal_digits _ _ hc; omega
    · intro hc; have := decimal_digits _ _ hc; omega
  have h6 : q / 10 = q' / 10 := by
    rw [← Vocab.digitsVal_decimal (q / 10), h5.1, Vocab.digitsVal_decimal]
  have h7 := List.cons.inj h5.2
  have h8 : q = q' := by omega
  subst h8
  have e1 : (2 * q + 1) * d = 2 * q * d + d := by rw [Nat.add_mul, Nat.one_mul]
  omega

theorem total_close {org new org' new' : Nat} {m : List Nat} (h : TotalShown org new m) (h' : TotalShown org' new' m) :
    10 * new ≤ 10 * new' + 2 ^ 20 := by
  obtain ⟨a, b, h1, h2, e⟩ := h
  obtain ⟨a', b', h1', h2', e'⟩ := h'
  rw [e] at e'
  simp only [lines] at e'
  have h10 : ∀ {n d : Nat} {t : List Nat} (s : String), OneDecimal n d t → 10 ∉ ascii s → 10 ∉ ascii s ++ t ++ ascii " MiB" := by
    intro n d t s ht hs hm
    rcases List.mem_append.1 hm with hm | hm
    · rcases List.mem_append.1 hm with hm | hm
      · exact hs hm
      · have := oneDecimal_chars ht _ hm
        omega
    · exact absurd hm (by decide +kernel)
  have s1 := (cut_eq (by decide) (by decide) e').2
  have s2 := (cut_eq (h10 "original size  = " h1 (by decide +kernel)) (h10 "original size  = " h1' (by decide +kernel)) s1).2
  have s3 := (cut_eq (h10 "quantized size = " h2 (by decide +kernel)) (h10 "quantized size = " h2' (by decide +kernel)) s2).1
  rw [List.append_assoc, List.append_assoc] at s3
  have s4 := List.append_cancel_right (List.append_cancel_left s3)
  subst s4
  exact oneDecimal_close h2 h2'

theorem le_sum {l : List Nat} {n : Nat} (h : n ∈ l) : n ≤ l.sum := by
  induction l with
  | nil => cases h
  | cons a l ih =>
    rw [List.sum_cons]
    rcases List.mem_cons.1 h with h | h
    · omega
    · have := ih h
      omega

/-! ## The last message -/

/-- None of the messages is `t`. -/
def Before (t : List Nat) (out : List (List Nat)) : Prop := ∀ m ∈ out, m ≠ t

theorem strip_head {c : Nat} {l : List Nat} (hc : isBlank c = false) : (strip (10 :: c :: l)).head? = some c := by
  unfold strip
  rw [List.dropWhile_cons_of_pos (by decide), List.dropWhile_cons_of_neg (by simp [hc]), List.reverse_cons]
  generalize l.reverse = r
  induction r with
  | nil => rw [List.nil_append, List.dropWhile_cons_of_neg (by simp [hc])]; rfl
  | cons a r ih =>
    rw [List.cons_append, List.dropWhile_cons]
    split
    · exact ih
    · simp

theorem dropWhile_append_last {p : Nat → Bool} {x : List Nat} {c : Nat} (r : List Nat) (hc : p c = false) :
    ∃ y, (x ++ c :: r).dropWhile p = y ++ c :: r := by
  induction x with
  | nil => exact ⟨[], by rw [List.nil_append, List.dropWhile_cons_of_neg (by simp [hc])]⟩
  | cons a x ih =>
    rw [List.cons_append, List.dropWhile_cons]
    split
    · exact ih
    · exact ⟨a :: x, rfl⟩

theorem strip_last {x : List Nat} {c : Nat} (hc : isBlank c = false) : (strip (x ++ [c, 10])).getLast? = some c := by
  unfold strip
  obtain ⟨y, hy⟩ := dropWhile_append_last (x := x) [10] hc
  rw [hy, List.reverse_append]
  show ((List.dropWhile isBlank ([10, c] ++ y.reverse)).reverse).getLast? = _
  rw [List.cons_append, List.dropWhile_cons_of_pos (by decide), List.cons_append, List.dropWhile_cons_of_neg (by simp [hc])]
  simp

/-- A message that no other is. -/
def Single (t : List Nat) : Prop := t.head? ≠ some 91 ∧ t ≠ ascii "start quantization" ∧ t.head? ≠ some 109

theorem completed_last : (ascii "quantization completed").getLast? = some 100 := by decide +kernel

theorem ne_of_head {t m : List Nat} {c : Nat} (h : m.head? = some c) (hc : t.head? ≠ some c) : m ≠ t := by
  intro e
  rw [e] at h
  exact hc h

theorem bracket_ne {t : List Nat} (ht : Single t) {x : String} {l : List Nat} (h : (ascii x).head? = some 10)
    (h' : (ascii x).tail.head? = some 91) : strip (ascii x ++ l) ≠ t := by
  obtain ⟨r, hr⟩ : ∃ r, ascii x = 10 :: 91 :: r := by
    rcases hx : ascii x with _ | ⟨a, _ | ⟨b, r⟩⟩
    · rw [hx] at h; cases h
    · rw [hx] at h'; cases h'
    · rw [hx] at h h'
      cases h
      cases h'
      exact ⟨r, rfl⟩
  rw [hr]
  exact ne_of_head (strip_head (by decide)) ht.1

theorem hparamText_ne {t : List Nat} (ht : Single t) (E : Env α) (a : String) (c : Config) : hparamText E a c ≠ t := by
  unfold hparamText
  simp only [List.append_assoc]
  exact bracket_ne ht (by decide +kernel) (by decide +kernel)

theorem bertSpecialText_ne {t : List Nat} (ht : Single t) (E : Env α) (k : Tokenizer) : bertSpecialText E k ≠ t := by
  unfold bertSpecialText specialLines
  simp only [List.append_assoc]
  exact bracket_ne ht (by decide +kernel) (by decide +kernel)

theorem robertaSpecialText_ne {t : List Nat} (ht : Single t) (E : Env α) (k : Tokenizer) : robertaSpecialText E k ≠ t := by
  unfold robertaSpecialText specialLines
  simp only [List.append_assoc]
  exact bracket_ne ht (by decide +kernel) (by decide +kernel)

theorem optionText_ne {t : List Nat} (ht : Single t) (E : Env α) (k : Tokenizer) : optionText E k ≠ t := by
  unfold optionText
  simp only [List.append_assoc]
  exact bracket_ne ht (by decide +kernel) (by decide +kernel)

theorem tokenText_ne {t : List Nat} (ht : Single t) (a b : Nat) : tokenText a b ≠ t := by
  unfold tokenText
  simp only [List.append_assoc]
  exact bracket_ne ht (by decide +kernel) (by decide +kernel)

theorem mergeText_ne {t : List Nat} (ht : Single t) (a : Nat) : mergeText a ≠ t := by
  unfold mergeText
  simp only [List.append_assoc]
  exact bracket_ne ht (by decide +kernel) (by decide +kernel)

theorem paramText_ne (E : Env α) (f16 : Bool) (key : List Nat) (p : Param α) :
    paramText E f16 key p ≠ ascii "quantization completed" := by
  intro e
  unfold paramText at e
  rw [show ascii " KiB\n" = ascii " Ki" ++ [66, 10] by decide +kernel, ← List.append_assoc] at e
  have := strip_last (x := ascii "\n" ++ key ++ ascii ":\n  quantized = " ++ pyBool (quantized f16 p) ++
    ascii "\n  n_dims = " ++ decimal (squeeze p.shape).length ++
    ascii "\n  size = " ++ fixed1 (sizeOrg E p) 1024 ++ ascii " KiB -> " ++
    fixed1 (sizeNew f16 p) 1024 ++ ascii " Ki") (c := 66) (by decide)
  rw [e, completed_last] at this
  cases this

theorem totalText_ne (a b : Nat) : totalText a b ≠ ascii "quantization completed" := by
  unfold totalText
  simp only [List.append_assoc]
  rw [show ascii "\n" = [10] by decide +kernel, show rule = 61 :: List.replicate 39 61 from rfl]
  simp only [List.cons_append, List.nil_append]
  exact ne_of_head (strip_head (by decide)) (by decide +kernel)

theorem before_say {t m : List Nat} (h : m ≠ t) : Before t (say m).out := by
  intro x hx
  rw [say_out, List.mem_singleton] at hx
  rw [hx]
  exact h

theorem before_nil {t : List Nat} : Before t [] := fun _ h => absurd h (List.not_mem_nil)

theorem before_bind {t : List Nat} {x : Py β} {f : β → Py γ} (h : Before t x.out) (hf : ∀ b, Before t (f b).out) :
    Before t (x >>= f).out := by
  cases hx : x.val with
  | none => rw [bind_out_none hx]; exact h
  | some b =>
    rw [bind_out_some hx]
    intro m hm
    rcases List.mem_append.1 hm with hm | hm
    · exact h m hm
    · exact hf b m hm

theorem before_bert {t : List Nat} (ht : Single t) (E : Env α) (c : Config) (k : Tokenizer) :
    Before t (writeBertP E c k).out := by
  unfold writeBertP
  refine before_bind (before_say (hparamText_ne ht _ _ _)) fun _ => before_bind before_nil fun _ => before_bind before_nil fun _ =>
    before_bind (before_say (bertSpecialText_ne ht _ _)) fun _ => before_bind before_nil fun _ =>
    before_bind (before_say (optionText_ne ht _ _)) fun _ => ?_
  split <;> exact before_nil

theorem before_roberta {t : List Nat} (ht : Single t) (E : Env α) (c : Config) (k : Tokenizer) :
    Before t (writeRobertaP E c k).out := by
  unfold writeRobertaP
  exact before_bind (before_say (hparamText_ne ht _ _ _)) fun _ => before_bind before_nil fun _ => before_bind before_nil fun _ =>
    before_bind (before_say (robertaSpecialText_ne ht _ _)) fun _ => before_bind before_nil fun _ => before_bind before_nil fun _ =>
    before_bind before_nil fun _ => before_nil

theorem before_vocab {t : List Nat} (ht : Single t) (hv : ascii "writing vocab..." ≠ t) (c : Config) (k : Tokenizer) :
    Before t (writeVocabP c k).out := by
  unfold writeVocabP
  exact before_bind (before_say hv) fun _ => before_bind before_nil fun _ => before_bind before_nil fun _ =>
    before_bind before_nil fun _ => before_bind before_nil fun _ => before_bind before_nil fun _ =>
    before_bind (before_say (tokenText_ne ht _ _)) fun _ => before_nil

theorem before_merge {t : List Nat} (ht : Single t) (hm : ascii "writing bpe merges..." ≠ t) (k : Tokenizer)
    (ts : List Tensor) : Before t (writeMergeP k ts).out := by
  unfold writeMergeP
  split
  · exact before_nil
  · exact before_bind (before_say hm) fun _ => before_bind before_nil fun _ => before_bind before_nil fun _ =>
      before_bind before_nil fun _ => before_bind (before_say (mergeText_ne ht _)) fun _ => before_nil

theorem before_state (E : Env α) (enc : Bool → List α → List Nat) (f16 : Bool) (ps : List (Param α)) (a : Acc) :
    Before (ascii "quantization completed") (stateLoop E enc f16 ps a).out := by
  induction ps generalizing a with
  | nil => exact before_nil
  | cons p ps ih =>
    rw [stateLoop]
    exact before_bind before_nil fun _ => before_bind (before_say (paramText_ne _ _ _ _)) fun _ => ih _

theorem before_lm (E : Env α) (enc : Bool → List α → List Nat) (f16 : Bool) (cls : Cls) (ps : List (Param α)) (a : Acc) :
    Before (ascii "quantization completed") (lmLoop E enc f16 cls ps a).out := by
  induction ps generalizing a with
  | nil => exact before_nil
  | cons p ps ih =>
    rw [lmLoop]
    split
    · exact ih _
    · exact before_bind before_nil fun _ => before_bind (before_say (paramText_ne _ _ _ _)) fun _ => ih _

theorem completed_single : Single (ascii "quantization completed") := by
  refine ⟨?_, ?_, ?_⟩ <;> decide +kernel

/-- Either the conversion fails and does not say that it is completed, or it succeeds and says so at the end. -/
def Ending (x : Py β) : Prop :=
  (x.val = none ∧ Before (ascii "quantization completed") x.out) ∨ (x.val.isSome ∧ ∃ out, Before (ascii "quantization completed") out ∧ x.out = out ++ [ascii "quantization completed"])

theorem ending_bind {x : Py β} {f : β → Py γ} (h : Before (ascii "quantization completed") x.out) (hf : ∀ b, Ending (f b)) : Ending (x >>= f) := by
  cases hx : x.val with
  | none => exact .inl ⟨by rw [bind_val, hx]; rfl, by rw [bind_out_none hx]; exact h⟩
  | some b =>
    have hb : ∀ out, Before (ascii "quantization completed") out → Before (ascii "quantization completed") (x.out ++ out) := by
      intro out ho m hm
      rcases List.mem_append.1 hm with hm | hm
      · exact h m hm
      · exact ho m hm
    rcases hf b with ⟨h1, h2⟩ | ⟨h1, out, h2, h3⟩
    · exact .inl ⟨by rw [bind_val, hx]; exact h1, by rw [bind_out_some hx]; exact hb _ h2⟩
    · exact .inr ⟨by rw [bind_val, hx]; exact h1, x.out ++ out, hb _ h2, by rw [bind_out_some hx, h3, List.append_assoc]⟩

theorem convertP_ending (E : Env α) (enc : Bool → List α → List Nat) (f16 : Bool) (header : List Nat) (s : Source α) :
    Ending (convertP E enc f16 header s) := by
  have ht := completed_single
  unfold convertP
  refine ending_bind (before_say (by decide +kernel)) fun _ => ending_bind (before_say ?_) fun _ => ending_bind ?_ fun _ =>
    ending_bind (before_vocab ht (by decide +kernel) _ _) fun _ => ending_bind (before_merge ht (by decide +kernel) _ _) fun _ => ending_bind (before_say (by decide +kernel)) fun _ =>
    ending_bind (before_state _ _ _ _ _) fun _ => ending_bind (before_lm _ _ _ _ _ _) fun _ =>
    ending_bind (before_say (totalText_ne _ _)) fun _ => .inr ⟨rfl, [], before_nil, rfl⟩
  · refine ne_of_head (c := 109) ?_ (by decide +kernel)
    rw [List.head?_append, show (ascii "model loaded: ").head? = some 109 by decide +kernel]
    rfl
  · split
    · exact before_bind (before_bert ht _ _ _) fun _ => before_nil
    · exact before_bind (before_roberta ht _ _ _) fun _ => before_nil
    · exact before_nil

/-! ## Where it stops -/

/-- If the message is printed, the conversion stops right after it. -/
def Stops (t : List Nat) (x : Py β) : Prop := t ∈ x.out → x.val = none ∧ x.out.getLast? = some t

theorem stops_skip {t : List Nat} {x : Py β} {f : β → Py γ} (h : Before t x.out) (hf : ∀ b, x.val = some b → Stops t (f b)) :
    Stops t (x >>= f) := by
  intro hm
  cases hx : x.val with
  | none =>
    rw [bind_out_none hx] at hm
    exact absurd rfl (h t hm)
  | some b =>
    rw [bind_out_some hx] at hm ⊢
    rcases List.mem_append.1 hm with hm | hm
    · exact absurd rfl (h t hm)
    · obtain ⟨h1, h2⟩ := hf b hx hm
      exact ⟨by rw [bind_val, hx]; exact h1, by rw [List.getLast?_append, h2]; rfl⟩

theorem stops_here {t : List Nat} {x : Py β} {f : β → Py γ} (hv : x.val = none) (ho : x.out.getLast? = some t) :
    Stops t (x >>= f) := fun _ => ⟨by rw [bind_val, hv]; rfl, by rw [bind_out_none hv]; exact ho⟩

theorem try_bind_out (x : Option β) (f : β → Py γ) (h : ∀ b, x = some b → (f b).val = none → (f b).out = []) :
    (try' x >>= f).val = none → (try' x >>= f).out = [] := by
  cases x with
  | none => intro _; rfl
  | some b =>
    intro hv
    rw [bind_val] at hv
    rw [bind_out_some (b := b) rfl, h b rfl hv]
    rfl

theorem vocab_fails {c : Config} {k : Tokenizer} (h : (writeVocabP c k).val = none) :
    (writeVocabP c k).out = [ascii "writing vocab..."] := by
  unfold writeVocabP at h ⊢
  rw [bind_val] at h
  rw [bind_out_some (b := ()) rfl]
  refine congrArg ([ascii "writing vocab..."] ++ ·) (try_bind_out _ _ (fun _ _ => try_bind_out _ _ fun _ _ => try_bind_out _ _ fun _ _ =>
    try_bind_out _ _ fun _ _ => try_bind_out _ _ fun _ _ hv => ?_) h)
  rw [bind_val] at hv
  cases hv

theorem merge_fails {k : Tokenizer} {ts : List Tensor} (h : (writeMergeP k ts).val = none) :
    (writeMergeP k ts).out = [ascii "writing bpe merges..."] := by
  unfold writeMergeP at h ⊢
  split at h
  · cases h
  · rw [bind_val] at h
    rw [bind_out_some (b := ()) rfl]
    refine congrArg ([ascii "writing bpe merges..."] ++ ·) (try_bind_out _ _ (fun _ _ => try_bind_out _ _ fun _ _ => try_bind_out _ _ fun _ _ hv => ?_) h)
    rw [bind_val] at hv
    cases hv

theorem loaded_before {t : List Nat} (ht : Single t) (n : List Nat) : ascii "model loaded: " ++ n ≠ t := by
  refine ne_of_head (c := 109) ?_ ht.2.2
  rw [List.head?_append, show (ascii "model loaded: ").head? = some 109 by decide +kernel]
  rfl

theorem arch_before {t : List Nat} (ht : Single t) (E : Env α) (s : Source α) :
    Before t (match s.cls with
      | .bert => do let kv ← writeBertP E s.config s.tok; pure ("BERT", kv)
      | .roberta => do let kv ← writeRobertaP E s.config s.tok; pure ("RoBERTa", kv)
      | .other => try' none : Py (String × List (List Nat × Kv))).out := by
  split
  · exact before_bind (before_bert ht _ _ _) fun _ => before_nil
  · exact before_bind (before_roberta ht _ _ _) fun _ => before_nil
  · exact before_nil

theorem vocab_single : Single (ascii "writing vocab...") := by
  refine ⟨?_, ?_, ?_⟩ <;> decide +kernel
theorem merge_single : Single (ascii "writing bpe merges...") := by
  refine ⟨?_, ?_, ?_⟩ <;> decide +kernel

theorem vocab_stops (E : Env α) (enc : Bool → List α → List Nat) (f16 : Bool) (header : List Nat) (s : Source α)
    (h : writeVocab s.config s.tok = none) : Stops (ascii "writing vocab...") (convertP E enc f16 header s) := by
  have ht := vocab_single
  unfold convertP
  refine stops_skip (before_say (by decide +kernel)) fun _ _ => stops_skip (before_say (loaded_before ht _)) fun _ _ =>
    stops_skip ?_ fun b _ => ?_
  · exact arch_before ht E s
  · have hv : (writeVocabP s.config s.tok).val = none := by rw [writeVocabP_val, h]
    exact stops_here hv (by rw [vocab_fails hv]; rfl)

theorem merge_stops (E : Env α) (enc : Bool → List α → List Nat) (f16 : Bool) (header : List Nat) (s : Source α)
    (h : writeMerge s.tok = none) : Stops (ascii "writing bpe merges...") (convertP E enc f16 header s) := by
  have ht := merge_single
  unfold convertP
  refine stops_skip (before_say (by decide +kernel)) fun _ _ => stops_skip (before_say (loaded_before ht _)) fun _ _ =>
    stops_skip ?_ fun b _ => stops_skip (before_vocab ht (by decide +kernel) _ _) fun ts _ => ?_
  · exact arch_before ht E s
  · have hv : (writeMergeP s.tok ts).val = none := by rw [writeMergeP_val, h]; rfl
    exact stops_here hv (by rw [merge_fails hv]; rfl)

theorem place_range {dict : List (List Nat × Nat)} {tokens : List (Option (List Nat))} {d : List Nat × Nat} (hd : d ∈ dict)
    (h : tokens.length ≤ d.2) : placeTokens tokens dict = none := by
  induction dict generalizing tokens with
  | nil => cases hd
  | cons e rest ih =>
    obtain ⟨t, id⟩ := e
    rw [placeTokens]
    split
    · rename_i hi
      rcases List.mem_cons.1 hd with hd | hd
      · subst hd
        rw [List.getElem?_eq_none h] at hi
        cases hi
      · exact ih hd (by rw [List.length_set]; exact h)
    · rfl

theorem mergeData_unknown {dict : List (List Nat × Nat)} {rs : List ((List Nat × List Nat) × Nat)} {r : (List Nat × List Nat) × Nat}
    (hr : r ∈ rs) (h : r.1.1 ∉ dict.map (·.1) ∨ r.1.2 ∉ dict.map (·.1)) : mergeData dict rs = none := by
  have key : ∀ a, a ∉ dict.map (·.1) → dict.find? (·.1 == a) = none := by
    intro a ha
    rw [List.find?_eq_none]
    intro x hx he
    exact ha (List.mem_map.2 ⟨x, hx, by simpa using he⟩)
  induction rs with
  | nil => cases hr
  | cons e rest ih =>
    obtain ⟨⟨a, b⟩, rank⟩ := e
    rw [mergeData]
    rcases List.mem_cons.1 hr with hr | hr
    · subst hr
      rcases h with h | h
      · rw [key _ h]; rfl
      · rw [key _ h]
        cases dict.find? (·.1 == a) <;> rfl
    · rw [ih hr]
      cases dict.find? (·.1 == a) with
      | none => rfl
      | some x => cases dict.find? (·.1 == b) <;> rfl

end Berts.ConvertLog
