import Verif.Model.TypeNames
import Verif.Spec.TypeNames
import Verif.Model.Convert
import Verif.Proofs.QuantizeFile
import Verif.Props.QuantizeFile
import Verif.Props.Convert

/-! # Names of types: C96 -/

namespace Berts.Props

open Berts.TypeNames Berts.Spec
open Berts.Vocab (ascii)
open Berts.Load (Gguf Kv u32)
open Berts.Quantize (quantKv)
open Berts.Examples.Spec (TypeName)

/-- C96, numbers: exactly the numbers below 19 have a name, others abort; the loader aborts for the same ones. -/
theorem C96_total (t : Nat) :
    (t < 19 → ∃ s, ftypeName t = .ok s ∧ Load.ftype t = .ok ()) ∧
    (19 ≤ t → ftypeName t = .abort ∧ Load.ftype t = .abort) := by
  have h : ftypes.length = 19 := rfl
  constructor
  · intro ht
    have : t < ftypes.length := by omega
    refine ⟨ftypes[t], ?_, by simp [Load.ftype, ht]⟩
    unfold ftypeName
    rw [if_neg (by omega), List.getElem?_eq_getElem this]
  · intro ht
    refine ⟨?_, by simp [Load.ftype]; omega⟩
    unfold ftypeName
    rw [if_pos (by omega)]

example : (8 < 19) ∧ (19 ≤ 19) := by decide

/-- C96, types of tensors: the name of a type is looked up under its number; types from 19 on have no name, and asking
for it ends the process. -/
theorem C96_type (t : Nat) (ht : t < 2 ^ 32) :
    (t < 19 → typeToStr t = ftypeName t) ∧ (19 ≤ t → typeToStr t = .abort) := by
  have : t % 2 ^ 32 = t := Nat.mod_eq_of_lt ht
  refine ⟨fun _ => by unfold typeToStr; rw [this], fun h => ?_⟩
  unfold typeToStr
  rw [this]
  exact ((C96_total t).2 h).1

/-- C96, table: different numbers have different names. -/
theorem C96_distinct (t u : Nat) (s : List Nat) (ht : ftypeName t = .ok s) (hu : ftypeName u = .ok s) : t = u := by
  have hb : ∀ x, ftypeName x = .ok s → x < 19 := by
    intro x hx
    apply Decidable.byContradiction
    intro h
    rw [((C96_total x).2 (by omega)).1] at hx
    cases hx
  have key : ∀ a < 19, ∀ b < 19, ftypeName a = ftypeName b → a = b := by
    have : ∀ a < 19, ∀ b < 19, ftypes[a]? = ftypes[b]? → a = b := by decide +kernel
    intro a ha b hb h
    apply this a ha b hb
    unfold ftypeName at h
    have hl : ftypes.length = 19 := rfl
    rw [if_neg (by omega), if_neg (by omega), List.getElem?_eq_getElem (by omega), List.getElem?_eq_getElem (by omega)] at h
    rw [List.getElem?_eq_getElem (by omega), List.getElem?_eq_getElem (by omega)]
    exact congrArg some (Res.ok.inj h)
  exact key t (hb t ht) u (hb u hu) (by rw [ht, hu])

example : ftypeName 7 = .ok (ascii "MOSTLY_Q8_0") := by decide +kernel

/-- The types a file can be called after: those of the quantizer (without Q8_1, which is for intermediate results), the
retired Q4_2 and Q4_3, and Q4_1 with some F16. -/
def fileTypes : List (List Nat) :=
  ["F32", "F16", "Q4_0", "Q4_1", "Q5_0", "Q5_1", "Q8_0", "Q2_K", "Q3_K", "Q4_K", "Q5_K", "Q6_K",
   "Q4_2", "Q4_3", "Q4_1_SOME_F16"].map ascii

/-- C96, table: every name says a type, and every type is said by a name. -/
theorem C96_named :
    (∀ t s, ftypeName t = .ok s → ∃ ty ∈ fileTypes, Says s ty) ∧
    ∀ ty ∈ fileTypes, ∃ t s, ftypeName t = .ok s ∧ Says s ty := by
  constructor
  · intro t s hs
    have ht : t < 19 := by
      apply Decidable.byContradiction
      intro h
      rw [((C96_total t).2 (by omega)).1] at hs
      cases hs
    have key : ∀ s ∈ ftypes, ∃ ty ∈ fileTypes, Says s ty := by decide +kernel
    have hl : ftypes.length = 19 := rfl
    unfold ftypeName at hs
    rw [if_neg (by omega), List.getElem?_eq_getElem (by omega)] at hs
    exact Res.ok.inj hs ▸ key _ (List.getElem_mem _)
  · have key : ∀ ty ∈ fileTypes, ∃ s ∈ ftypes, Says s ty := by decide +kernel
    intro ty hty
    obtain ⟨s, hs, h⟩ := key ty hty
    obtain ⟨t, ht, rfl⟩ := List.getElem_of_mem hs
    refine ⟨t, _, ?_, h⟩
    unfold ftypeName
    rw [if_neg (by omega), List.getElem?_eq_getElem ht]

example : ascii "Q5_K" ∈ fileTypes ∧ Says (ascii "MOSTLY_Q5_K_S") (ascii "Q5_K") := by decide +kernel

/-- The types for which the numbers of tensor types and of file types agree. -/
def agreeing : List Nat := [0, 1, 2, 3, 10, 11]

theorem typeName_lt {t : Nat} {name : List Nat} (h : TypeName t name) : t < 15 := by cases h <;> decide

theorem says_iff {t : Nat} {name s : List Nat} (h : TypeName t name) (hs : ftypeName t = .ok s) :
    Says s name ↔ t ∈ agreeing := by
  have e : ∀ x, ftypeName t = .ok x → s = x := fun x hx => Res.ok.inj (hs.symm.trans hx)
  cases h <;> rw [e _ rfl] <;> decide +kernel

/-- C96, exactly: the name of a tensor type shown by the library is right for F32, F16, Q4_0, Q4_1, Q2_K and Q3_K,
and wrong for all other types that the quantizer offers. -/
theorem C96_exact (t : Nat) (name : List Nat) (h : TypeName t name) :
    ∃ s, typeToStr t = .ok s ∧ (Says s name ↔ t ∈ agreeing) := by
  obtain ⟨s, hs, _⟩ := (C96_total t).1 (by have := typeName_lt h; omega)
  refine ⟨s, ?_, says_iff h hs⟩
  unfold typeToStr
  rw [Nat.mod_eq_of_lt (by have := typeName_lt h; omega)]
  exact hs

example : TypeName 8 (ascii "Q8_0") ∧ 8 ∉ agreeing := ⟨.q8_0, by decide⟩

/-- C96, quantized files (only for six of the types): the name shown when the file is loaded says the type it was
quantized to.  `g'` is what a reader of the new file sees (`ReadBack` of C80 contains the equation).
(Missing: the other types, see `C96_quantized_counterexample`.) -/
theorem C96_quantized_partial {ver t : Nat} {name : List Nat} {g g' : Gguf} (hk : (g.kv.map (·.1)).Nodup)
    (hg : g'.kv = quantKv ver t g.kv) (h : TypeName t name) (ha : t ∈ agreeing) :
    ∃ s, shownType g' = .ok s ∧ Says s name := by
  obtain ⟨s, hs, _⟩ := (C96_total t).1 (by have := typeName_lt h; omega)
  refine ⟨s, ?_, (says_iff h hs).2 ha⟩
  unfold shownType
  rw [Quantize.type_same hk hg]
  exact hs

example : ((qfGguf []).kv.map (·.1)).Nodup ∧ TypeName 2 (ascii "Q4_0") ∧ 2 ∈ agreeing :=
  ⟨by decide +kernel, .q4_0, by decide⟩

/-- C96 refuted: whatever is quantized to Q8_0 is shown as `MOSTLY_Q5_0`, and what is quantized to Q5_0 as
`MOSTLY_Q4_3`; no file made by the quantizer is ever shown as Q8_0, Q5_0, Q5_1, Q4_K, Q5_K or Q6_K if it is one. -/
theorem C96_quantized_counterexample {ver : Nat} {g g' : Gguf} (hk : (g.kv.map (·.1)).Nodup) :
    (g'.kv = quantKv ver 8 g.kv → shownType g' = .ok (ascii "MOSTLY_Q5_0")) ∧
    (g'.kv = quantKv ver 6 g.kv → shownType g' = .ok (ascii "MOSTLY_Q4_3")) ∧
    ∀ t name, TypeName t name → t ∉ agreeing → g'.kv = quantKv ver t g.kv →
      ∃ s, shownType g' = .ok s ∧ ¬ Says s name := by
  have e : ∀ t, g'.kv = quantKv ver t g.kv → shownType g' = ftypeName t := by
    intro t hg
    unfold shownType
    rw [Quantize.type_same hk hg]
    rfl
  refine ⟨fun hg => (e 8 hg).trans rfl, fun hg => (e 6 hg).trans rfl, ?_⟩
  intro t name h ha hg
  obtain ⟨s, hs, _⟩ := (C96_total t).1 (by have := typeName_lt h; omega)
  exact ⟨s, (e t hg).trans hs, fun hc => ha ((says_iff h hs).1 hc)⟩

example : ((qfGguf []).kv.map (·.1)).Nodup ∧ (qfNew [] 672).kv = quantKv 2 8 (qfGguf []).kv :=
  ⟨by decide +kernel, rfl⟩

/-- The keys a converter writes besides the general ones begin with `b`. -/
def Own (l : List (List Nat × Kv)) : Prop := ∀ p ∈ l, p.1.head? = some 98

theorem own_append {a b : List (List Nat × Kv)} (ha : Own a) (hb : Own b) : Own (a ++ b) := by
  intro p hp
  rcases List.mem_append.1 hp with h | h
  · exact ha p h
  · exact hb p h

theorem own_u32 {k : String} (hk : (ascii k).head? = some 98) {n : Nat} {l : List (List Nat × Kv)}
    (h : Convert.u32kv k n = some l) : Own l := by
  unfold Convert.u32kv at h
  split at h
  · cases Option.some.inj h
    intro p hp
    simp only [List.mem_singleton] at hp
    subst hp
    exact hk
  · cases h

theorem own_opt {k : String} (hk : (ascii k).head? = some 98) {n : Option Nat} {l : List (List Nat × Kv)}
    (h : Convert.optU32 k n = some l) : Own l := by
  cases n with
  | none => cases Option.some.inj h; intro p hp; cases hp
  | some n => exact own_u32 hk h

theorem own_bool {k : String} (hk : (ascii k).head? = some 98) (b : Option Bool) : Own (Convert.optBool k b) := by
  cases b with
  | none => intro p hp; cases hp
  | some b => intro p hp; simp only [Convert.optBool, List.mem_singleton] at hp; subst hp; exact hk

theorem own_one {k : String} (hk : (ascii k).head? = some 98) (v : Kv) : Own [(ascii k, v)] := by
  intro p hp
  simp only [List.mem_singleton] at hp
  subst hp
  exact hk

theorem own_hparam {arch act : Nat} {c : Convert.Config} {l : List (List Nat × Kv)}
    (h : Convert.hparamKv arch act c = some l) : Own l := by
  unfold Convert.hparamKv at h
  simp only [Option.bind_eq_bind, Option.bind_eq_some_iff, Option.pure_def, Option.some.injEq] at h
  obtain ⟨k1, h1, k2, h2, k3, h3, k4, h4, k5, h5, k6, h6, k7, h7, k8, h8, k9, h9, rfl⟩ := h
  refine own_append (own_append (own_append (own_append (own_append (own_append (own_append (own_append (own_append
    (own_append ?_ ?_) ?_) ?_) ?_) ?_) ?_) ?_) ?_) ?_) ?_
  all_goals first
    | exact own_one (by decide +kernel) _
    | (refine own_u32 ?_ (by assumption); decide +kernel)

theorem own_special {t : Convert.Tokenizer} {l : List (List Nat × Kv)} (h : Convert.specialKv t = some l) : Own l := by
  unfold Convert.specialKv at h
  simp only [Option.bind_eq_bind, Option.bind_eq_some_iff, Option.pure_def, Option.some.injEq] at h
  obtain ⟨k1, h1, k2, h2, k3, h3, k4, h4, k5, h5, rfl⟩ := h
  refine own_append (own_append (own_append (own_append ?_ ?_) ?_) ?_) ?_
  all_goals (refine own_opt ?_ (by assumption); decide +kernel)

theorem own_bert {c : Convert.Config} {t : Convert.Tokenizer} {l : List (List Nat × Kv)}
    (h : Convert.writeBert c t = some l) : Own l := by
  unfold Convert.writeBert at h
  simp only [Option.bind_eq_bind, Option.bind_eq_some_iff, Option.pure_def] at h
  obtain ⟨k1, h1, h⟩ := h
  split at h
  · rw [Option.bind_eq_some_iff] at h
    obtain ⟨k2, h2, h⟩ := h
    split at h
    · cases h
    · cases Option.some.inj h
      refine own_append (own_append (own_append (own_append (own_append (own_hparam h1) (own_special h2)) ?_) ?_) ?_) ?_
      all_goals exact own_bool (by decide +kernel) _
  · cases h

theorem own_roberta {c : Convert.Config} {t : Convert.Tokenizer} {l : List (List Nat × Kv)}
    (h : Convert.writeRoberta c t = some l) : Own l := by
  unfold Convert.writeRoberta at h
  simp only [Option.bind_eq_bind, Option.bind_eq_some_iff, Option.pure_def, Option.some.injEq] at h
  obtain ⟨act, h0, k1, h1, k2, h2, k3, h3, k4, h4, rfl⟩ := h
  exact own_append (own_append (own_append (own_hparam h1) (own_special h2)) (own_opt (by decide +kernel) h3))
    (own_opt (by decide +kernel) h4)

/-- C96, converted files: the name shown says F16, or F32 with `--use-f32`. -/
theorem C96_converted {α : Type} {enc : Bool → List α → List Nat} {f16 : Bool} {header : List Nat} {s : Convert.Source α}
    {g : Gguf} {bytes : List Nat} (h : Convert.convert enc f16 header s = some (g, bytes)) :
    ∃ name, shownType g = .ok name ∧ Says name (if f16 then ascii "F16" else ascii "F32") := by
  have hkv : ∃ a kv n, Own kv ∧ g.kv = [(ascii "general.architecture", .str a), (ascii "general.name", .str n),
      (ascii "general.alignment", .u32 32)] ++ kv ++ [(ascii "general.file_type", .u32 (if f16 then 1 else 0))] := by
    unfold Convert.convert at h
    simp only [Option.bind_eq_bind, Option.bind_eq_some_iff, Option.pure_def] at h
    obtain ⟨⟨arch, kv⟩, h1, vocab, _, merge, _, h⟩ := h
    have ho : Own kv := by
      split at h1
      · obtain ⟨k, hk, e⟩ := Option.bind_eq_some_iff.1 h1
        cases Option.some.inj e
        exact own_bert hk
      · obtain ⟨k, hk, e⟩ := Option.bind_eq_some_iff.1 h1
        cases Option.some.inj e
        exact own_roberta hk
      · cases h1
    simp only at h
    split at h
    · have e := Option.some.inj h
      simp only [Prod.mk.injEq] at e
      exact ⟨_, kv, _, ho, by rw [← e.1]⟩
    · cases h
  obtain ⟨a, kv, n, ho, e⟩ := hkv
  have hf : Load.find g "general.file_type" = some (.u32 (if f16 then 1 else 0)) := by
    unfold Load.find
    have n1 : (ascii "general.architecture" == ascii "general.file_type") = false := by decide +kernel
    have n2 : (ascii "general.name" == ascii "general.file_type") = false := by decide +kernel
    have n3 : (ascii "general.alignment" == ascii "general.file_type") = false := by decide +kernel
    rw [e]
    simp only [List.cons_append, List.nil_append, List.find?_cons, n1, n2, n3, List.find?_append]
    have : kv.find? (fun p => p.1 == ascii "general.file_type") = none := by
      rw [List.find?_eq_none]
      intro p hp hc
      have := ho p hp
      rw [eq_of_beq hc] at this
      exact absurd this (by decide +kernel)
    rw [this]
    simp
  unfold shownType u32
  rw [hf]
  cases f16
  · exact ⟨_, rfl, by decide +kernel⟩
  · exact ⟨_, rfl, by decide +kernel⟩

example : (Convert.convert exEnc true [1, 2, 3] exBert).isSome ∧ (Convert.convert exEnc false [] exRob).isSome := by
  decide +kernel

end Berts.Props
