import Verif.Proofs.ConvertReport
import Verif.Props.Convert

/-!
# C112, C113: what the converter says
-/

namespace Berts.Props

open Berts.Spec Berts.Convert Berts.ConvertLog
open Berts.Vocab (ascii decimal)
open Berts.Load (Kv TInfo Gguf)

variable {α : Type}

/-! ## C112 -/

/-- The messages do not change the result: `convertP` delivers what `convert` of C75 to C78 does. -/
theorem C112_same (E : Env α) (enc : Bool → List α → List Nat) (f16 : Bool) (header : List Nat) (s : Source α) :
    (convertP E enc f16 header s).val = convert enc f16 header s := convertP_val E enc f16 header s

/-- C112 except for the total: the messages of a successful conversion are exactly those of `Reported`: they show the
metadata of the file, the numbers of tokens and merges in it, and for every weight its name, whether it is stored as
F16, its number of dimensions, and its bytes before and after.  The last number counts the bias that is left out. -/
theorem C112_report_partial {E : Env α} {enc : Bool → List α → List Nat} {f16 : Bool} {header : List Nat} {s : Source α}
    (hE : EnvOk E enc s) {g : Gguf} {bytes : List Nat} (h : convert enc f16 header s = some (g, bytes)) :
    Reported E s g (convertP E enc f16 header s).out := reported hE h

/-- Where C112 fails: the "quantized size" is not that of the weights in the file if the head has a bias of at least
26215 elements (0.1 MiB; a BERT vocabulary has 30522 tokens, a RoBERTa vocabulary 50265). -/
theorem C112_total_counterexample {E : Env α} {enc : Bool → List α → List Nat} {f16 : Bool} {header : List Nat} {s : Source α}
    (hE : EnvOk E enc s) {g : Gguf} {bytes : List Nat} (h : convert enc f16 header s = some (g, bytes))
    {p : Param α} (hp : p ∈ s.lm) (hb : isBias s.cls p = true) (hn : 26215 ≤ p.elems.length)
    {tot : List Nat} (ht : (convertP E enc f16 header s).out.dropLast.getLast? = some tot) (org : Nat) :
    ¬ TotalShown org (weightBytes g) tot := by
  obtain ⟨hp', sp, op, tk, mg, ps, tot', vs, ws, org', new, ho, -, -, -, -, -, -, -, -, -, hnew, hs⟩ := reported hE h
  intro hw
  rw [ho, show ∀ (l : List (List Nat)) a b, l ++ [a, b] = (l ++ [a]) ++ [b] by simp, List.dropLast_concat,
    List.getLast?_append] at ht
  cases Option.some.inj ht
  have h1 := total_close hs hw
  have h2 : 4 * p.elems.length ≤ ((s.lm.filter (isBias s.cls)).map fun p => 4 * p.elems.length).sum :=
    le_sum (List.mem_map.2 ⟨p, List.mem_filter.2 ⟨hp, hb⟩, rfl⟩)
  omega

/-- The bytes of `exRob`, an element taking two or four. -/
def exWide (q : Bool) (l : List Int) : List Nat := l.flatMap fun _ => List.replicate (if q then 2 else 4) 0

/-- RoBERTa with the bias of the head. -/
def exBiased : Source Int := { exRob with lm := [⟨ascii "bias", [30522], List.replicate 30522 0⟩] }

def exShown : Env Int :=
  ⟨fun _ => ascii "1e-12", fun _ => ascii "set()", some (ascii "<s>"), some (ascii "<mask>"), some (ascii "<pad>"), some (ascii "</s>"),
    some (ascii "<unk>"), some (ascii "<s>"), some (ascii "</s>"), fun _ => 4⟩

theorem exShown_ok : EnvOk exShown exWide exBiased := by
  have h1 : ∀ p ∈ exRob.state, p.key.head?.any (fun c => decide (¬ (9 ≤ c ∧ c ≤ 13) ∧ ¬ (28 ≤ c ∧ c ≤ 32))) = true := by
    decide +kernel
  have h2 : ∀ key : List Nat, key.head?.any (fun c => decide (¬ (9 ≤ c ∧ c ≤ 13) ∧ ¬ (28 ≤ c ∧ c ≤ 32))) = true →
      NoLead key ∧ key ≠ [] := by
    intro key hk
    cases key with
    | nil => cases hk
    | cons a l =>
      refine ⟨fun c hc => ?_, List.cons_ne_nil _ _⟩
      cases Option.some.inj hc
      exact of_decide_eq_true hk
  refine ⟨fun _ => ⟨50, (by decide +kernel : (ascii "1e-12").getLast? = some 50), by decide, by decide⟩, ⟨62, by decide +kernel, by decide, by decide⟩,
    ⟨62, by decide +kernel, by decide, by decide⟩, fun p hp => h2 _ ?_, fun q xs => ?_⟩
  · rcases List.mem_append.1 hp with hp | hp
    · exact h1 p hp
    · rw [List.mem_singleton.1 hp]
      decide +kernel
  · induction xs with
    | nil => exact (Nat.zero_mul _).symm
    | cons x xs ih =>
      rw [exWide, List.flatMap_cons, List.length_append, List.length_replicate, List.length_cons, Nat.succ_mul, ← ih]
      exact Nat.add_comm _ _

theorem exBiased_some : ∃ r, convert exWide true [1, 2, 3] exBiased = some r := by
  have h : (convert exWide true [1, 2, 3] exBiased).isSome = true := by decide +kernel
  exact Option.isSome_iff_exists.1 h

/-- The hypotheses of `C112_report_partial` and `C112_total_counterexample` can be met: 0.1 MiB are counted that are
not written. -/
example : EnvOk exShown exWide exBiased ∧ (∃ r, convert exWide true [1, 2, 3] exBiased = some r ∧ weightBytes r.1 < 2 ^ 12) ∧
    (∃ p ∈ exBiased.lm, isBias exBiased.cls p = true ∧ 26215 ≤ p.elems.length) ∧
    (convertP exShown exWide true [1, 2, 3] exBiased).out.dropLast.getLast? =
      some (lines [List.replicate 40 61, ascii "original size  = 0.1 MiB", ascii "quantized size = 0.1 MiB", List.replicate 40 61]) := by
  refine ⟨exShown_ok, ?_, ⟨_, List.mem_singleton.2 rfl, ?_, ?_⟩, ?_⟩
  · obtain ⟨r, hr⟩ := exBiased_some
    have h : ((convert exWide true [1, 2, 3] exBiased).all fun r => decide (weightBytes r.1 < 2 ^ 12)) = true := by decide +kernel
    rw [hr] at h
    exact ⟨r, hr, of_decide_eq_true h⟩
  · decide +kernel
  · rw [List.length_replicate]; decide
  · decide +kernel

/-! ## C113 -/

/-- C113: "quantization completed" is said if and only if the file is complete, and then it is the last message.  No
condition on the texts is needed. -/
theorem C113_completed (E : Env α) (enc : Bool → List α → List Nat) (f16 : Bool) (header : List Nat) (s : Source α) :
    (ascii "quantization completed" ∈ (convertP E enc f16 header s).out ↔ ∃ r, convert enc f16 header s = some r) ∧
    ((convertP E enc f16 header s).out.getLast? = some (ascii "quantization completed") ↔
      ∃ r, convert enc f16 header s = some r) := by
  have hv := convertP_val E enc f16 header s
  rcases convertP_ending E enc f16 header s with ⟨h1, h2⟩ | ⟨h1, out, h2, h3⟩
  · rw [← hv, h1]
    refine ⟨⟨fun h => absurd rfl (h2 _ h), fun ⟨r, h⟩ => nomatch h⟩, ⟨fun h => ?_, fun ⟨r, h⟩ => nomatch h⟩⟩
    exact absurd rfl (h2 _ (List.mem_of_getLast? h))
  · rw [← hv, h3, List.getLast?_append]
    have h4 := Option.isSome_iff_exists.1 h1
    exact ⟨⟨fun _ => h4, fun _ => List.mem_append_right _ (List.mem_singleton.2 rfl)⟩, ⟨fun _ => h4, fun _ => rfl⟩⟩

/-- C113: a token whose id is not below `vocab_size` stops the conversion, and "writing vocab..." is the last message
(if the metadata is accepted; else this message is not there). -/
theorem C113_vocab (E : Env α) (enc : Bool → List α → List Nat) (f16 : Bool) (header : List Nat) {s : Source α}
    {d : List Nat × Nat} (hd : d ∈ s.tok.dict) (h : s.config.vocabSize ≤ d.2) :
    convert enc f16 header s = none ∧
    (ascii "writing vocab..." ∈ (convertP E enc f16 header s).out →
      (convertP E enc f16 header s).out.getLast? = some (ascii "writing vocab...")) := by
  have hv : writeVocab s.config s.tok = none := by
    unfold writeVocab Vocab.converterTokens
    rw [place_range hd (by rw [List.length_replicate]; exact h)]
    rfl
  refine ⟨?_, fun hm => (vocab_stops E enc f16 header s hv hm).2⟩
  unfold convert
  rw [hv]
  simp

/-- C113: a merge of a text which is no token stops the conversion, and "writing bpe merges..." is the last message (if
metadata and vocabulary are accepted; else this message is not there). -/
theorem C113_merge (E : Env α) (enc : Bool → List α → List Nat) (f16 : Bool) (header : List Nat) {s : Source α}
    {rs : List ((List Nat × List Nat) × Nat)} (hrs : s.tok.ranks = some rs) {r : (List Nat × List Nat) × Nat} (hr : r ∈ rs)
    (h : r.1.1 ∉ s.tok.dict.map (·.1) ∨ r.1.2 ∉ s.tok.dict.map (·.1)) :
    convert enc f16 header s = none ∧
    (ascii "writing bpe merges..." ∈ (convertP E enc f16 header s).out →
      (convertP E enc f16 header s).out.getLast? = some (ascii "writing bpe merges...")) := by
  have hv : writeMerge s.tok = none := by
    unfold writeMerge
    rw [hrs]
    simp only []
    rw [mergeData_unknown hr h]
    rfl
  refine ⟨?_, fun hm => (merge_stops E enc f16 header s hv hm).2⟩
  unfold convert
  rw [hv]
  simp

/-- Both ends of `C113_completed`, and the hypotheses of the other two, can be met. -/
example : (∃ r, convert exWide true [1, 2, 3] exBiased = some r) ∧
    (let s := { exBiased with tok := { exBiased.tok with dict := (ascii "d", 10) :: exBiased.tok.dict } }
     (ascii "d", 10) ∈ s.tok.dict ∧ s.config.vocabSize ≤ 10 ∧
     ascii "writing vocab..." ∈ (convertP exShown exWide true [1, 2, 3] s).out) ∧
    (let rs := [((ascii "a", ascii "x"), 0)]
     let s := { exBiased with tok := { exBiased.tok with ranks := some rs } }
     ascii "x" ∉ s.tok.dict.map (·.1) ∧
     ascii "writing bpe merges..." ∈ (convertP exShown exWide true [1, 2, 3] s).out) := by
  refine ⟨exBiased_some, ⟨List.mem_cons_self, ?_, ?_⟩, ?_, ?_⟩ <;> decide +kernel

end Berts.Props
