import Verif.Proofs.Args
import Verif.Props.FileFormat

/-!
# C129: the command line of the converter
-/

namespace Berts.Props

open Berts.Vocab (ascii)
open Berts.Args Berts.Spec

/-- The ASCII digits (for the examples). -/
def asciiDigit (d : Nat) : Bool := decide (48 ≤ d ∧ d ≤ 57)

/-- C129: exactly the specified command lines are accepted, and the values are those given last. -/
theorem C129_exact (dig : Nat → Bool) (args : List Text) (i o : Text) (c : Option Text) (f : Bool) :
    parseArgs dig args = .run i o c f ↔
      ∃ is, Line dig is args ∧ LastOf .input is (some i) ∧ LastOf .output is (some o) ∧ LastOf .cache is c ∧
        (f = true ↔ .f32 ∈ is) := by
  rw [parse_line]
  constructor
  · rintro ⟨is, h1, h2⟩
    exact ⟨is, h1, finish_iff.1 h2⟩
  · rintro ⟨is, h1, h2⟩
    exact ⟨is, h1, finish_iff.2 h2⟩

/-- `-o a --inp=m --use -oout.gguf`. -/
def agLine : List Text := [ascii "-o", ascii "a", ascii "--inp=m", ascii "--use", ascii "-oout.gguf"]

theorem agLine_line (dig : Nat → Bool) :
    Line dig [.value .output (ascii "a"), .value .input (ascii "m"), .f32, .value .output (ascii "out.gguf")] agLine :=
  .cons (.apart (.inl rfl) (.inl (by decide))) <|
  .cons (.joined (p := ascii "--inp") (.inr ⟨by decide, by decide⟩)) <|
  .cons (.f32 ⟨by decide, by decide⟩) <|
  .cons (.glued (p := ascii "-o") (v := ascii "out.gguf") rfl (by decide) (by decide)) .nil

example : parseArgs asciiDigit agLine = .run (ascii "m") (ascii "out.gguf") none true := by decide

/-- C129, the program: a file is written exactly if the command line is one of these and the model can be
loaded and converted; it is the converted file, with 32-bit weights exactly if `--use-f32` was given, at
the output path. -/
theorem C129_writes (dig : Nat → Bool) (source : Text → Option Text → Option (Convert.Source α))
    (enc : Bool → List α → List Nat) (args : List Text) (o : Text) (file : List Nat) :
    convertMain dig source enc args = .wrote o file ↔
      ∃ is i c s f16, Line dig is args ∧ LastOf .input is (some i) ∧ LastOf .output is (some o) ∧ LastOf .cache is c ∧
        (f16 = true ↔ .f32 ∉ is) ∧ source i c = some s ∧ FileFormat.convertFile enc f16 s = some file := by
  unfold convertMain
  constructor
  · intro h
    split at h
    · cases h
    · cases h
    · rename_i i o' c f hp
      split at h
      · cases h
      · rename_i s hs
        split at h
        · cases h
        · rename_i file' hf
          cases h
          obtain ⟨is, h1, h2, h3, h4, h5⟩ := (C129_exact ..).1 hp
          exact ⟨is, i, c, s, !f, h1, h2, h3, h4, by rw [← h5]; cases f <;> simp, hs, hf⟩
  · rintro ⟨is, i, c, s, f16, h1, h2, h3, h4, h5, hs, hf⟩
    have hp := (C129_exact dig args i o c (!f16)).2 ⟨is, h1, h2, h3, h4, by
      cases f16
      · exact ⟨fun _ => Classical.byContradiction fun h => Bool.noConfusion (h5.2 h), fun _ => rfl⟩
      · exact ⟨nofun, fun h => absurd h (h5.1 rfl)⟩⟩
    rw [hp]
    simp only [hs, Bool.not_not, hf]

/-- The hypotheses of the reverse direction can be met: this line, any source, any encoding. -/
example (dig : Nat → Bool) (source : Text → Option Text → Option (Convert.Source α)) (enc : Bool → List α → List Nat)
    (s : Convert.Source α) (file : List Nat) (hs : source (ascii "m") none = some s)
    (hf : FileFormat.convertFile enc false s = some file) :
    convertMain dig source enc agLine = .wrote (ascii "out.gguf") file :=
  (C129_writes ..).2 ⟨_, _, none, s, false, agLine_line dig,
    ⟨[.value .output (ascii "a")], _, rfl, fun u h => by simp at h⟩,
    ⟨[.value .output (ascii "a"), .value .input (ascii "m"), .f32], [], rfl, nofun⟩,
    fun v h => by simp at h, by simp, hs, hf⟩

/-- C129, all paths: every model name, path and directory can be given, whatever it looks like. -/
theorem C129_any_path (dig : Nat → Bool) (i o c : Text) (f : Bool) :
    parseArgs dig ([ascii "--input-model" ++ ascii "=" ++ i, ascii "--output-path" ++ ascii "=" ++ o,
      ascii "--cache-dir" ++ ascii "=" ++ c] ++ if f then [ascii "--use-f32"] else []) = .run i o (some c) f := by
  rw [C129_exact]
  have h1 : Names .input (ascii "--input-model") := .inr ⟨by decide, by decide⟩
  have h2 : Names .output (ascii "--output-path") := .inr ⟨by decide, by decide⟩
  have h3 : Names .cache (ascii "--cache-dir") := .inr ⟨by decide, by decide⟩
  have l1 : ∀ {is ws}, Line dig is ws → Line dig (.value .input i :: .value .output o :: .value .cache c :: is)
      ([ascii "--input-model" ++ ascii "=" ++ i, ascii "--output-path" ++ ascii "=" ++ o,
      ascii "--cache-dir" ++ ascii "=" ++ c] ++ ws) :=
    fun h => by
      have := Line.cons (.joined (v := i) h1) (.cons (.joined (v := o) h2) (.cons (.joined (v := c) h3) h))
      exact this
  have l2 : Line dig [.f32] [ascii "--use-f32"] := .cons (.f32 (p := ascii "--use-f32") ⟨by decide, by decide⟩) .nil
  cases f
  · exact ⟨[.value .input i, .value .output o, .value .cache c],
      l1 .nil,
      ⟨[], _, rfl, fun u h => by simp at h⟩, ⟨[_], _, rfl, fun u h => by simp at h⟩,
      ⟨[_, _], _, rfl, fun u h => by simp at h⟩, by simp⟩
  · exact ⟨[.value .input i, .value .output o, .value .cache c, .f32],
      l1 l2,
      ⟨[], _, rfl, fun u h => by simp at h⟩, ⟨[_], _, rfl, fun u h => by simp at h⟩,
      ⟨[_, _], _, rfl, fun u h => by simp at h⟩, by simp⟩

/-- C129, the usual form (partial: the full claim would be for all names and paths; it fails for some that
begin with a dash, see the counterexample): a name and a path that do not begin with a dash are taken as
they are. -/
theorem C129_usual_partial (dig : Nat → Bool) {i o : Text} (hi : ¬ ascii "-" <+: i) (ho : ¬ ascii "-" <+: o) :
    parseArgs dig [ascii "-i", i, ascii "-o", o] = .run i o none false := by
  rw [C129_exact]
  exact ⟨[.value .input i, .value .output o],
    .cons (.apart (.inl rfl) (.inl hi)) (.cons (.apart (.inl rfl) (.inl ho)) .nil),
    ⟨[], _, rfl, fun u h => by simp at h⟩, ⟨[_], _, rfl, fun u h => by simp at h⟩, fun v h => by simp at h, by simp⟩

example : ¬ ascii "-" <+: ascii "org/model" := by decide

/-- C129: `-o PATH` does not write to PATH for all paths: `-o -out.gguf` is refused, and after `-o -im` the
word is another option. -/
theorem C129_dash_counterexample :
    parseArgs asciiDigit [ascii "-i", ascii "m", ascii "-o", ascii "-out.gguf"] = .error ∧
    parseArgs asciiDigit [ascii "-o", ascii "out", ascii "-i", ascii "--use-f32"] = .error ∧
    ¬ ∀ (dig : Nat → Bool) (i o : Text), parseArgs dig [ascii "-i", i, ascii "-o", o] = .run i o none false := by
  refine ⟨by decide, by decide, fun h => ?_⟩
  have h1 := h asciiDigit (ascii "m") (ascii "-out.gguf")
  have h2 : parseArgs asciiDigit [ascii "-i", ascii "m", ascii "-o", ascii "-out.gguf"] = .error := by decide
  rw [h2] at h1
  cases h1

/-- C129, help: the program ends with status 0 without writing exactly if help is asked for, after items and
stray words only, and nothing before `--` is ambiguous. -/
theorem C129_help (dig : Nat → Bool) (source : Text → Option Text → Option (Convert.Source α))
    (enc : Bool → List α → List Nat) (args : List Text) :
    convertMain dig source enc args = .exit 0 ↔
      ∃ pre h post, args = pre ++ h :: post ∧ Loose dig pre ∧ AsksHelp dig h post ∧ Unambiguous post := by
  rw [← parse_help]
  unfold convertMain
  constructor
  · intro h
    split at h
    · assumption
    · cases h
    · split at h
      · cases h
      · split at h <;> cases h
  · intro h
    rw [h]

example (dig : Nat → Bool) (source : Text → Option Text → Option (Convert.Source α)) (enc : Bool → List α → List Nat) :
    convertMain dig source enc [ascii "-im", ascii "stray", ascii "-hh", ascii "-i", ascii "--", ascii "--=x"] = .exit 0 :=
  (C129_help ..).2 ⟨[ascii "-im", ascii "stray"], ascii "-hh", [ascii "-i", ascii "--", ascii "--=x"], rfl,
    .item (.glued (o := .input) (p := ascii "-i") (v := ascii "m") rfl (by decide) (by decide)) (.stray (by
      rintro (⟨s, hs, h⟩ | ⟨h, _⟩)
      · simp only [List.mem_cons, List.not_mem_nil, or_false] at hs
        rcases hs with rfl | rfl | rfl <;> revert h <;> decide
      · revert h; decide) .nil),
    .inr ⟨1, [], rfl, .inl rfl⟩, (classify_iff (dig := dig)).1 ⟨_, rfl⟩⟩

/-- C129, exceptions: the program ends with status 1 exactly if the line is correct, but the model cannot be
loaded or not be converted. -/
theorem C129_exception (dig : Nat → Bool) (source : Text → Option Text → Option (Convert.Source α))
    (enc : Bool → List α → List Nat) (args : List Text) :
    convertMain dig source enc args = .exit 1 ↔
      ∃ is i o c, Line dig is args ∧ LastOf .input is (some i) ∧ LastOf .output is (some o) ∧ LastOf .cache is c ∧
        ∀ s f16, (f16 = true ↔ .f32 ∉ is) → source i c = some s → FileFormat.convertFile enc f16 s = none := by
  unfold convertMain
  constructor
  · intro h
    split at h
    · cases h
    · cases h
    · rename_i i o c f hp
      obtain ⟨is, h1, h2, h3, h4, h5⟩ := (C129_exact ..).1 hp
      refine ⟨is, i, o, c, h1, h2, h3, h4, fun s f16 h6 hs => ?_⟩
      have hf : f16 = !f := by
        rw [← h5] at h6
        cases f16 <;> cases f <;> simp at h6 ⊢
      rw [hs] at h
      subst hf
      simp only at h
      split at h
      · assumption
      · cases h
  · rintro ⟨is, i, o, c, h1, h2, h3, h4, h5⟩
    have hd := Classical.propDecidable (Item.f32 ∈ is)
    have hp := (C129_exact dig args i o c (decide (Item.f32 ∈ is))).2 ⟨is, h1, h2, h3, h4, by simp⟩
    rw [hp]
    simp only
    split
    · rfl
    · rename_i s hs
      rw [h5 s (!decide (Item.f32 ∈ is)) (by simp) hs]

example (dig : Nat → Bool) (enc : Bool → List α → List Nat) :
    convertMain dig (fun _ _ => none) enc agLine = .exit 1 :=
  (C129_exception ..).2 ⟨_, ascii "m", ascii "out.gguf", none, agLine_line dig,
    ⟨[.value .output (ascii "a")], _, rfl, fun u h => by simp at h⟩,
    ⟨[.value .output (ascii "a"), .value .input (ascii "m"), .f32], [], rfl, nofun⟩,
    fun v h => by simp at h, fun s f16 _ h => by cases h⟩

/-- C129, wrong lines: in all other cases the program ends with status 2 without writing: help is not asked
for, and the line is not a correct one with a model and a path. -/
theorem C129_refused (dig : Nat → Bool) (source : Text → Option Text → Option (Convert.Source α))
    (enc : Bool → List α → List Nat) (args : List Text) :
    convertMain dig source enc args = .exit 2 ↔
      (¬ ∃ pre h post, args = pre ++ h :: post ∧ Loose dig pre ∧ AsksHelp dig h post ∧ Unambiguous post) ∧
      ¬ ∃ is i o, Line dig is args ∧ LastOf .input is (some i) ∧ LastOf .output is (some o) := by
  rw [← parse_help]
  have hrun : (∃ is i o, Line dig is args ∧ LastOf .input is (some i) ∧ LastOf .output is (some o)) ↔
      ∃ i o c f, parseArgs dig args = .run i o c f := by
    constructor
    · rintro ⟨is, i, o, h1, h2, h3⟩
      have hd := Classical.propDecidable (Item.f32 ∈ is)
      exact ⟨i, o, slot (is.foldl ask {}) .cache, decide (Item.f32 ∈ is),
        (C129_exact ..).2 ⟨is, h1, h2, h3, (last_iff ..).1 rfl, by simp⟩⟩
    · rintro ⟨i, o, c, f, h⟩
      obtain ⟨is, h1, h2, h3, _⟩ := (C129_exact ..).1 h
      exact ⟨is, i, o, h1, h2, h3⟩
  rw [hrun]
  unfold convertMain
  constructor
  · intro h
    split at h
    · cases h
    · rename_i hp
      rw [hp]
      exact ⟨nofun, fun ⟨_, _, _, _, h⟩ => by cases h⟩
    · split at h
      · cases h
      · split at h <;> cases h
  · rintro ⟨h1, h2⟩
    split
    · exact absurd ‹_› h1
    · rfl
    · exact absurd ⟨_, _, _, _, ‹_›⟩ h2

/-- C129, errors: without a model or without a path nothing is written. -/
theorem C129_required (dig : Nat → Bool) (source : Text → Option Text → Option (Convert.Source α))
    (enc : Bool → List α → List Nat) {is : List Item} {args : List Text} (hl : Line dig is args)
    (hm : (∀ v, .value .input v ∉ is) ∨ ∀ v, .value .output v ∉ is) :
    convertMain dig source enc args = .exit 2 := by
  obtain ⟨cs, h1, h2⟩ := line_consume hl
  have : parseArgs dig args = .error := by
    unfold parseArgs
    have h3 := h1 []
    rw [List.append_nil] at h3
    rw [h3]
    show consume (cs ++ []) {} = .error
    rw [h2, consume]
    unfold finish
    rcases hm with hm | hm
    · have : (is.foldl ask {}).input = none := (last_iff .input is none).2 hm
      rw [this]
    · have : (is.foldl ask {}).output = none := (last_iff .output is none).2 hm
      rw [this]
      cases (is.foldl ask {}).input <;> rfl
  unfold convertMain
  rw [this]

example (dig : Nat → Bool) (source : Text → Option Text → Option (Convert.Source α)) (enc : Bool → List α → List Nat) :
    convertMain dig source enc [ascii "-im"] = .exit 2 :=
  C129_required dig source enc (is := [.value .input (ascii "m")])
    (.cons (.glued (p := ascii "-i") (v := ascii "m") rfl (by decide) (by decide)) .nil)
    (.inr fun v h => by simp at h)

end Berts.Props
