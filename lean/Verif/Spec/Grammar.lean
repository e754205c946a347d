import Verif.Spec.FileFormat
import Verif.Spec.Roberta

/-! # The grammar of the files -/

namespace Berts.FileFormat

open Berts.Load (Kv TInfo Gguf)
open Berts.Vocab (ascii)
open Berts.Quantize (Info le infoBytes AlignedAs)
open Berts.Spec (Each)

/-- The file consists of bytes. -/
abbrev Octets (b : List Nat) : Prop := ∀ x ∈ b, x < 256

/-- The bytes of a value: those of the four types that the program asks for, and all the others. -/
inductive ValueAs : Kv → List Nat → Prop
  | u32 {n : Nat} (h : n < 2 ^ 32) : ValueAs (.u32 n) (le 4 4 ++ le 4 n)
  | f64 {n : Nat} (h : n < 2 ^ 64) : ValueAs (.f64 n) (le 4 12 ++ le 8 n)
  | no : ValueAs (.bool false) (le 4 7 ++ [0])
  | yes {n : Nat} (h : 0 < n ∧ n < 256) : ValueAs (.bool true) (le 4 7 ++ [n])
  | str {s : List Nat} (h : s.length < 2 ^ 64) : ValueAs (.str s) (le 4 8 ++ strBytes s)
  | other {b : List Nat} (h : OtherAs b) : ValueAs (.other b) b

/-- A key and its value. -/
def EntryAs (p : List Nat × Kv) (b : List Nat) : Prop :=
  p.1.length < 2 ^ 64 ∧ ∃ v, ValueAs p.2 v ∧ b = strBytes p.1 ++ v

/-- The file begins with these metadata and this directory, and `rest` is what follows.  Any version but 1. -/
def FileAs (nb : Nat → List Nat → Nat) (ok : Nat → List Nat → Bool) (file : List Nat) (kv : List (List Nat × Kv))
    (dir : List TInfo) (rest : List Nat) : Prop :=
  ∃ version entries, version ≠ 1 ∧ version < 2 ^ 32 ∧ dir.length < 2 ^ 64 ∧ kv.length < 2 ^ 64 ∧ Each EntryAs kv entries ∧
    (∀ t ∈ dir, InfoOk ok (record t) ∧ t.nbytes = nb t.type t.ne) ∧
    file = ascii "GGUF" ++ (le 4 version ++ (le 8 dir.length ++ (le 8 kv.length ++ (entries.flatten ++
      (dir.flatMap (fun t => infoBytes (record t)) ++ rest)))))

end Berts.FileFormat
