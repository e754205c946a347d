import Verif.Model.Vocab

/-! # Specification vocabulary for token lists -/

namespace Berts.Spec

open Berts.Vocab

/-- The list of tokens after a history of calls: each new token is appended once. -/
def tokensAfter (ops : List Op) : List (List Nat) :=
  ops.foldl (fun l o => match o with
      | .add t => if t ∈ l then l else l ++ [t]
      | .clear => []) []

/-- The first "present" id of a list of candidates. -/
def firstValid : List (Option Nat) → Option Nat
  | [] => none
  | some i :: l => if i = INVALID then firstValid l else some i
  | none :: l => firstValid l

/-- Cumulative length the length blob stands for. -/
def totalLen : List Nat → Nat
  | [] => 0
  | l :: ls => (if l = 0 then 256 else l) + totalLen ls

/-- Cutting data according to the length blob. -/
def cut : List Nat → List Nat → List (List Nat)
  | [], _ => []
  | l :: ls, d => d.take (if l = 0 then 256 else l) :: cut ls (d.drop (if l = 0 then 256 else l))

/-- Through its public functions, the vocabulary is the list `l` with the positions as ids. -/
def Shows (v : VocabT) (l : List (List Nat)) : Prop :=
  v.tokenCount = l.length ∧ (∀ i, v.idToToken i = l[i]?.getD []) ∧
  (∀ (i : Nat) t, l[i]? = some t → v.tokenToId t = i) ∧ ∀ t, t ∉ l → v.tokenToId t = INVALID

/-- A tensor as the loader wants it: one-dimensional, bytes. -/
def IsBlob (t : Option BlobTensor) (l : List Nat) : Prop := t = some ⟨true, 1, l⟩

end Berts.Spec
