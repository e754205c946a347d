import Verif.Proofs.QuantizeFile

/-! # Quantizing what was quantized -/

namespace Berts.Quantize

open Berts.Load (Kv LT)
open Berts.Vocab (ascii)

theorem setKey_keys (kv : List (List Nat × Kv)) (k : List Nat) (v : Kv) :
    (setKey kv k v).map (·.1) = if k ∈ kv.map (·.1) then kv.map (·.1) else kv.map (·.1) ++ [k] := by
  induction kv with
  | nil => simp [setKey]
  | cons p kv ih =>
    unfold setKey
    by_cases hp : p.1 = k
    · rw [if_pos hp, if_pos (by simp [hp])]
      simp [hp]
    · rw [if_neg hp, List.map_cons, ih, List.map_cons]
      have : (k ∈ p.1 :: kv.map (·.1)) ↔ k ∈ kv.map (·.1) := by
        rw [List.mem_cons]
        exact ⟨fun h => h.resolve_left (fun e => hp e.symm), .inr⟩
      by_cases hk : k ∈ kv.map (·.1)
      · rw [if_pos hk, if_pos (this.2 hk)]
      · rw [if_neg hk, if_neg (fun h => hk (this.1 h))]
        rfl

theorem setKey_nodup {kv : List (List Nat × Kv)} (h : (kv.map (·.1)).Nodup) (k : List Nat) (v : Kv) :
    ((setKey kv k v).map (·.1)).Nodup := by
  rw [setKey_keys]
  split
  · exact h
  · rename_i hk
    rw [List.nodup_append]
    refine ⟨h, by simp, ?_⟩
    intro a ha b hb
    rw [List.mem_singleton] at hb
    subst hb
    rintro rfl
    exact hk ha

theorem setKey_self (kv : List (List Nat × Kv)) (k : List Nat) (v : Kv) : (k, v) ∈ setKey kv k v := by
  induction kv with
  | nil => simp [setKey]
  | cons p kv ih =>
    unfold setKey
    split
    · simp
    · exact List.mem_cons_of_mem _ ih

theorem setKey_other {kv : List (List Nat × Kv)} {k : List Nat} {v : Kv} {p : List Nat × Kv} (hp : p ∈ kv) (hk : p.1 ≠ k) :
    p ∈ setKey kv k v := by
  induction kv with
  | nil => cases hp
  | cons q kv ih =>
    unfold setKey
    rcases List.mem_cons.1 hp with rfl | hp
    · rw [if_neg hk]; simp
    · split
      · exact List.mem_cons_of_mem _ hp
      · exact List.mem_cons_of_mem _ (ih hp)

theorem setKey_same {kv : List (List Nat × Kv)} (h : (kv.map (·.1)).Nodup) {k : List Nat} {v : Kv} (hm : (k, v) ∈ kv) :
    setKey kv k v = kv := by
  induction kv with
  | nil => cases hm
  | cons q kv ih =>
    rw [List.map_cons, List.nodup_cons] at h
    unfold setKey
    rcases List.mem_cons.1 hm with rfl | hm
    · rw [if_pos rfl]
    · rw [if_neg, ih h.2 hm]
      rintro rfl
      exact h.1 (List.mem_map_of_mem (f := (·.1)) hm)

theorem quantKv_nodup {kv : List (List Nat × Kv)} (h : (kv.map (·.1)).Nodup) (ver qtype : Nat) :
    ((quantKv ver qtype kv).map (·.1)).Nodup := by
  unfold quantKv
  rw [copyKv_eq kv [] h, List.nil_append]
  exact setKey_nodup (setKey_nodup h _ _) _ _

/-- The metadata do not change any more. -/
theorem quantKv_again {kv : List (List Nat × Kv)} (h : (kv.map (·.1)).Nodup) (ver qtype : Nat) :
    quantKv ver qtype (quantKv ver qtype kv) = quantKv ver qtype kv := by
  have hn := quantKv_nodup h ver qtype
  have h1 : (ascii "general.file_type", Kv.u32 qtype) ∈ quantKv ver qtype kv := setKey_self _ _ _
  have hk : ascii "general.quantization_version" ≠ ascii "general.file_type" := by decide +kernel
  have h2 : (ascii "general.quantization_version", Kv.u32 ver) ∈ quantKv ver qtype kv :=
    setKey_other (setKey_self _ _ _) hk
  generalize quantKv ver qtype kv = kv' at hn h1 h2
  rw [quantKv, copyKv_eq _ [] hn, List.nil_append, setKey_same hn h2, setKey_same hn h1]

theorem setKey_twice (kv : List (List Nat × Kv)) (k : List Nat) (v v' : Kv) :
    setKey (setKey kv k v) k v' = setKey kv k v' := by
  induction kv with
  | nil => simp [setKey]
  | cons q kv ih =>
    by_cases hq : q.1 = k
    · simp [setKey, hq]
    · simp [setKey, hq, ih]

/-- Of the metadata of an earlier run nothing is left. -/
theorem quantKv_twice {kv : List (List Nat × Kv)} (h : (kv.map (·.1)).Nodup) (ver mid qtype : Nat) :
    quantKv ver qtype (quantKv ver mid kv) = quantKv ver qtype kv := by
  have hn := quantKv_nodup h ver mid
  have hk : ascii "general.quantization_version" ≠ ascii "general.file_type" := by decide +kernel
  have h2 : (ascii "general.quantization_version", Kv.u32 ver) ∈ quantKv ver mid kv :=
    setKey_other (setKey_self _ _ _) hk
  have e : ∀ kv', (kv'.map (·.1)).Nodup → (ascii "general.quantization_version", Kv.u32 ver) ∈ kv' →
      quantKv ver qtype kv' = setKey kv' (ascii "general.file_type") (Kv.u32 qtype) := by
    intro kv' h1 h2
    rw [quantKv, copyKv_eq _ [] h1, List.nil_append, setKey_same h1 h2]
  rw [e _ hn h2]
  simp only [quantKv]
  rw [setKey_twice]

theorem zipWith_right {A B C : Type} (f : B → C) (xs : List A) (ys : List B) (h : ys.length = xs.length) :
    List.zipWith (fun _ y => f y) xs ys = ys.map f := by
  induction xs generalizing ys with
  | nil => cases ys with
    | nil => rfl
    | cons => cases h
  | cons x xs ih => cases ys with
    | nil => cases h
    | cons y ys => rw [List.zipWith_cons_cons, List.map_cons, ih ys (by simpa using h)]

theorem zipWith_left {A B C : Type} (f : A → C) (xs : List A) (ys : List B) (h : ys.length = xs.length) :
    List.zipWith (fun x _ => f x) xs ys = xs.map f := by
  induction xs generalizing ys with
  | nil => cases ys with
    | nil => rfl
    | cons => cases h
  | cons x xs ih => cases ys with
    | nil => cases h
    | cons y ys => rw [List.zipWith_cons_cons, List.map_cons, ih ys (by simpa using h)]

end Berts.Quantize
