import Verif.Spec.ConvertLog
import Verif.Proofs.ConvertLoad

/-! # Lemmas about the output of the converter -/

namespace Berts.ConvertLog

open Berts.Convert Berts.Spec
open Berts.Vocab (ascii decimal placeTokens fillLoop writeBlobs converterTokens)
open Berts.Load (Kv TInfo Gguf)

variable {α β γ : Type}

/-! ## The monad -/

theorem bind_val (x : Py β) (f : β → Py γ) : (x >>= f).val = x.val.bind fun b => (f b).val := by
  show (Py.bind x f).val = _
  unfold Py.bind
  cases x.val <;> rfl

theorem bind_out_some {x : Py β} {f : β → Py γ} {b : β} (h : x.val = some b) : (x >>= f).out = x.out ++ (f b).out := by
  show (Py.bind x f).out = _
  unfold Py.bind
  rw [h]

theorem bind_out_none {x : Py β} {f : β → Py γ} (h : x.val = none) : (x >>= f).out = x.out := by
  show (Py.bind x f).out = _
  unfold Py.bind
  rw [h]

@[simp] theorem say_val (s : List Nat) : (say s).val = some () := rfl
@[simp] theorem say_out (s : List Nat) : (say s).out = [s] := rfl
@[simp] theorem try_val (x : Option β) : (try' x).val = x := rfl
@[simp] theorem try_out (x : Option β) : (try' x).out = [] := rfl
@[simp] theorem pure_val (b : β) : (pure b : Py β).val = some b := rfl
@[simp] theorem pure_out (b : β) : (pure b : Py β).out = [] := rfl

/-- A run that delivers a value `b` and prints `out`. -/
def Yields (x : Py β) (b : β) (out : List (List Nat)) : Prop := x.val = some b ∧ x.out = out

theorem Yields.bind {x : Py β} {b : β} {o o' : List (List Nat)} {f : β → Py γ} {c : γ} (h : Yields x b o)
    (h' : Yields (f b) c o') : Yields (x >>= f) c (o ++ o') :=
  ⟨by rw [bind_val, h.1]; exact h'.1, by rw [bind_out_some h.1, h.2, h'.2]⟩

theorem Yields.say {s : List Nat} {o' : List (List Nat)} {f : Unit → Py γ} {c : γ} (h' : Yields (f ()) c o') :
    Yields (ConvertLog.say s >>= f) c (s :: o') := Yields.bind (x := ConvertLog.say s) ⟨rfl, rfl⟩ h'

theorem Yields.try {x : Option β} {b : β} {o' : List (List Nat)} {f : β → Py γ} {c : γ} (h : x = some b)
    (h' : Yields (f b) c o') : Yields (try' x >>= f) c o' := by
  have := Yields.bind (x := try' x) (o := []) ⟨h, rfl⟩ h'
  simpa using this

theorem Yields.pure (b : β) : Yields (Pure.pure b : Py β) b [] := ⟨rfl, rfl⟩

/-! ## Adding tensors -/

/-- Several calls of `add_tensor`. -/
def addAll (ts : List Tensor) : List Tensor → Option (List Tensor)
  | [] => some ts
  | t :: l => (add ts t).bind fun ts' => addAll ts' l

theorem addAll_append (ts a b : List Tensor) : addAll ts (a ++ b) = (addAll ts a).bind fun ts' => addAll ts' b := by
  induction a generalizing ts with
  | nil => rfl
  | cons t a ih =>
    simp only [List.cons_append, addAll]
    cases add ts t with
    | none => rfl
    | some ts' => exact ih ts'

theorem addAll_eq (ts l : List Tensor) (h : (ts.map (·.name)).Nodup) :
    addAll ts l = if ((ts ++ l).map (·.name)).Nodup then some (ts ++ l) else none := by
  induction l generalizing ts with
  | nil => rw [List.append_nil, if_pos h]; rfl
  | cons t l ih =>
    simp only [addAll, add]
    by_cases hm : t.name ∈ ts.map (·.name)
    · rw [if_pos hm, if_neg]
      · rfl
      · intro hn
        rw [List.map_append, List.map_cons, List.nodup_append] at hn
        exact hn.2.2 _ hm _ List.mem_cons_self rfl
    · rw [if_neg hm]
      have h' : ((ts ++ [t]).map (·.name)).Nodup := by
        rw [List.map_append, List.nodup_append]
        refine ⟨h, by simp, ?_⟩
        intro a ha b hb e
        simp at hb
        exact hm (by rw [← hb, ← e]; exact ha)
      show addAll (ts ++ [t]) l = _
      rw [ih _ h', List.append_assoc]
      rfl

theorem stateLoop_val (E : Env α) (enc : Bool → List α → List Nat) (f16 : Bool) (ps : List (Param α)) (a : Acc) :
    (stateLoop E enc f16 ps a).val = (addAll a.ts (stateTensors enc f16 ps)).map fun ts =>
      ⟨ts, a.org + (ps.map (sizeOrg E)).sum, a.new + (ps.map (sizeNew f16)).sum⟩ := by
  induction ps generalizing a with
  | nil => simp [stateLoop, stateTensors, addAll]
  | cons p ps ih =>
    simp only [stateLoop, bind_val, try_val, say_val, Option.bind_some, stateTensors, List.map_cons, addAll]
    cases add a.ts (convTensor enc f16 (ascii "berts.bert." ++ p.key) p) with
    | none => rfl
    | some ts =>
      simp only [Option.bind_some]
      rw [ih]
      simp only [stateTensors, List.sum_cons, Nat.add_assoc]

theorem lmLoop_val (E : Env α) (enc : Bool → List α → List Nat) (f16 : Bool) (cls : Cls) (ps : List (Param α)) (a : Acc) :
    (lmLoop E enc f16 cls ps a).val = (addAll a.ts (lmTensors enc f16 cls ps)).map fun ts =>
      ⟨ts, a.org + (ps.map (sizeOrg E)).sum, a.new + (ps.map (sizeNew f16)).sum⟩ := by
  induction ps generalizing a with
  | nil => simp [lmLoop, lmTensors, addAll]
  | cons p ps ih =>
    by_cases h : lmKey cls p.key = ascii "predictions.bias"
    · rw [lmLoop, if_pos h, ih]
      simp only [lmTensors, List.map_cons, List.sum_cons, Nat.add_assoc]
      rw [List.filter_cons_of_neg (by simpa using h)]
    · rw [lmLoop, if_neg h]
      simp only [bind_val, try_val, say_val, Option.bind_some, lmTensors]
      rw [List.filter_cons_of_pos (by simpa using h)]
      simp only [List.map_cons, addAll]
      cases add a.ts (convTensor enc f16 (ascii "berts.bert." ++ lmKey cls p.key) p) with
      | none => rfl
      | some ts =>
        simp only [Option.bind_some]
        rw [ih]
        simp only [lmTensors, List.sum_cons, Nat.add_assoc]

theorem stateLoop_out (E : Env α) (enc : Bool → List α → List Nat) (f16 : Bool) (ps : List (Param α)) (a : Acc) {b : Acc}
    (h : (stateLoop E enc f16 ps a).val = some b) :
    (stateLoop E enc f16 ps a).out = ps.map fun p => paramText E f16 p.key p := by
  induction ps generalizing a with
  | nil => rfl
  | cons p ps ih =>
    rw [stateLoop] at h ⊢
    cases ht : add a.ts (convTensor enc f16 (ascii "berts.bert." ++ p.key) p) with
    | none => rw [bind_val, try_val, ht] at h; cases h
    | some ts =>
      rw [bind_val, try_val, ht, Option.bind_some, bind_val, say_val, Option.bind_some] at h
      rw [bind_out_some (try_val _), bind_out_some (say_val _), ih _ h]
      rfl

theorem lmLoop_out (E : Env α) (enc : Bool → List α → List Nat) (f16 : Bool) (cls : Cls) (ps : List (Param α)) (a : Acc)
    {b : Acc} (h : (lmLoop E enc f16 cls ps a).val = some b) :
    (lmLoop E enc f16 cls ps a).out =
      (ps.filter fun p => lmKey cls p.key ≠ ascii "predictions.bias").map fun p => paramText E f16 (lmKey cls p.key) p := by
  induction ps generalizing a with
  | nil => rfl
  | cons p ps ih =>
    by_cases hk : lmKey cls p.key = ascii "predictions.bias"
    · rw [lmLoop, if_pos hk] at h ⊢
      rw [ih _ h, List.filter_cons_of_neg (by simpa using hk)]
    · rw [lmLoop, if_neg hk] at h ⊢
      rw [List.filter_cons_of_pos (by simpa using hk)]
      cases ht : add a.ts (convTensor enc f16 (ascii "berts.bert." ++ lmKey cls p.key) p) with
      | none => rw [bind_val, try_val, ht] at h; cases h
      | some ts =>
        rw [bind_val, try_val, ht, Option.bind_some, bind_val, say_val, Option.bind_some] at h
        rw [bind_out_some (try_val _), bind_out_some (say_val _), ih _ h]
        rfl

/-! ## The value -/

theorem writeBertP_val (E : Env α) (c : Config) (t : Tokenizer) : (writeBertP E c t).val = writeBert c t := by
  unfold writeBertP writeBert
  simp only [bind_val, say_val, try_val, Option.bind_some, Option.bind_eq_bind]
  cases hparamKv 0 0 c with
  | none => rfl
  | some k1 =>
    simp only [Option.bind_some]
    split
    · simp only [Option.bind_some]
      cases specialKv t with
      | none => rfl
      | some k2 => rcases t.neverSplit with _ | _ | ⟨_, _⟩ <;> rfl
    · rfl

theorem writeRobertaP_val (E : Env α) (c : Config) (t : Tokenizer) : (writeRobertaP E c t).val = writeRoberta c t := by
  unfold writeRobertaP writeRoberta
  simp only [bind_val, say_val, try_val, Option.bind_some, Option.bind_eq_bind]
  rfl

theorem vocab_names_ne : ascii "berts.vocab.data" ≠ ascii "berts.vocab.size" := by decide +kernel

theorem writeVocabP_val (c : Config) (t : Tokenizer) : (writeVocabP c t).val = writeVocab c t := by
  unfold writeVocabP writeVocab converterTokens
  simp only [bind_val, say_val, try_val, Option.bind_some, Option.bind_eq_bind]
  cases placeTokens (List.replicate c.vocabSize none) t.dict with
  | none => rfl
  | some tokens =>
    simp only [Option.bind_some]
    cases fillLoop tokens tokens 0 with
    | none => rfl
    | some filled =>
      simp only [Option.bind_some]
      cases writeBlobs filled with
      | none => rfl
      | some b =>
        obtain ⟨ls, ds⟩ := b
        simp only [Option.bind_some, bind_val, try_val, add, List.map_nil, List.not_mem_nil, if_false, List.nil_append,
          List.map_cons, List.mem_singleton, vocab_names_ne]
        rfl

theorem writeMergeP_val (t : Tokenizer) (ts : List Tensor) :
    (writeMergeP t ts).val = (writeMerge t).bind (addAll ts) := by
  unfold writeMergeP writeMerge
  cases t.ranks with
  | none => rfl
  | some ranks =>
    simp only [bind_val, say_val, try_val, Option.bind_some, Option.bind_eq_bind]
    cases mergeData t.dict ranks with
    | none => rfl
    | some l =>
      simp only [Option.bind_some]
      split
      · simp only [Option.bind_some, Option.pure_def, addAll]
        rfl
      · rfl

theorem vocab_nodup {c : Config} {t : Tokenizer} {ts : List Tensor} (h : writeVocab c t = some ts) :
    (ts.map (·.name)).Nodup := by
  unfold writeVocab at h
  simp only [Option.bind_eq_bind, Option.bind_eq_some_iff] at h
  obtain ⟨tokens, _, ⟨ls, ds⟩, _, h⟩ := h
  cases Option.some.inj h
  show [ascii "berts.vocab.size", ascii "berts.vocab.data"].Nodup
  decide +kernel

theorem addAll_nodup {ts l r : List Tensor} (h : addAll ts l = some r) (hts : (ts.map (·.name)).Nodup) :
    (r.map (·.name)).Nodup ∧ r = ts ++ l := by
  rw [addAll_eq _ _ hts] at h
  split at h
  · cases Option.some.inj h
    exact ⟨by assumption, rfl⟩
  · cases h

theorem convertP_val (E : Env α) (enc : Bool → List α → List Nat) (f16 : Bool) (header : List Nat) (s : Source α) :
    (convertP E enc f16 header s).val = convert enc f16 header s := by
  unfold convertP convert
  simp only [bind_val, say_val, Option.bind_some, Option.bind_eq_bind]
  refine Eq.trans (congrArg (fun x => Option.bind x _) (show _ = (match s.cls with
      | .bert => do let kv ← writeBert s.config s.tok; pure ("BERT", kv)
      | .roberta => do let kv ← writeRoberta s.config s.tok; pure ("RoBERTa", kv)
      | .other => none) from ?_)) (congrArg (Option.bind _) (funext fun x => ?_))
  · cases s.cls with
    | bert => simp only [bind_val, writeBertP_val, pure_val]; rfl
    | roberta => simp only [bind_val, writeRobertaP_val, pure_val]; rfl
    | other => rfl
  obtain ⟨arch, kv⟩ := x
  simp only [bind_val, say_val, Option.bind_some, writeVocabP_val]
  cases hv : writeVocab s.config s.tok with
  | none => rfl
  | some vs =>
    simp only [Option.bind_some, writeMergeP_val]
    have hn := vocab_nodup hv
    cases writeMerge s.tok with
    | none => rfl
    | some ms =>
      simp only [Option.bind_some, stateLoop_val, lmLoop_val, Option.bind_map, Function.comp_def, pure_val]
      rw [show vs ++ ms ++ stateTensors enc f16 s.state ++ lmTensors enc f16 s.cls s.lm =
        vs ++ (ms ++ (stateTensors enc f16 s.state ++ lmTensors enc f16 s.cls s.lm)) by simp]
      have h1 := addAll_eq vs (ms ++ (stateTensors enc f16 s.state ++ lmTensors enc f16 s.cls s.lm)) hn
      rw [addAll_append] at h1
      cases hm : addAll vs ms with
      | none =>
        rw [hm] at h1
        simp only [Option.bind_none] at h1 ⊢
        split at h1
        · cases h1
        · rw [if_neg (by assumption)]
      | some a =>
        rw [hm, Option.bind_some, addAll_append] at h1
        simp only [Option.bind_some]
        cases hs : addAll a (stateTensors enc f16 s.state) with
        | none =>
          rw [hs] at h1
          simp only [Option.bind_none, Option.map_none] at h1 ⊢
          split at h1
          · cases h1
          · rw [if_neg (by assumption)]
        | some b =>
          rw [hs, Option.bind_some] at h1
          simp only [Option.bind_some, Option.map_some]
          rw [h1]
          split <;> rfl

end Berts.ConvertLog
