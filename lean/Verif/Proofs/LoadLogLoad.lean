import Verif.Proofs.LoadLogInit

/-! # Lemmas about loading with messages: the weights and the whole -/

namespace Berts.Load

open Berts.Vocab Berts.Log Berts.Format Berts.Spec
open Berts.Bert (runLines runLines_append runLines_one bind_assoc' ok_bind')
open Berts.Bpe (Str)

/-! ## Formats -/

theorem fmt_failRead (t : List Nat) :
    vformat (bytes! "failed to read tensor: {}") [textArg t] = some (bytes! "failed to read tensor: " ++ t) := by
  formats (lits (bytes! "failed to read tensor: ") ++ [.field 0 []])

theorem fmt_store (t : List Nat) : vformat (bytes! "  store {}") [textArg t] = some (bytes! "  store " ++ t) := by
  formats (lits (bytes! "  store ") ++ [.field 0 []])

theorem fmt_unused (n : Nat) (t : List Nat) :
    vformat (bytes! "  unused {} {}") [numArg n, textArg t] =
    some (bytes! "  unused " ++ decimal n ++ bytes! " " ++ t) := by
  formats (lits (bytes! "  unused ") ++ .field 0 [] :: (lits (bytes! " ") ++ [.field 1 []]))

theorem fmt_act (n : Nat) :
    vformat (bytes! "unknown hidden_act: {}") [intArg (asI32 n)] =
    some (bytes! "unknown hidden_act: " ++ showInt (signed32 n)) := by
  formats (lits (bytes! "unknown hidden_act: ") ++ [.field 0 []])

theorem fmt_arch (n : Nat) :
    vformat (bytes! "unknown bert_type: {}") [intArg (asI32 n)] =
    some (bytes! "unknown bert_type: " ++ showInt (signed32 n)) := by
  formats (lits (bytes! "unknown bert_type: ") ++ [.field 0 []])

theorem fmt_path (t : List Nat) :
    vformat (bytes! "loading model: {}") [textArg t] = some (bytes! "loading model: " ++ t) := by
  formats (lits (bytes! "loading model: ") ++ [.field 0 []])

theorem fmt_noFile (t : List Nat) :
    vformat (bytes! "fail to load gguf file: {}") [textArg t] = some (bytes! "fail to load gguf file: " ++ t) := by
  formats (lits (bytes! "fail to load gguf file: ") ++ [.field 0 []])

section

variable {C : Prop} {pre : List (Int × List Nat)}

/-! ## The weights -/

theorem neededL_tells (ts : List LT) (ks : List (List Nat)) (hc : C → Calm pre) :
    Tells C (neededL ts ks) (.ok (ks.all fun k => (getTensor ts k).isSome)) pre
      fun b ls => b = true → ls = pre ++ ks.map storeLine := by
  induction ks generalizing pre with
  | nil => exact Tells.pure hc fun _ => (List.append_nil _).symm
  | cons k ks ih =>
    unfold neededL tensorL
    cases hk : getTensor ts k with
    | none =>
      simp only [List.all_cons, hk, Option.isSome_none, Bool.false_and]
      refine Tells.after (a := false) ((says_sayF (fmt_failRead k)).then
        ((says_sayF (v := .debug) (fmt_store k)).then (says_pure false))) ?_
      refine Tells.pure ?_ (by simp)
      rw [List.append_nil]
      exact fun c => (hc c).append ((calm_info _).append (calm_debug _))
    | some t =>
      simp only [List.all_cons, hk, Option.isSome_some, Bool.true_and]
      refine Tells.after (a := true) ((says_sayF (v := .debug) (fmt_store k)).then (says_pure true)) ?_
      rw [List.append_nil]
      refine (ih fun c => (hc c).append (calm_debug _)).mono ?_
      intro b ls _ h hb
      rw [h hb, List.append_assoc]
      rfl

/-- What is said about an optional tensor. -/
def optionalLines (ts : List LT) (k : List Nat) : List (Int × List Nat) :=
  (if (getTensor ts k).isSome then [] else [line 1 (bytes! "failed to read tensor: " ++ k)]) ++ [storeLine k]

theorem optionalL_says (ts : List LT) (ks : List (List Nat)) :
    Says (optionalL ts ks) (.ok (ks.filter (fun k => (getTensor ts k).isSome),
      ks.filter (fun k => !(getTensor ts k).isSome))) (ks.flatMap (optionalLines ts)) := by
  induction ks with
  | nil => exact says_pure _
  | cons k ks ih =>
    unfold optionalL tensorL
    cases hk : getTensor ts k with
    | none =>
      simp only [List.filter_cons, hk, Option.isSome_none, Bool.not_false, Bool.false_eq_true, if_false, if_true,
        List.flatMap_cons, optionalLines]
      refine Says.congr (((says_sayF (fmt_failRead k)).then
        ((says_sayF (v := .debug) (fmt_store k)).then (says_pure false))).then (ih.then (says_pure _))) (by simp)
        (by simp [storeLine, line, Sev.val, optionalLines])
    | some t =>
      simp only [List.filter_cons, hk, Option.isSome_some, Bool.not_true, Bool.false_eq_true, if_false, if_true,
        List.flatMap_cons, optionalLines]
      exact Says.congr (((says_sayF (v := .debug) (fmt_store k)).then (says_pure true)).then (ih.then (says_pure _)))
        (by simp) (by simp [storeLine, line, Sev.val, optionalLines])

theorem unusedL_says (stored : List (List Nat)) (dir : List TInfo) (i : Nat) :
    Says (unusedL stored i dir) (.ok ()) ((((dir.zipIdx i).map fun p => (p.2, p.1.name)).filter fun p =>
      decide (p.2 ∉ stored ∧ p.2 ≠ ascii "berts.vocab.size" ∧ p.2 ≠ ascii "berts.vocab.data")).map fun p =>
        line 1 (bytes! "  unused " ++ decimal p.1 ++ bytes! " " ++ p.2)) := by
  induction dir generalizing i with
  | nil => exact says_pure _
  | cons t dir ih =>
    unfold unusedL
    rw [List.zipIdx_cons, List.map_cons, List.filter_cons]
    by_cases h : t.name ∉ stored ∧ t.name ≠ ascii "berts.vocab.size" ∧ t.name ≠ ascii "berts.vocab.data"
    · rw [if_pos h, if_pos (by simpa using h)]
      exact Says.congr ((says_sayF (fmt_unused i t.name)).then (ih (i + 1))) rfl rfl
    · rw [if_neg h, if_neg (by simpa using h)]
      exact ih (i + 1)

theorem skippedL_says (not_ : List (List Nat)) (dir : List TInfo) (i : Nat) (h : ∀ t ∈ dir, t.name ∉ not_) :
    Says (skippedL not_ i dir) (.ok ()) [] := by
  induction dir generalizing i with
  | nil => exact says_pure _
  | cons t dir ih =>
    unfold skippedL
    rw [if_neg (h t (by simp))]
    exact ih (i + 1) fun t' ht => h t' (by simp [ht])

theorem found_iff (ts : List LT) (k : List Nat) : (getTensor ts k).isSome = true ↔ k ∈ ts.map (·.name) := by
  unfold getTensor
  rw [List.find?_isSome]
  simp only [beq_iff_eq, List.mem_map]

theorem headKeys_eq : headKeys = headNames := by decide +kernel

theorem mem_needed (n : Nat) (k : List Nat) : k ∈ neededKeys n ↔ k ∈ requiredNames n := by
  unfold neededKeys requiredNames
  simp only [List.mem_append, List.mem_flatMap, List.mem_range, List.map_cons, List.map_nil, List.mem_cons,
    List.not_mem_nil, or_false, layerKeys, key_eq, layerKey_eq, exists_eq_or_imp, exists_eq_left]
  constructor
  · rintro ((h | ⟨i, hi, h⟩) | h)
    · left
      rcases h with h | h | h | h | h <;> simp [h]
    · right
      refine ⟨i, hi, ?_⟩
      rcases h with h | h | h | h | h | h | h | h | h | h | h | h | h | h | h | h <;> subst h
      · exact .inl (.inl rfl)
      · exact .inl (.inr rfl)
      · exact .inr (.inl (.inl rfl))
      · exact .inr (.inl (.inr rfl))
      · exact .inr (.inr (.inl (.inl rfl)))
      · exact .inr (.inr (.inl (.inr rfl)))
      · exact .inr (.inr (.inr (.inl (.inl rfl))))
      · exact .inr (.inr (.inr (.inl (.inr rfl))))
      · exact .inr (.inr (.inr (.inr (.inl (.inl rfl)))))
      · exact .inr (.inr (.inr (.inr (.inl (.inr rfl)))))
      · exact .inr (.inr (.inr (.inr (.inr (.inl (.inl rfl))))))
      · exact .inr (.inr (.inr (.inr (.inr (.inl (.inr rfl))))))
      · exact .inr (.inr (.inr (.inr (.inr (.inr (.inl (.inl rfl)))))))
      · exact .inr (.inr (.inr (.inr (.inr (.inr (.inl (.inr rfl)))))))
      · exact .inr (.inr (.inr (.inr (.inr (.inr (.inr (.inl rfl)))))))
      · exact .inr (.inr (.inr (.inr (.inr (.inr (.inr (.inr rfl)))))))
    · left
      rcases h with h | h <;> simp [h]
  · rintro (h | ⟨i, hi, h⟩)
    · rcases h with h | h | h | h | h | h | h <;> simp [h]
    · left
      right
      refine ⟨i, hi, ?_⟩
      rcases h with (h | h) | (h | h) | (h | h) | (h | h) | (h | h) | (h | h) | (h | h) | (h | h) <;> subst h
      · exact .inl rfl
      · exact .inr (.inl rfl)
      · exact .inr (.inr (.inl rfl))
      · exact .inr (.inr (.inr (.inl rfl)))
      · exact .inr (.inr (.inr (.inr (.inl rfl))))
      · exact .inr (.inr (.inr (.inr (.inr (.inl rfl)))))
      · exact .inr (.inr (.inr (.inr (.inr (.inr (.inl rfl))))))
      · exact .inr (.inr (.inr (.inr (.inr (.inr (.inr (.inl rfl)))))))
      · exact .inr (.inr (.inr (.inr (.inr (.inr (.inr (.inr (.inl rfl))))))))
      · exact .inr (.inr (.inr (.inr (.inr (.inr (.inr (.inr (.inr (.inl rfl)))))))))
      · exact .inr (.inr (.inr (.inr (.inr (.inr (.inr (.inr (.inr (.inr (.inl rfl))))))))))
      · exact .inr (.inr (.inr (.inr (.inr (.inr (.inr (.inr (.inr (.inr (.inr (.inl rfl)))))))))))
      · exact .inr (.inr (.inr (.inr (.inr (.inr (.inr (.inr (.inr (.inr (.inr (.inr (.inl rfl))))))))))))
      · exact .inr (.inr (.inr (.inr (.inr (.inr (.inr (.inr (.inr (.inr (.inr (.inr (.inr (.inl rfl)))))))))))))
      · exact .inr (.inr (.inr (.inr (.inr (.inr (.inr (.inr (.inr (.inr (.inr (.inr (.inr (.inr (.inl rfl))))))))))))))
      · exact .inr (.inr (.inr (.inr (.inr (.inr (.inr (.inr (.inr (.inr (.inr (.inr (.inr (.inr (.inr rfl))))))))))))))

theorem needed_looked (n : Nat) : neededKeys n = lookedUp n := by
  unfold neededKeys lookedUp
  simp only [List.map_cons, List.map_nil, key_eq]
  have hl : layerKeys = fun i => ["attention.self.query", "attention.self.key", "attention.self.value",
      "attention.output.dense", "attention.output.LayerNorm", "intermediate.dense", "output.dense",
      "output.LayerNorm"].flatMap fun s =>
        ["weight", "bias"].map fun x => ascii "berts.bert.encoder.layer." ++ decimal i ++ ascii ("." ++ s ++ "." ++ x) := by
    funext i
    simp only [layerKeys, layerKey_eq]
    rfl
  rw [hl]
  rfl

theorem weights_found {α : Type} (ts : List LT) (conv : LT → Graph.T α) (n : Nat) :
    (initWeights (fun k => (getTensor ts k).map conv) n).isSome =
      ((neededKeys n).all fun k => (getTensor ts k).isSome) := by
  rw [Bool.eq_iff_iff, List.all_eq_true, Option.isSome_iff_exists]
  simp only [initWeights_iff]
  rw [named_iff]
  constructor
  · intro h k hk
    simpa using h k ((mem_needed n k).1 hk)
  · intro h k hk
    simpa using h k ((mem_needed n k).2 hk)

theorem weightsL_tells (g : Gguf) (ts : List LT) (n : Nat) (hn : ts.map (·.name) = g.dir.map (·.name))
    (hc : C → Calm pre) :
    Tells C (weightsL g ts n) (.ok ((neededKeys n).all fun k => (getTensor ts k).isSome)) pre
      fun b ls => b = true → ls = pre ++ weightLines g n := by
  unfold weightsL
  have hr : ∀ r : Res Bool, r = r.bind fun o => .ok o := fun r => by cases r <;> rfl
  rw [hr (.ok _)]
  refine (neededL_tells ts (neededKeys n) hc).bind ?_
  intro b ls _ hls he
  cases b with
  | false => exact Tells.pure hls (by simp)
  | true =>
    have := he rfl
    subst this
    have hf : ∀ k, (getTensor ts k).isSome = decide (k ∈ g.dir.map (·.name)) := by
      intro k
      rw [← hn, Bool.eq_iff_iff, decide_eq_true_iff]
      exact found_iff ts k
    have hs := optionalL_says ts headKeys
    have hu := (unusedL_says (neededKeys n ++ headKeys.filter (fun k => (getTensor ts k).isSome)) g.dir 0).when (l := 1)
      (by
        intro x hx
        simp only [List.mem_map] at hx
        obtain ⟨p, _, rfl⟩ := hx
        exact Int.le_refl 1)
    have hk := (skippedL_says (headKeys.filter (fun k => !(getTensor ts k).isSome)) g.dir 0 (by
      intro t ht hm
      have h := (List.mem_filter.1 hm).2
      rw [hf] at h
      simp only [Bool.not_eq_true', decide_eq_false_iff_not] at h
      exact h (List.mem_map_of_mem ht))).when (l := 1) (by intro x hx; cases hx)
    have hall := hs.then (k := fun r => do
      sayWhen 1 (unusedL (neededKeys n ++ r.1) 0 g.dir)
      sayWhen 1 (skippedL r.2 0 g.dir)
      pure true) (hu.then (hk.then (says_pure true)))
    refine ⟨_, hall, ?_, ?_⟩
    · intro c
      refine (hls c).append (calm_low ?_)
      intro l hl
      simp only [List.append_nil, List.mem_append, List.mem_map] at hl
      rcases hl with hl | ⟨_, _, rfl⟩
      · obtain ⟨k, _, hl⟩ := List.mem_flatMap.1 hl
        unfold optionalLines at hl
        rcases List.mem_append.1 hl with hl | hl
        · split at hl
          · cases hl
          · cases List.mem_singleton.1 hl
            exact Int.le_refl 1
        · cases List.mem_singleton.1 hl
          exact Int.zero_le_ofNat 1
      · exact Int.le_refl 1
    · intro _ _ _
      unfold weightLines unusedOf
      rw [List.append_nil, List.append_nil, headKeys_eq, needed_looked, List.append_assoc, List.append_assoc]
      congr 2
      congr 1
      · congr 1
        funext k
        unfold optionalLines
        simp only [hf, decide_eq_true_eq]
      · congr 1
        apply List.filter_congr
        intro p hp
        obtain ⟨q, hq, rfl⟩ := List.mem_map.1 hp
        have hq' : q.1.name ∈ g.dir.map (·.name) := by
          have := List.mem_zipIdx' hq
          rw [this.2]
          exact List.mem_map_of_mem (List.getElem_mem _)
        simp only [List.mem_append, List.mem_filter, hf, ← needed_looked, mem_needed, List.mem_cons, List.not_mem_nil, or_false]
        apply decide_eq_decide.2
        simp only [decide_eq_true_eq, hq', and_true]
        constructor
        · rintro ⟨h1, h2, h3⟩ (h | h | h)
          · exact h1 h
          · exact h2 h
          · exact h3 h
        · intro h
          exact ⟨fun h' => h (.inl h'), fun h' => h (.inr (.inl h')), fun h' => h (.inr (.inr h'))⟩

/-! ## The whole -/

/-- The last line but for what is freed is an error that is written at every level. -/
def Loud (pr : Printed) (ls : List (Int × List Nat)) : Prop :=
  ∃ m ∈ loudEnds, ∃ a, ls = a ++ [line 3 m] ++ freedAfter pr m

theorem calm_loud {m : List Nat} (h : m ∈ loudEnds) : Calm [line 3 m] := by
  refine calm_one fun _ => ?_
  have : ∀ m ∈ loudEnds, Plain m := by decide
  exact this m h

variable {α : Type}

theorem createL_tells (w : World α) (g : Gguf) (hp : Hp) (type : Nat) (ts : List LT) (l : Ledger)
    (hn : ts.map (·.name) = g.dir.map (·.name)) (hC : C → VocabPlain ts) (hc : C → Calm pre) :
    Tells C (createL w g hp type ts l) (create w g hp type ts l) pre
      fun x ls => (∀ c, x.1 = some c → c.hp = hp ∧ c.type = type ∧ ((tokensOf c.vocab).length ≤ INVALID →
        ls = pre ++ createLines g c)) ∧ (x.1 = none → ∃ a m, ls = a ++ [line 3 m] ∧
          m ∈ [bytes! "fail to load vocab", bytes! "fail to load weights"]) ∧ x.2.h.obj = l.h.obj := by
  unfold createL create
  refine (vocabInitL_tells w.signed w.order hp.arch g ts hC hc).bind ?_
  intro v ls _ hls he
  cases v with
  | none =>
    refine Tells.after (says_say _ _) (Tells.pure ?_ ⟨by rintro c ⟨⟩, fun _ => ⟨_, _, rfl, by decide⟩, rfl⟩)
    exact fun c => (hls c).append (calm_loud (by decide))
  | some v =>
    have he := he v rfl
    refine Tells.after (says_say _ _) ?_
    have hls1 : C → Calm (ls ++ [line Sev.info.val (bytes! "initializing weights")]) :=
      fun c => (hls c).append (calm_info _)
    obtain ⟨wl, hw1, hw2, hw3⟩ := weightsL_tells g ts hp.hp.nLayers hn hls1
    refine Tells.after hw1 ?_
    have hf := weights_found ts w.conv hp.hp.nLayers
    have hw3 := hw3 _ rfl
    revert hw3
    rw [← hf]
    cases hi : initWeights (fun k => (getTensor ts k).map w.conv) hp.hp.nLayers with
    | none =>
      intro _
      refine Tells.after (says_say _ _) (Tells.pure ?_ ⟨by rintro c ⟨⟩, fun _ => ⟨_, _, rfl, by decide⟩, rfl⟩)
      exact fun c => (hw2 c).append (calm_loud (by decide))
    | some ws =>
      intro hw3
      refine Tells.after (says_say _ _) (Tells.pure ?_ ⟨?_, by rintro ⟨⟩, rfl⟩)
      · exact fun c => (hw2 c).append (calm_info _)
      · intro c hx
        have hx : (⟨hp, type, ts, v, ws⟩ : Ctx α) = c := Option.some.inj hx
        subst hx
        refine ⟨rfl, rfl, fun hl => ?_⟩
        rw [hw3 rfl, he hl]
        unfold createLines startLines
        simp only [List.append_assoc]
        rfl

/-- What loading from the weight context on says of a failure. -/
def FailSaid (pr : Printed) (g : Gguf) (pre ls : List (Int × List Nat)) : Prop :=
  Loud pr ls ∨ ∃ h, hparams g = .ok h ∧
    ((h.hp.act ≠ 0 ∧ ls = pre ++ [hparamsLine pr.dbl h,
        line 1 (bytes! "unknown hidden_act: " ++ showInt (signed32 h.hp.act))] ++ allFreed pr) ∨
      (h.hp.act = 0 ∧ h.arch ≠ 0 ∧ h.arch ≠ 1 ∧ ls = pre ++ [hparamsLine pr.dbl h,
        line 1 (bytes! "unknown bert_type: " ++ showInt (signed32 h.arch))] ++ allFreed pr))

/-- The handles own the contexts. -/
structure Owning (h : Handle.St Rsrc) : Prop where
  o0 : h.obj 0 = some (some .meta)
  o1 : h.obj 1 = some (some .gguf)
  o2 : h.obj 2 = some (some .weights)

theorem all_freed {h : Handle.St Rsrc} (o : Owning h) (pr : Printed) :
    (owned h 2 ++ owned h 1 ++ owned h 0).flatMap (freeLines pr) = allFreed pr := by
  rw [owned_some o.o0, owned_some o.o1, owned_some o.o2]
  rfl

theorem finishL_tells (pr : Printed) (w : World α) (g : Gguf) (ts : List LT) (l : Ledger) (o : Owning l.h)
    (hn : ts.map (·.name) = g.dir.map (·.name)) (hC : C → VocabPlain ts) (hc : C → Calm pre) :
    Tells C (finishL pr w g ts l) (finish w g ts l) pre
      fun x ls => (∀ c, x.1 = some c → hparams g = .ok c.hp ∧ u32 g "general.file_type" = .ok c.type ∧
          ((tokensOf c.vocab).length ≤ INVALID → ls = pre ++ [hparamsLine pr.dbl c.hp] ++ createLines g c ++
            [objectLine (bytes! "ggml_free") (pr.addr .meta)])) ∧
        (x.1 = none → FailSaid pr g pre ls) := by
  unfold finishL finish
  refine (hparamsL_tells pr.dbl g hc).bind ?_
  rintro hp ls hhp hls rfl
  refine Tells.lift_bind hls fun type htype => ?_
  refine Tells.lift_bind hls fun _ _ => ?_
  by_cases ha : hp.hp.act ≠ 0
  · rw [if_pos ha, if_pos ha]
    refine Tells.after (says_sayF (fmt_act _)) ((leaveL_tells pr none l ?_).mono ?_)
    · exact fun c => (hls c).append (calm_info _)
    · rintro x ls - ⟨hx, rfl⟩
      rw [hx]
      refine ⟨by rintro c ⟨⟩, fun _ => .inr ⟨hp, hhp, .inl ⟨ha, ?_⟩⟩⟩
      rw [all_freed o]
      simp only [List.append_assoc]
      rfl
  rw [if_neg ha, if_neg ha]
  by_cases hb : hp.arch ≠ 0 ∧ hp.arch ≠ 1
  · rw [if_pos hb, if_pos hb]
    refine Tells.after (says_sayF (fmt_arch _)) ((leaveL_tells pr none l ?_).mono ?_)
    · exact fun c => (hls c).append (calm_info _)
    · rintro x ls - ⟨hx, rfl⟩
      rw [hx]
      refine ⟨by rintro c ⟨⟩, fun _ => .inr ⟨hp, hhp, .inr ⟨by simpa using ha, hb.1, hb.2, ?_⟩⟩⟩
      rw [all_freed o]
      simp only [List.append_assoc]
      rfl
  rw [if_neg hb, if_neg hb]
  obtain ⟨h1, e1, -, o1, k1⟩ := release_eq (acquire l .model).h 1 _ o.o1
  obtain ⟨h2, e2, -, o2, k2⟩ := release_eq h1 2 _ ((k1 2 (by decide)).trans o.o2)
  refine Tells.lift_bind hls fun r hr => ?_
  rw [e1] at hr
  cases Res.ok.inj hr
  refine Tells.lift_bind hls fun r hr => ?_
  rw [e2] at hr
  cases Res.ok.inj hr
  refine (createL_tells w g hp type ts _ hn hC hls).bind ?_
  rintro ⟨c, l'⟩ ls _ hls ⟨h1', h2', h3'⟩
  refine (leaveL_tells pr c l' hls).mono ?_
  rintro x ls' - ⟨hx, rfl⟩
  rw [hx]
  have hfree : (owned l'.h 2 ++ owned l'.h 1 ++ owned l'.h 0).flatMap (freeLines pr) =
      [objectLine (bytes! "ggml_free") (pr.addr .meta)] := by
    simp only at h3'
    rw [owned_some (r := none) (by rw [h3']; exact o2),
      owned_some (r := none) (by rw [h3']; exact (k2 1 (by decide)).trans o1),
      owned_some (r := some .meta) (by rw [h3']; exact (k2 0 (by decide)).trans ((k1 0 (by decide)).trans o.o0))]
    rfl
  rw [hfree]
  refine ⟨?_, fun h => .inl ?_⟩
  · intro c' hc'
    obtain ⟨h3, h4, h5⟩ := h1' c' hc'
    rw [h3, h4]
    exact ⟨hhp, htype, fun hl => by rw [h5 hl]⟩
  · obtain ⟨a, m, rfl, hm⟩ := h2' h
    have : m ∈ loudEnds ∧ freedAfter pr m = [objectLine (bytes! "ggml_free") (pr.addr .meta)] := by
      simp only [List.mem_cons, List.not_mem_nil, or_false] at hm
      rcases hm with rfl | rfl <;> exact ⟨by decide, rfl⟩
    exact ⟨m, this.1, a, by rw [this.2]⟩

theorem setName_found {g : Gguf} {n : List Nat} {m : TInfo} (h : metaTensor g n = some m) : setName n = n := by
  unfold metaTensor at h
  have h := List.find?_some h
  simp only [beq_iff_eq] at h
  unfold setName at h ⊢
  rw [← h, List.take_take]
  simp

theorem loop_names (gg : Graph.Gg) (g : Gguf) (pool : Nat) (junk : Nat → Nat → Nat) (dir : List TInfo) :
    ∀ (i used : Nat) (s : Stream) (acc ts : List LT), loadLoop gg g pool junk i dir used s acc = .ok (some ts) →
      ts.map (·.name) = acc.map (·.name) ++ dir.map (·.name) := by
  induction dir with
  | nil =>
    intro i used s acc ts h
    cases Option.some.inj (Res.ok.inj h)
    simp
  | cons t dir ih =>
    intro i used s acc ts h
    unfold loadLoop at h
    cases hm : metaTensor g t.name with
    | none => rw [hm] at h; cases h
    | some m =>
      rw [hm] at h
      simp only at h
      cases ha : allocT gg pool used m.nbytes with
      | ok used' =>
        rw [ha, ok_bind'] at h
        split at h
        · cases h
        · rw [ih _ _ _ _ _ h, setName_found hm]
          simp
      | ub => rw [ha] at h; cases h
      | abort => rw [ha] at h; cases h
      | hang => rw [ha] at h; cases h

theorem loadWeightsL_tells (pr : Printed) (w : World α) (g : Gguf) (size : Nat) (l : Ledger) (o : Opened l.h)
    (hC : C → ∀ bytes ts, w.file = some bytes →
      loadLoop w.gg g (poolSize w.gg size) w.junk 0 g.dir 0 ⟨bytes, 0, false⟩ [] = .ok (some ts) → VocabPlain ts)
    (hc : C → Calm pre) :
    Tells C (loadWeightsL pr w g size l) (loadWeights w g size l) pre
      fun x ls => (∀ c, x.1 = some c → hparams g = .ok c.hp ∧ u32 g "general.file_type" = .ok c.type ∧
          ((tokensOf c.vocab).length ≤ INVALID → ls = pre ++ [objectLine (bytes! "ggml_init") (pr.addr .weights)] ++
            readLines g ++ [hparamsLine pr.dbl c.hp] ++ createLines g c ++
            [objectLine (bytes! "ggml_free") (pr.addr .meta)])) ∧
        (x.1 = none → FailSaid pr g (pre ++ [objectLine (bytes! "ggml_init") (pr.addr .weights)] ++ readLines g) ls) := by
  unfold loadWeightsL loadWeights
  by_cases hp : w.poolInit size = true
  · rw [if_pos hp, if_pos hp]
    obtain ⟨h', e', -, p2, pk⟩ := ctor_eq l.h (some .weights) o.o2
    have ow : Owning h' := ⟨(pk 0 (by decide)).trans o.o0, (pk 1 (by decide)).trans o.o1, p2⟩
    have hsay := ctorL_says pr l.h 2 (some .weights)
    rw [e'] at hsay ⊢
    rw [ok_bind']
    refine Tells.after hsay ?_
    have hc1 : C → Calm (pre ++ (some Rsrc.weights).toList.flatMap (initLines pr)) :=
      fun c => (hc c).append (calm_debug _)
    cases hf : w.file with
    | none =>
      refine Tells.after (says_say _ _) ((leaveL_tells pr none _ ?_).mono ?_)
      · exact fun c => (hc1 c).append (calm_loud (by decide))
      · rintro x ls - ⟨hx, rfl⟩
        rw [hx]
        refine ⟨by rintro c ⟨⟩, fun _ => .inl ⟨bytes! "fail to open gguf file", by decide,
          pre ++ (some Rsrc.weights).toList.flatMap (initLines pr), ?_⟩⟩
        exact congrArg (_ ++ ·) (all_freed (h := h') ow pr)
    | some bytes =>
      refine (loadLoopL_tells w.gg g _ w.junk g.dir 0 0 _ [] hc1).bind ?_
      intro r ls hr hls he
      cases r with
      | none =>
        refine Tells.after (says_say _ _) ((leaveL_tells pr none _ ?_).mono ?_)
        · exact fun c => (hls c).append (calm_loud (by decide))
        · rintro x ls' - ⟨hx, rfl⟩
          rw [hx]
          refine ⟨by rintro c ⟨⟩, fun _ => .inl ⟨bytes! "failed to seek gguf file", by decide, ls, ?_⟩⟩
          exact congrArg (_ ++ ·) (all_freed (h := h') ow pr)
      | some ts =>
        have he := he rfl
        subst he
        exact finishL_tells pr w g ts _ ow (by simpa using loop_names _ _ _ _ _ _ _ _ _ _ hr)
          (fun c => hC c bytes ts hf hr) hls
  · rw [if_neg hp, if_neg hp]
    obtain ⟨h', e', -, p2, pk⟩ := ctor_eq l.h none o.o2
    have hsay := ctorL_says pr l.h 2 none
    rw [e'] at hsay ⊢
    rw [ok_bind']
    refine Tells.after hsay ?_
    have hc1 : C → Calm (pre ++ (none : Option Rsrc).toList.flatMap (initLines pr)) :=
      fun c => (hc c).append calm_nil
    refine Tells.after (says_say _ _) ((leaveL_tells pr none _ ?_).mono ?_)
    · exact fun c => (hc1 c).append (calm_loud (by decide))
    · rintro x ls - ⟨hx, rfl⟩
      rw [hx]
      refine ⟨by rintro c ⟨⟩, fun _ => .inl ⟨bytes! "fail to init ggml", by decide,
        pre ++ (none : Option Rsrc).toList.flatMap (initLines pr), ?_⟩⟩
      simp only
      rw [owned_some ((pk 0 (by decide)).trans o.o0), owned_some ((pk 1 (by decide)).trans o.o1), owned_some p2]
      rfl

theorem loadL_tells (pr : Printed) (w : World α) (path : List Nat) (hC : C → FilePlain w) :
    Tells C (loadL pr w path) (load w) []
      fun x ls => (∀ c, x.1 = some c → ∃ g size, w.gguf = some g ∧ initGg w.gg g = .ok size ∧
          hparams g = .ok c.hp ∧ ((tokensOf c.vocab).length ≤ INVALID → ls = loadLines pr w.gg.align path g size c)) ∧
        (x.1 = none → (w.gguf = none ∧ ls = [line 1 (bytes! "loading model: " ++ path),
            line 1 (bytes! "fail to load gguf file: " ++ path)]) ∨
          ∃ g size t, w.gguf = some g ∧ initGg w.gg g = .ok size ∧
            FailSaid pr g ([line 1 (bytes! "loading model: " ++ path), objectLine (bytes! "gguf_init") (pr.addr .gguf)] ++
              fileLines g t ++ dirLines w.gg.align g ++
              [sizeLine size, objectLine (bytes! "ggml_init") (pr.addr .weights)] ++ readLines g) ls) := by
  unfold loadL load
  refine Tells.after (says_sayF (fmt_path path)) ?_
  have hc : C → Calm ([] ++ [line 1 (bytes! "loading model: " ++ path)]) := fun _ => calm_info _
  cases hg : w.gguf with
  | none =>
    obtain ⟨h, e, o0, o1, -⟩ := ggCtor_none
    have hsay := ggCtorL_none pr
    simp only
    rw [e] at hsay ⊢
    rw [ok_bind']
    refine Tells.after hsay ?_
    refine Tells.after (says_sayF (fmt_noFile path)) ?_
    rw [List.append_nil]
    refine (closeGgL_tells pr ⟨h, []⟩ fun c => (hc c).append (calm_info _)).bind ?_
    rintro l ls - hls rfl
    refine Tells.pure hls ⟨by rintro c ⟨⟩, fun _ => .inl ⟨trivial, ?_⟩⟩
    simp only
    rw [owned_some o0, owned_some o1]
    rfl
  | some g =>
    obtain ⟨h, e, o⟩ := ggCtor_some
    have hsay := ggCtorL_some pr
    simp only
    rw [e] at hsay ⊢
    rw [ok_bind']
    refine Tells.after hsay ?_
    refine (initGgL_tells w.gg g fun c => (hc c).append (calm_debug _)).bind ?_
    rintro size ls hsz hls ⟨t, ht, rfl⟩
    refine (loadWeightsL_tells pr w g size _ o
      (fun c bytes ts hb hr => hC c g size bytes ts hg hsz hb hr) hls).mono ?_
    rintro x ls _ ⟨h1, h2⟩
    have hpre : ∀ a b c : List (Int × List Nat), ∀ x y z u : Int × List Nat,
        [] ++ [x] ++ [y] ++ a ++ b ++ [z] ++ [u] ++ c = [x, y] ++ a ++ b ++ [z, u] ++ c := by simp
    refine ⟨?_, fun hx => .inr ⟨g, size, t, rfl, hsz, ?_⟩⟩
    · intro c hx
      obtain ⟨h3, h4, h5⟩ := h1 c hx
      refine ⟨g, size, rfl, hsz, h3, fun hl => ?_⟩
      rw [ht] at h4
      cases Res.ok.inj h4
      rw [h5 hl]
      unfold loadLines
      rw [hpre]
      rfl
    · have := h2 hx
      rw [hpre] at this
      exact this

end

end Berts.Load
