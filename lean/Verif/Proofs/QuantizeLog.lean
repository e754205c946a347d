import Verif.Spec.QuantizeLog
import Verif.Proofs.LoadLogLoad
import Verif.Proofs.Quantize

/-! # Lemmas about quantizing with messages -/

namespace Berts.Quantize

open Berts.Vocab Berts.Log Berts.Format Berts.Spec Berts.Load
open Berts.Bert (runLines bind_assoc' ok_bind')
open Berts.TypeNames (ftypeName)

variable {α β ε F : Type}

theorem ok_or (r : Res α) : (∃ a, r = .ok a) ∨ ∀ a, r ≠ .ok a := by
  cases r with
  | ok a => exact .inl ⟨a, rfl⟩
  | ub => exact .inr (by simp)
  | abort => exact .inr (by simp)
  | hang => exact .inr (by simp)

/-- Sequence after a computation that fails and would have returned something more. -/
theorem stop_pair {m : LogM (α × ε)} {r : Res α} {e : ε} {ls : List (Int × List Nat)}
    (h : Says m (r.bind fun x => .ok (x, e)) ls) (hr : ∀ a, r ≠ .ok a) (k : α × ε → LogM β) (q : α → Res β) :
    Says (m >>= k) (r.bind q) ls := by
  have := h.stop (bind_not_ok hr _) k (fun y => q y.1)
  rw [bind_assoc'] at this
  exact this.congr (by cases r <;> rfl) rfl

theorem lift_ok {r : Res α} {a : α} (h : r = .ok a) : Says (lift r) (.ok a) [] := (says_lift r).congr h rfl

/-- Only lines up to INFO. -/
def Low (ls : List (Int × List Nat)) : Prop := ∀ l ∈ ls, l.1 ≤ 1

theorem low_nil : Low [] := by intro l hl; cases hl

theorem low_one (m : List Nat) : Low [line 1 m] := by
  intro l hl
  rw [List.mem_singleton] at hl
  subst hl
  exact Int.le_refl 1

theorem Low.append {a b : List (Int × List Nat)} (ha : Low a) (hb : Low b) : Low (a ++ b) := by
  intro l hl
  rcases List.mem_append.mp hl with h | h
  · exact ha l h
  · exact hb l h

theorem floatArg_text (s t : List Nat) : floatArg s t s = some t := by simp [floatArg]

theorem fmt_type (n : List Nat) : vformat (bytes! "input type must be f16 or f32, but {}") [textArg n] =
    some (bytes! "input type must be f16 or f32, but " ++ n) := by
  formats (lits (bytes! "input type must be f16 or f32, but ") ++ [.field 0 []])

theorem fmt_open (n : List Nat) : vformat (bytes! "failed to open {}") [textArg n] =
    some (bytes! "failed to open " ++ n) := by
  formats (lits (bytes! "failed to open ") ++ [.field 0 []])

theorem fmt_loaded (n : List Nat) : vformat (bytes! "model loaded: {}") [textArg n] =
    some (bytes! "model loaded: " ++ n) := by
  formats (lits (bytes! "model loaded: ") ++ [.field 0 []])

theorem fmt_failed (n : List Nat) : vformat (bytes! "fail to load model: {}") [textArg n] =
    some (bytes! "fail to load model: " ++ n) := by
  formats (lits (bytes! "fail to load model: ") ++ [.field 0 []])

theorem fmt_tensor (n a b : List Nat) (q : Bool) (d : Nat) :
    vformat (bytes! "{}:\n  quantized = {}\n  n_dims = {}\n  size = {:.1f} KiB -> {:.1f} KiB")
      [textArg n, boolArg q, numArg d, floatArg (bytes! ".1f") a, floatArg (bytes! ".1f") b] =
    some (n ++ bytes! ":\n  quantized = " ++ showBool q ++ bytes! "\n  n_dims = " ++ decimal d ++
      bytes! "\n  size = " ++ a ++ bytes! " KiB -> " ++ b ++ bytes! " KiB") := by
  rw [vformat_parts (ps := .field 0 [] :: (lits (bytes! ":\n  quantized = ") ++ .field 1 [] ::
    (lits (bytes! "\n  n_dims = ") ++ .field 2 [] :: (lits (bytes! "\n  size = ") ++ .field 3 (bytes! ".1f") ::
    (lits (bytes! " KiB -> ") ++ .field 4 (bytes! ".1f") :: lits (bytes! " KiB")))))) _ (by decide +kernel)]
  simp only [render_lits, render_last, render, List.getElem?_cons_zero, List.getElem?_cons_succ, textArg_text,
    numArg_text, boolArg_text, floatArg_text, Option.map_some, List.append_assoc]

theorem fmt_bin (i : Nat) (a : List Nat) :
    vformat (bytes! "  bin #{}: {:.3f}\n") [numArg i, floatArg (bytes! ".3f") a] =
    some (bytes! "  bin #" ++ decimal i ++ bytes! ": " ++ a ++ bytes! "\n") := by
  rw [vformat_parts (ps := lits (bytes! "  bin #") ++ .field 0 [] :: (lits (bytes! ": ") ++ .field 1 (bytes! ".3f") ::
    lits (bytes! "\n"))) _ (by decide +kernel)]
  simp only [render_lits, render_last, render, List.getElem?_cons_zero, List.getElem?_cons_succ,
    numArg_text, floatArg_text, Option.map_some, List.append_assoc]

theorem fmt_summary (x y : Nat) (a b : List Nat) :
    vformat (bytes! "========================================\noriginal size  = {} ({:.1f} MiB)\nquantized size = {} ({:.1f} MiB)\n")
      [numArg x, floatArg (bytes! ".1f") a, numArg y, floatArg (bytes! ".1f") b] =
    some (bytes! "========================================\noriginal size  = " ++ decimal x ++ bytes! " (" ++
      a ++ bytes! " MiB)\nquantized size = " ++ decimal y ++ bytes! " (" ++ b ++ bytes! " MiB)\n") := by
  rw [vformat_parts (ps := lits (bytes! "========================================\noriginal size  = ") ++ .field 0 [] ::
    (lits (bytes! " (") ++ .field 1 (bytes! ".1f") :: (lits (bytes! " MiB)\nquantized size = ") ++ .field 2 [] ::
    (lits (bytes! " (") ++ .field 3 (bytes! ".1f") :: lits (bytes! " MiB)\n"))))) _ (by decide +kernel)]
  simp only [render_lits, render_last, render, List.getElem?_cons_zero, List.getElem?_cons_succ,
    numArg_text, floatArg_text, Option.map_some, List.append_assoc]

/-! ## One tensor -/

theorem payload_converted (cv : Conv F) (qtype : Nat) (t : LT) (cap : Nat) (p : Nat × List Nat) (cap' : Nat)
    (h : payload cv qtype t.name t cap = .ok (some p, cap')) (hn : NoNl t) : Converted cv qtype t p := by
  unfold payload at h
  by_cases he : (matchWeight t.name && t.ndims == 2) = true
  · rw [if_pos he] at h
    have hel := (eligible_iff t hn).1 he
    obtain ⟨r, hr, h⟩ := Handle.res_inv h
    have h := Res.ok.inj h
    simp only [Prod.mk.injEq] at h
    obtain ⟨h1, h2⟩ := h
    obtain ⟨b, hb, rfl⟩ := Option.map_eq_some_iff.mp h1
    refine ⟨fun _ => ⟨rfl, ?_⟩, fun hne => absurd hel hne⟩
    have conv : ∀ xs, convert cv qtype (reserve cap (nelements t)) xs = .ok r → cv.chunk qtype xs = some b := by
      intro xs hx
      unfold convert at hx
      split at hx
      · cases hx
      · rename_i b' hb'
        split at hx
        · have := Res.ok.inj hx
          rw [← this] at hb
          simp only [Option.some.injEq] at hb
          rw [hb', hb]
        · cases hx
    unfold quantize at hr
    unfold elements
    simp only at hr
    by_cases h0 : t.type = 0
    · rw [if_pos h0] at hr ⊢
      exact conv _ hr
    · rw [if_neg h0] at hr ⊢
      by_cases h1 : t.type = 1
      · rw [if_pos h1] at hr
        exact conv _ hr
      · rw [if_neg h1] at hr
        obtain ⟨_, _, hr⟩ := Handle.res_inv hr
        have := Res.ok.inj hr
        rw [← this] at hb
        cases hb
  · rw [if_neg he] at h
    have h := Res.ok.inj h
    simp only [Prod.mk.injEq, Option.some.injEq] at h
    exact ⟨fun hel => absurd ((eligible_iff t hn).2 hel) he, fun _ => h.1.symm⟩

/-- What `payload` adds to the histogram. -/
def bins (cv : Conv F) (sh : Show F) (qtype : Nat) (t : LT) (q : Bool) (hist : List Nat) : List Nat :=
  if q then addHist hist (sh.hist qtype (elements cv t)) else hist

theorem payloadL_says (cv : Conv F) (sh : Show F) (qtype : Nat) (name : List Nat) (t : LT) (cap : Nat) (hist : List Nat) :
    ∃ e ls, Says (payloadL cv sh qtype name t cap hist) ((payload cv qtype name t cap).bind fun x => .ok (x, e)) ls ∧
      Low ls ∧ ∀ x, payload cv qtype name t cap = .ok x →
        (x.1 = none → ∃ n ∈ typeNames, ls = [line 1 (bytes! "input type must be f16 or f32, but " ++ n)]) ∧
        (x.1 ≠ none → ls = [] ∧ e = (matchWeight name && t.ndims == 2,
          bins cv sh qtype t (matchWeight name && t.ndims == 2) hist)) := by
  unfold payloadL payload
  by_cases he : (matchWeight name && t.ndims == 2) = true
  · simp only [he, if_true]
    have conv : ∀ xs (h : List Nat), ∃ e ls, Says ((do
        let r ← (do
          let r ← lift (convert cv qtype (reserve cap (nelements t)) xs)
          Pure.pure (r, h) : LogM ((Option (List Nat) × Nat) × List Nat))
        Pure.pure ((r.1.1.map fun b => (qtype, b), r.1.2), true, r.2)) :
          LogM ((Option (Nat × List Nat) × Nat) × Bool × List Nat))
        (((convert cv qtype (reserve cap (nelements t)) xs).bind fun r =>
          .ok (r.1.map fun b => (qtype, b), r.2)).bind fun x => .ok (x, e)) ls ∧ Low ls ∧
        ∀ x, ((convert cv qtype (reserve cap (nelements t)) xs).bind fun r =>
          (.ok (r.1.map fun b => (qtype, b), r.2) : Res (Option (Nat × List Nat) × Nat))) = .ok x →
          (x.1 = none → ∃ n ∈ typeNames, ls = [line 1 (bytes! "input type must be f16 or f32, but " ++ n)]) ∧
          (x.1 ≠ none → ls = [] ∧ e = (true, h)) := by
      intro xs h
      refine ⟨(true, h), [], ?_, low_nil, ?_⟩
      · intro s
        cases convert cv qtype (reserve cap (nelements t)) xs <;> rfl
      · intro x hx
        refine ⟨fun hn => ?_, fun _ => ⟨rfl, rfl⟩⟩
        obtain ⟨r, hr, hx⟩ := Handle.res_inv hx
        have hx := Res.ok.inj hx
        rw [← hx] at hn
        simp only [Option.map_eq_none_iff] at hn
        unfold convert at hr
        split at hr
        · cases hr
        · split at hr
          · rw [← Res.ok.inj hr] at hn
            cases hn
          · cases hr
    unfold quantizeL quantize bins elements
    simp only [if_true]
    by_cases h0 : t.type = 0
    · rw [if_pos h0, if_pos h0]
      simp only [h0, if_true]
      exact conv _ _
    · rw [if_neg h0, if_neg h0]
      simp only [h0, if_false]
      by_cases h1 : t.type = 1
      · rw [if_pos h1, if_pos h1]
        exact conv _ _
      · rw [if_neg h1, if_neg h1, ftypeName_ok]
        by_cases h2 : t.type < 19
        · have hf : ftype t.type = .ok () := by unfold ftype; rw [if_pos h2]
          rw [hf]
          refine ⟨(true, hist), [line 1 (bytes! "input type must be f16 or f32, but " ++ typeNames.getD t.type [])], ?_,
            low_one _, ?_⟩
          · have := ((says_sayF (v := .error) (fmt_type (typeNames.getD t.type []))).then
              (k := fun _ => (Pure.pure ((none, reserve cap (nelements t)), hist) :
                LogM ((Option (List Nat) × Nat) × List Nat))) (says_pure _)).then
              (k := fun r : (Option (List Nat) × Nat) × List Nat =>
                (Pure.pure ((r.1.1.map fun b => (qtype, b), r.1.2), true, r.2) :
                  LogM ((Option (Nat × List Nat) × Nat) × Bool × List Nat))) (says_pure _)
            exact this
          · intro x hx
            have hx := Res.ok.inj hx
            subst hx
            refine ⟨fun _ => ⟨_, ?_, rfl⟩, fun h => absurd rfl h⟩
            have hl : typeNames.length = 19 := by decide
            rw [List.getD_eq_getElem?_getD, List.getElem?_eq_getElem (by omega)]
            exact List.getElem_mem _
        · have hf : ftype t.type = .abort := by unfold ftype; rw [if_neg h2]
          rw [hf]
          exact ⟨(true, hist), [], fun s => rfl, low_nil, fun x hx => by cases hx⟩
  · simp only [he]
    refine ⟨(false, hist), [], fun s => rfl, low_nil, fun x hx => ?_⟩
    have hx := Res.ok.inj hx
    subst hx
    exact ⟨fun h => by simp at h, fun _ => ⟨rfl, rfl⟩⟩

/-! ## All tensors -/

theorem addHist_get {a b : List Nat} (h : a.length = b.length) (i : Nat) :
    (addHist a b).getD i 0 = a.getD i 0 + b.getD i 0 := by
  unfold addHist
  simp only [List.getD_eq_getElem?_getD, List.getElem?_zipWith]
  by_cases hi : i < a.length
  · rw [List.getElem?_eq_getElem hi, List.getElem?_eq_getElem (by omega)]
    rfl
  · rw [List.getElem?_eq_none (by omega), List.getElem?_eq_none (by omega)]
    rfl

/-- The report the loop makes about a tensor. -/
def reportOf (cv : Conv F) (sh : Show F) (qtype : Nat) (name : List Nat) (t : LT) (data : List Nat) : TensorReport :=
  let q := matchWeight name && t.ndims == 2
  ⟨name, q, t.ndims, t.data.length, data.length, if q then sh.hist qtype (elements cv t) else List.replicate 16 0⟩

theorem reported_of (cv : Conv F) (sh : Show F) (qtype : Nat) (ts : List LT) (name : List Nat) (t : LT)
    (hg : getTensor ts name = some t) (cap cap' : Nat) (p : Nat × List Nat)
    (h : payload cv qtype name t cap = .ok (some p, cap')) (hn : 10 ∉ name ∧ 13 ∉ name) :
    TensorReported cv sh qtype ts name (reportOf cv sh qtype name t p.2) := by
  have hname : t.name = name := by
    unfold getTensor at hg
    simpa using List.find?_some hg
  have hn : NoNl t := by unfold NoNl; rw [hname]; exact hn
  refine ⟨rfl, t, p, hg, payload_converted cv qtype t cap p cap' (hname ▸ h) hn, ?_, rfl, rfl, rfl, rfl⟩
  rw [← hname]
  exact eligible_iff t hn

theorem convLoopL_says (cv : Conv F) (sh : Show F) (aw qtype : Nat) (ts : List LT)
    (hh : ∀ q xs, (sh.hist q xs).length = 16) :
    ∀ (names : List (List Nat)) (infos : List Info) (cap : Nat) (o : Out) (tot : Totals), tot.hist.length = 16 →
      ∃ ls rs tot', Says (convLoopL cv sh aw qtype ts names infos cap o tot)
          ((convLoop cv aw qtype ts names infos cap o).bind fun x => .ok (x, tot')) ls ∧ Low ls ∧
        ∀ x, convLoop cv aw qtype ts names infos cap o = .ok x →
          (x.1 = none → ∃ pre, ∃ n ∈ typeNames,
            ls = pre ++ [line 1 (bytes! "input type must be f16 or f32, but " ++ n)]) ∧
          (x.1 ≠ none → ((∀ n ∈ names, 10 ∉ n ∧ 13 ∉ n) → Each (TensorReported cv sh qtype ts) names rs) ∧
            ls = rs.map (reportLine sh) ∧ tot'.org = tot.org + (rs.map (·.org)).sum ∧
            tot'.new = tot.new + (rs.map (·.new)).sum ∧ tot'.hist.length = 16 ∧
            ∀ i, tot'.hist.getD i 0 = tot.hist.getD i 0 + binOf rs i)
  | [], infos, cap, o, tot, h16 => by
    refine ⟨[], [], tot, fun s => rfl, low_nil, fun x hx => ?_⟩
    have hx := Res.ok.inj hx
    subst hx
    exact ⟨fun h => by simp at h, fun _ => ⟨fun _ => trivial, rfl, by simp, by simp, h16, by simp [binOf]⟩⟩
  | name :: names, infos, cap, o, tot, h16 => by
    unfold convLoopL convLoop
    cases hg : getTensor ts name with
    | none => exact ⟨[], [], tot, fun s => rfl, low_nil, fun x hx => by cases hx⟩
    | some t =>
      simp only
      obtain ⟨e, ls1, hs1, hlow1, hx1⟩ := payloadL_says cv sh qtype name t cap tot.hist
      rcases ok_or (payload cv qtype name t cap) with ⟨p, hp⟩ | hp
      case inr =>
        refine ⟨ls1, [], tot, ?_, hlow1, fun x hx => absurd hx (bind_not_ok hp _ _)⟩
        rw [bind_assoc']
        exact stop_pair hs1 hp _ _
      rw [hp, ok_bind'] at hs1
      obtain ⟨hnone, hsome⟩ := hx1 p hp
      rw [hp, ok_bind']
      obtain ⟨p1, cap1⟩ := p
      cases p1 with
      | none =>
        obtain ⟨n, hn, rfl⟩ := hnone rfl
        refine ⟨[line 1 (bytes! "input type must be f16 or f32, but " ++ n)], [], tot, ?_, hlow1, ?_⟩
        · exact hs1.then (ls' := []) (says_pure ((none, o), tot))
        · intro x hx
          have hx := Res.ok.inj hx
          subst hx
          exact ⟨fun _ => ⟨[], n, hn, rfl⟩, fun h => absurd rfl h⟩
      | some p1 =>
        obtain ⟨type, data⟩ := p1
        obtain ⟨rfl, rfl⟩ := hsome (by simp)
        simp only
        rcases ok_or (setType name type infos) with ⟨i1, h1⟩ | h1
        case inr =>
          refine ⟨[], [], tot, ?_, low_nil, fun x hx => absurd hx (bind_not_ok h1 _ _)⟩
          rw [bind_assoc']
          refine Says.then (ls := []) (ls' := []) hs1 ?_
          exact (says_lift _).stop h1 _ _
        rcases ok_or (setData aw name data.length i1) with ⟨i2, h2⟩ | h2
        case inr =>
          rw [h1, ok_bind']
          refine ⟨[], [], tot, ?_, low_nil, fun x hx => absurd hx (bind_not_ok h2 _ _)⟩
          rw [bind_assoc']
          refine Says.then (ls := []) (ls' := []) hs1 ?_
          refine Says.then (ls := []) (ls' := []) (lift_ok h1) ?_
          exact (says_lift _).stop h2 _ _
        rw [h1, ok_bind', h2, ok_bind']
        let b := matchWeight name && t.ndims == 2
        have hb16 : (bins cv sh qtype t b tot.hist).length = 16 := by
          unfold bins
          cases b
          · exact h16
          · simp [addHist, h16, hh]
        obtain ⟨ls, rs, tot', k1, k2, k3⟩ := convLoopL_says cv sh aw qtype ts hh names i2 cap1
          (writeZeros (o.write data) (Graph.pad data.length aw - data.length))
          ⟨tot.org + t.data.length, tot.new + data.length, bins cv sh qtype t b tot.hist⟩ hb16
        refine ⟨reportLine sh (reportOf cv sh qtype name t data) :: ls, reportOf cv sh qtype name t data :: rs, tot', ?_,
          (low_one _).append k2, ?_⟩
        · refine Says.then (ls := []) hs1 ?_
          refine Says.then (ls := []) (lift_ok h1) ?_
          refine Says.then (ls := []) (lift_ok h2) ?_
          exact Says.then (ls := [reportLine sh (reportOf cv sh qtype name t data)])
            (says_sayF (v := .info) (fmt_tensor name _ _ b t.ndims)) k1
        · intro x hx
          obtain ⟨g1, g2⟩ := k3 x hx
          refine ⟨fun hn => ?_, fun hn => ?_⟩
          · obtain ⟨pre, n, hn, rfl⟩ := g1 hn
            exact ⟨_ :: pre, n, hn, rfl⟩
          · obtain ⟨f1, rfl, f3, f4, f5, f6⟩ := g2 hn
            refine ⟨fun hnl => ⟨reported_of cv sh qtype ts name t hg cap cap1 (type, data) hp
              (hnl name (by simp)), f1 fun n hn => hnl n (by simp [hn])⟩, rfl, ?_, ?_, f5, fun i => ?_⟩
            · rw [f3]
              simp [reportOf]
              omega
            · rw [f4]
              simp [reportOf]
              omega
            · rw [f6 i]
              have : (bins cv sh qtype t b tot.hist).getD i 0 = tot.hist.getD i 0 +
                  (reportOf cv sh qtype name t data).hist.getD i 0 := by
                unfold bins reportOf
                show (if b = true then _ else _ : List Nat).getD i 0 = _ + (if b = true then _ else _ : List Nat).getD i 0
                cases b
                · have : (List.replicate 16 0).getD i 0 = 0 := by
                    simp only [List.getD_eq_getElem?_getD, List.getElem?_replicate]
                    split <;> rfl
                  simp only [Bool.false_eq_true, if_false, this, Nat.add_zero]
                · simp only [if_true]
                  exact addHist_get (by rw [h16, hh]) i
              rw [this]
              simp [binOf]
              omega

/-! ## The last message -/

theorem binsText_eq (sh : Show F) (sum : Nat) (f : Nat → Nat) : ∀ n k, binsText sh sum k ((List.range' k n).map f) =
    .ok ((List.range' k n).flatMap fun i =>
      bytes! "  bin #" ++ decimal i ++ bytes! ": " ++ sh.share (f i) sum ++ bytes! "\n")
  | 0, k => rfl
  | n + 1, k => by
    rw [List.range'_succ, List.map_cons, binsText, Format.fmt, fmt_bin]
    simp only
    rw [ok_bind', binsText_eq sh sum f n (k + 1), ok_bind', List.flatMap_cons]

theorem summaryText_eq (sh : Show F) (tot : Totals) (rs : List TensorReport) (h1 : tot.org = (rs.map (·.org)).sum)
    (h2 : tot.new = (rs.map (·.new)).sum) (h3 : tot.hist.length = 16) (h4 : ∀ i, tot.hist.getD i 0 = binOf rs i) :
    summaryText sh tot = .ok (summaryLine sh rs).2 := by
  have hhist : tot.hist = (List.range 16).map (binOf rs) := by
    apply List.ext_getElem (by simp [h3])
    intro i hi _
    have := h4 i
    rw [List.getD_eq_getElem?_getD, List.getElem?_eq_getElem hi, Option.getD_some] at this
    simp [this]
  have hsum : tot.hist.sum = binsSum rs := by rw [hhist]; rfl
  unfold summaryText Format.fmt
  rw [fmt_summary]
  simp only
  rw [ok_bind', hsum, h1, h2]
  unfold summaryLine line
  simp only
  by_cases h0 : binsSum rs = 0
  · rw [if_neg (by omega), if_pos h0, ok_bind']
    simp only [List.append_nil]
  · rw [if_pos (by omega), if_neg h0, hhist, List.range_eq_range', binsText_eq, ok_bind', ok_bind']
    simp only [List.append_assoc]

/-! ## The whole conversion -/

/-- What is said about a source that was loaded. -/
def Said (cv : Conv F) (sh : Show F) (qtype : Nat) (names : List (List Nat)) (ts : List LT) (outPath : List Nat)
    (pre : List (Int × List Nat)) (ok : Bool) (ls : List (Int × List Nat)) : Prop :=
  (ok = true → ∃ rs, ((∀ n ∈ names, 10 ∉ n ∧ 13 ∉ n) → Each (TensorReported cv sh qtype ts) names rs) ∧
    ls = pre ++ ([line 1 (bytes! "converting...")] ++ rs.map (reportLine sh) ++
      [line 1 (bytes! "writing metadata..."), summaryLine sh rs, line 1 (bytes! "quantization completed")])) ∧
  (ok = false → ∃ a, ∃ m ∈ [bytes! "failed to open " ++ outPath] ++
    typeNames.map (bytes! "input type must be f16 or f32, but " ++ ·), ls = a ++ [line 1 m])

theorem modelQuantizeL_tells {C : Prop} {pre : List (Int × List Nat)} (cv : Conv F) (sh : Show F) (aw qtype : Nat)
    (names : List (List Nat)) (ts : List LT) (room : Option Nat) (outPath head : List Nat)
    (hh : ∀ q xs, (sh.hist q xs).length = 16) (hc : C → Calm pre) (hq : ftype qtype = .ok ()) :
    Tells C (modelQuantizeL cv sh aw qtype names ts room outPath head)
      (modelQuantize cv aw qtype (some (names, ts)) room head) pre
      fun x ls => Said cv sh qtype names ts outPath pre x.1 ls := by
  unfold modelQuantizeL modelQuantize
  rw [hq, ok_bind']
  cases room with
  | none =>
    refine Tells.after (says_sayF (v := .error) (fmt_open outPath)) (Tells.pure ?_ ?_)
    · exact fun c => (hc c).append (calm_info _)
    · exact ⟨fun h => by simp at h, fun _ => ⟨pre, _, by simp, rfl⟩⟩
  | some room =>
    refine Tells.lift_bind hc fun infos _ => ?_
    refine Tells.after (says_say .info _) ?_
    have hc1 : C → Calm (pre ++ [line 1 (bytes! "converting...")]) := fun c => (hc c).append (calm_info _)
    obtain ⟨ls, rs, tot', k1, k2, k3⟩ := convLoopL_says cv sh aw qtype ts hh names infos 0
      (writeZeros ⟨[], 0, false, room⟩ (metaSize aw head infos)) ⟨0, 0, List.replicate 16 0⟩ (by simp)
    have hc2 : C → Calm (pre ++ [line 1 (bytes! "converting...")] ++ ls) :=
      fun c => (hc1 c).append (calm_low k2)
    rcases ok_or (convLoop cv aw qtype ts names infos 0
      (writeZeros ⟨[], 0, false, room⟩ (metaSize aw head infos))) with ⟨x, hx⟩ | hx
    case inr =>
      exact ⟨ls, stop_pair k1 hx _ _, hc2, fun b hb => absurd hb (bind_not_ok hx _ _)⟩
    rw [hx, ok_bind'] at k1
    simp only [hx, ok_bind']
    obtain ⟨g1, g2⟩ := k3 x hx
    refine Tells.after k1 ?_
    obtain ⟨x1, o⟩ := x
    cases x1 with
    | none =>
      obtain ⟨a, n, hn, rfl⟩ := g1 rfl
      refine Tells.pure hc2 ⟨fun h => by simp at h, fun _ => ⟨pre ++ [line 1 (bytes! "converting...")] ++ a,
        bytes! "input type must be f16 or f32, but " ++ n, ?_, ?_⟩⟩
      · exact List.mem_append_right _ (List.mem_map.mpr ⟨n, hn, rfl⟩)
      · exact (List.append_assoc _ _ _).symm
    | some infos' =>
      obtain ⟨f1, rfl, f3, f4, f5, f6⟩ := g2 (by simp)
      simp only
      refine Tells.after (says_say .info _) ?_
      have hc3 := fun c => (hc2 c).append (calm_info (bytes! "writing metadata..."))
      refine Tells.lift_bind hc3 fun o' _ => ?_
      have hsum := summaryText_eq sh tot' rs (by simpa using f3) (by simpa using f4) f5 (fun i => by
        have : (List.replicate 16 0).getD i 0 = 0 := by
          simp only [List.getD_eq_getElem?_getD, List.getElem?_replicate]
          split <;> rfl
        rw [f6 i, this, Nat.zero_add])
      have hsay : Says (sayWhen 1 (do
          let msg ← lift (summaryText sh tot')
          say .info msg)) (.ok ()) [summaryLine sh rs] := by
        refine Says.when (Says.then (ls := []) (lift_ok hsum) (says_say .info _)) (low_one _)
      refine Tells.after hsay ?_
      refine Tells.after (says_say .info _) ?_
      refine Tells.pure (fun c => (((hc3 c).append (calm_low (low_one _))).append (calm_info _))) ?_
      refine ⟨fun _ => ⟨rs, f1, ?_⟩, fun h => by simp at h⟩
      simp [line, Sev.val]

theorem bertsModelQuantizeL_tells {C : Prop} (pr : Printed) (cv : Conv F) (sh : Show F) (ver : Nat)
    (header : List (List Nat × Kv) → Nat → List Nat) (w : World α) (room : Option Nat) (qtype : Nat)
    (inPath outPath : List Nat) (hh : ∀ q xs, (sh.hist q xs).length = 16) (hC : C → FilePlain w) :
    Tells C (bertsModelQuantizeL pr cv sh ver header w room qtype inPath outPath)
      (bertsModelQuantize cv ver header w room qtype) []
      fun x ls => (x.1 = true → ∃ c l g rs loaded, load w = .ok (some c, l) ∧ w.gguf = some g ∧
          Says (loadL pr w inPath) (load w) loaded ∧
          ((tokensOf c.vocab).length ≤ INVALID →
            ∃ size, initGg w.gg g = .ok size ∧ loaded = loadLines pr w.gg.align inPath g size c) ∧
          ((∀ t ∈ g.dir, 10 ∉ t.name ∧ 13 ∉ t.name) → Each (TensorReported cv sh qtype c.tensors) (g.dir.map (·.name)) rs) ∧
          ls = quantizeLines pr sh inPath loaded rs) ∧
        (x.1 = false → ∃ a, ∃ m ∈ quantizeEnds pr sh inPath outPath, ls = a ++ [line 1 m.1] ++ m.2) := by
  unfold bertsModelQuantizeL bertsModelQuantize
  refine Tells.after (says_say .info _) ?_
  have hc0 : C → Calm ([] ++ [line 1 (bytes! "start quantization")]) := fun _ => calm_info _
  rw [ftypeName_ok]
  by_cases hq : qtype < 19
  case neg =>
    have hf : ftype qtype = .abort := by unfold ftype; rw [if_neg hq]
    rw [hf]
    exact ⟨[], fun s => rfl, fun c => by rw [List.append_nil]; exact hc0 c, fun a ha => by cases ha⟩
  have hf : ftype qtype = .ok () := by unfold ftype; rw [if_pos hq]
  rw [hf]
  refine Tells.after (ls := []) (says_lift _) ?_
  rw [List.append_nil]
  obtain ⟨loaded, k1, k2, k3⟩ := loadL_tells (C := C) pr w inPath hC
  have hc1 : C → Calm ([] ++ [line 1 (bytes! "start quantization")] ++ loaded) := fun c => (hc0 c).append (by simpa using k2 c)
  rcases ok_or (load w) with ⟨⟨r, l⟩, hl⟩ | hl
  case inr => exact ⟨loaded, k1.stop hl _ _, hc1, fun b hb => absurd hb (bind_not_ok hl _ _)⟩
  have k1' := k1
  rw [hl] at k1'
  rw [hl, ok_bind', ok_bind']
  refine Tells.after k1' ?_
  cases r with
  | none =>
    simp only
    refine Tells.after (says_sayF (v := .error) (fmt_failed inPath)) (Tells.pure ?_ ?_)
    · exact fun c => (hc1 c).append (calm_info _)
    · exact ⟨fun h => by simp at h, fun _ => ⟨_, (bytes! "fail to load model: " ++ inPath, []), by simp [quantizeEnds], (List.append_nil _).symm⟩⟩
  | some c =>
    cases hg : w.gguf with
    | none =>
      simp only
      refine Tells.after (says_sayF (v := .error) (fmt_failed inPath)) (Tells.pure ?_ ?_)
      · exact fun c => (hc1 c).append (calm_info _)
      · exact ⟨fun h => by simp at h, fun _ => ⟨_, (bytes! "fail to load model: " ++ inPath, []), by simp [quantizeEnds], (List.append_nil _).symm⟩⟩
    | some g =>
      simp only
      refine Tells.after (onInit_says pr .ctx) ?_
      refine Tells.after (says_sayF (v := .info) (fmt_loaded inPath)) ?_
      refine Tells.after (says_sayF (v := .debug) (fmt_ggufInit sh.dst)) ?_
      have hr : ∀ r : Res (Bool × Option Out), r = r.bind fun o => .ok o := fun r => by cases r <;> rfl
      rw [hr (modelQuantize _ _ _ _ _ _)]
      refine (modelQuantizeL_tells cv sh 32 qtype (g.dir.map (·.name)) c.tensors room outPath _ hh
        (fun c => (((hc1 c).append (calm_low (low_init pr .ctx))).append (calm_info _)).append (calm_debug _)) hf).bind ?_
      intro x ls _ hls hs
      refine Tells.after (says_sayF (v := .debug) (fmt_ggufFree sh.dst)) ?_
      refine Tells.after (onDispose_says pr .ctx) ?_
      refine Tells.pure (fun c => ((hls c).append (calm_debug _)).append (calm_low (low_free pr .ctx))) ?_
      refine ⟨fun hx => ?_, fun hx => ?_⟩
      · obtain ⟨rs, h1, h2⟩ := hs.1 hx
        refine ⟨c, l, g, rs, loaded, rfl, rfl, k1', fun ht => ?_, fun hnl => h1 fun n hn => ?_, ?_⟩
        · obtain ⟨g', size, hg', hi, -, hls⟩ := (k3 _ hl).1 c rfl
          cases Option.some.inj (hg.symm.trans hg')
          exact ⟨size, hi, by simpa using hls ht⟩
        · obtain ⟨t, ht, rfl⟩ := List.mem_map.mp hn
          exact hnl t ht
        rw [h2]
        simp [quantizeLines, quantizeFreed, objectLine, initLines, freeLines, line]
      · obtain ⟨a, m, hm, rfl⟩ := hs.2 hx
        refine ⟨a, (m, quantizeFreed pr sh), List.mem_cons_of_mem _ (List.mem_map.2 ⟨m, hm, rfl⟩), ?_⟩
        simp [quantizeFreed, objectLine, freeLines, line]

end Berts.Quantize
