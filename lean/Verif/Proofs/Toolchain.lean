import Verif.Proofs.ConvertHead
import Verif.Spec.Chain
import Verif.Model.QuantizeFile
import Verif.Proofs.Quantize

/-! # Helper lemmas: the language-model head of a quantized model; files that were written completely -/

namespace Berts.Convert

open Berts.Vocab (ascii)
open Berts.Graph (T LmWeights IsW IsVec LmOK)
open Berts.Load (LmNamed)

variable {α : Type}

theorem quantFor_isW (rnd : Bool → α → α) (qz : List α → List α) (qtype : Nat) (dflt : α) (f16 : Bool) {p : Param α}
    {a b : Nat} (h : p.shape = [a, b]) : IsW (quantFor rnd qz qtype dflt f16 p) b a := by
  unfold quantFor
  split
  · rw [h]
    exact ⟨rfl, rfl, rfl, rfl, rfl⟩
  · exact tensorFor_isW rnd dflt f16 h

theorem quantFor_isVec (rnd : Bool → α → α) (qz : List α → List α) (qtype : Nat) (dflt : α) (f16 : Bool) {p : Param α}
    {a : Nat} (h : p.shape = [a]) : IsVec (quantFor rnd qz qtype dflt f16 p) a := by
  have : Reduced p = false := by simp [Reduced, h, wide]
  unfold quantFor
  rw [this]
  exact tensorFor_isVec rnd dflt f16 h

/-- A complete head gives weights of the right shapes after quantization. -/
theorem quant_head_ok {s : Source α} (hcls : s.cls ≠ .other) (hst : StateOk s.config s.state) (hlm : HeadOk s.cls s.lm)
    (hh : HasHead s.cls s.config s.lm) (rnd : Bool → α → α) (qz : List α → List α) (qtype : Nat) (dflt : α) (f16 : Bool) :
    ∃ lm, LmNamed (quantAt rnd qz qtype dflt f16 s) lm ∧ LmOK lm s.config.hidden s.config.vocabSize := by
  have key : ∀ x ∈ headShapes s.config, ∃ p, p.shape = x.2 ∧
      quantAt rnd qz qtype dflt f16 s (ascii ("berts.bert.predictions." ++ x.1)) =
        some (quantFor rnd qz qtype dflt f16 p) := by
    intro x hx
    have : ∃ k ∈ headNames s.cls, k.2 = x.1 := by
      simp only [headShapes, List.mem_cons, List.not_mem_nil, or_false] at hx
      cases hc : s.cls with
      | other => exact absurd hc hcls
      | bert => rcases hx with rfl | rfl | rfl | rfl | rfl | rfl <;> simp [headNames]
      | roberta => rcases hx with rfl | rfl | rfl | rfl | rfl | rfl <;> simp [headNames]
    obtain ⟨k, k1, k2⟩ := this
    rw [← k2]
    obtain ⟨p, h1, h2⟩ := head_found hst hlm k1 (hh k k1 x.2 (by rw [k2]; exact hx))
    exact ⟨p, h1, by unfold quantAt; rw [h2]; rfl⟩
  obtain ⟨p1, a1, b1⟩ := key ("transform.dense.weight", [s.config.hidden, s.config.hidden]) (by simp [headShapes])
  obtain ⟨p2, a2, b2⟩ := key ("transform.dense.bias", [s.config.hidden]) (by simp [headShapes])
  obtain ⟨p3, a3, b3⟩ := key ("transform.LayerNorm.weight", [s.config.hidden]) (by simp [headShapes])
  obtain ⟨p4, a4, b4⟩ := key ("transform.LayerNorm.bias", [s.config.hidden]) (by simp [headShapes])
  obtain ⟨p5, a5, b5⟩ := key ("decoder.weight", [s.config.vocabSize, s.config.hidden]) (by simp [headShapes])
  obtain ⟨p6, a6, b6⟩ := key ("decoder.bias", [s.config.vocabSize]) (by simp [headShapes])
  exact ⟨⟨_, _, _, _, _, _⟩, ⟨b1, b2, b3, b4, b5, b6⟩, quantFor_isW _ _ _ _ _ a1, quantFor_isVec _ _ _ _ _ a2,
    quantFor_isVec _ _ _ _ _ a3, quantFor_isVec _ _ _ _ _ a4, quantFor_isW _ _ _ _ _ a5, quantFor_isVec _ _ _ _ _ a6⟩

end Berts.Convert

namespace Berts.Quantize

variable {α F : Type}

/-- Two streams with the same contents, the second with at least as much room, neither failed. -/
structure Roomier (o o' : Out) : Prop where
  bytes : o'.bytes = o.bytes
  pos : o'.pos = o.pos
  good : o.fail = false
  good' : o'.fail = false
  room : o.room ≤ o'.room

theorem write_failed (o : Out) (new : List Nat) (h : (o.write new).fail = false) : o.fail = false := by
  cases hf : o.fail with
  | false => rfl
  | true => unfold Out.write at h; rw [if_pos hf, hf] at h; cases h

theorem write_roomier {o o' : Out} (h : Roomier o o') (new : List Nat) (hg : (o.write new).fail = false) :
    Roomier (o.write new) (o'.write new) := by
  obtain ⟨h1, h2, h3, h4, h5⟩ := h
  have hfit : new.length ≤ o.room - o.pos := by
    unfold Out.write at hg
    rw [if_neg (by simp [h3])] at hg
    simp only [decide_eq_false_iff_not, List.length_take] at hg
    omega
  have t1 : new.take (o.room - o.pos) = new := List.take_of_length_le hfit
  have t2 : new.take (o'.room - o.pos) = new := List.take_of_length_le (by omega)
  unfold Out.write
  rw [if_neg (by simp [h3]), if_neg (by simp [h4])]
  refine ⟨?_, ?_, ?_, ?_, h5⟩
  · simp only [t1, t2, h1, h2]
  · simp only [t1, t2, h2]
  · simp [t1]
  · simp [h2, t2]

theorem convLoop_roomier (cv : Conv F) (aw qtype : Nat) (ts : List Load.LT) : ∀ (names : List (List Nat)) (infos : List Info)
    (cap : Nat) (o o' : Out) (r : Option (List Info)) (q : Out),
    convLoop cv aw qtype ts names infos cap o = .ok (r, q) → q.fail = false →
    o.fail = false ∧ (Roomier o o' → ∃ q', convLoop cv aw qtype ts names infos cap o' = .ok (r, q') ∧ Roomier q q')
  | [], infos, cap, o, o', r, q, h, hq => by
    simp only [convLoop] at h
    injection h with h
    injection h with h1 h2
    subst h1 h2
    exact ⟨hq, fun hr => ⟨o', rfl, hr⟩⟩
  | name :: names, infos, cap, o, o', r, q, h, hq => by
    simp only [convLoop] at h ⊢
    cases hg : Load.getTensor ts name with
    | none => rw [hg] at h; cases h
    | some t =>
      rw [hg] at h
      simp only at h ⊢
      cases hp : payload cv qtype name t cap with
      | ok x =>
        rw [hp] at h
        simp only [Res.bind] at h ⊢
        cases hx : x.1 with
        | none =>
          rw [hx] at h
          simp only at h ⊢
          injection h with h
          injection h with h1 h2
          subst h1 h2
          exact ⟨hq, fun hr => ⟨o', rfl, hr⟩⟩
        | some y =>
          obtain ⟨type, data⟩ := y
          rw [hx] at h
          simp only at h ⊢
          cases hs : setType name type infos with
          | ok infos1 =>
            rw [hs] at h
            simp only at h ⊢
            cases hd : setData aw name data.length infos1 with
            | ok infos2 =>
              rw [hd] at h
              simp only at h ⊢
              have ih := convLoop_roomier cv aw qtype ts names infos2 x.2
                (writeZeros (o.write data) (Graph.pad data.length aw - data.length))
                (writeZeros (o'.write data) (Graph.pad data.length aw - data.length)) r q h hq
              have f1 : (o.write data).fail = false := write_failed _ _ ih.1
              refine ⟨write_failed _ _ f1, fun hr => ?_⟩
              have r1 := write_roomier hr data f1
              exact ih.2 (write_roomier r1 _ ih.1)
            | ub => rw [hd] at h; cases h
            | abort => rw [hd] at h; cases h
            | hang => rw [hd] at h; cases h
          | ub => rw [hs] at h; cases h
          | abort => rw [hs] at h; cases h
          | hang => rw [hs] at h; cases h
      | ub => rw [hp] at h; cases h
      | abort => rw [hp] at h; cases h
      | hang => rw [hp] at h; cases h

theorem modelQuantize_roomier (cv : Conv F) (aw qtype : Nat) (src : Option (List (List Nat) × List Load.LT)) {room room' : Nat}
    (hle : room ≤ room') (pre : List Nat) {b : Bool} {o : Out}
    (h : modelQuantize cv aw qtype src (some room) pre = .ok (b, some o)) (hg : o.fail = false) :
    ∃ o', modelQuantize cv aw qtype src (some room') pre = .ok (b, some o') ∧ o'.bytes = o.bytes := by
  unfold modelQuantize at h ⊢
  cases hf : Load.ftype qtype with
  | ok x =>
    rw [hf] at h
    simp only [Res.bind] at h ⊢
    match src, h with
    | none, h => cases h
    | some (names, ts), h =>
      simp only at h ⊢
      cases ha : addAll aw ts names [] with
      | ok infos =>
        rw [ha] at h
        simp only at h ⊢
        cases hl : convLoop cv aw qtype ts names infos 0 (writeZeros ⟨[], 0, false, room⟩ (metaSize aw pre infos)) with
        | ok r =>
          rw [hl] at h
          simp only at h
          have key : r.2.fail = false → ∃ q', convLoop cv aw qtype ts names infos 0
              (writeZeros ⟨[], 0, false, room'⟩ (metaSize aw pre infos)) = .ok (r.1, q') ∧ Roomier r.2 q' := by
            intro hq
            obtain ⟨k1, k2⟩ := convLoop_roomier cv aw qtype ts names infos 0 _
              (writeZeros ⟨[], 0, false, room'⟩ (metaSize aw pre infos)) r.1 r.2 hl hq
            exact k2 (write_roomier (o := ⟨[], 0, false, room⟩) (o' := ⟨[], 0, false, room'⟩) ⟨rfl, rfl, rfl, rfl, hle⟩ _ k1)
          cases hr : r.1 with
          | none =>
            rw [hr] at h
            simp only at h
            injection h with h
            injection h with h1 h2
            injection h2 with h2
            subst h1 h2
            obtain ⟨q', q1, q2⟩ := key hg
            rw [q1, hr]
            exact ⟨q', rfl, q2.bytes⟩
          | some infos' =>
            rw [hr] at h
            simp only [writeMeta] at h
            by_cases hsz : (metaData aw pre infos').length ≤ metaSize aw pre infos
            · rw [if_pos hsz] at h
              simp only at h
              injection h with h
              injection h with h1 h2
              injection h2 with h2
              subst h1 h2
              have f1 := write_failed _ _ hg
              have f2 : r.2.fail = false := by
                cases hb : r.2.fail with
                | false => rfl
                | true => unfold Out.seekp at f1; rw [if_pos hb, hb] at f1; cases f1
              obtain ⟨q', q1, q2⟩ := key f2
              rw [q1, hr]
              simp only [writeMeta, if_pos hsz]
              have hsk : Roomier (r.2.seekp 0) (q'.seekp 0) := by
                unfold Out.seekp
                rw [if_neg (by simp [f2]), if_neg (by simp [q2.good'])]
                exact ⟨q2.bytes, rfl, q2.good, q2.good', q2.room⟩
              exact ⟨_, rfl, (write_roomier hsk _ hg).bytes⟩
            · rw [if_neg hsz] at h
              cases h
        | ub => rw [hl] at h; cases h
        | abort => rw [hl] at h; cases h
        | hang => rw [hl] at h; cases h
      | ub => rw [ha] at h; cases h
      | abort => rw [ha] at h; cases h
      | hang => rw [ha] at h; cases h
  | ub => rw [hf] at h; cases h
  | abort => rw [hf] at h; cases h
  | hang => rw [hf] at h; cases h

/-- A file written without failure is the one written with more room. -/
theorem quantize_roomier (cv : Conv F) (ver : Nat) (header : List (List Nat × Load.Kv) → Nat → List Nat)
    (w : Load.World α) {room room' : Nat} (hle : room ≤ room') (qtype : Nat) {b : Bool} {o : Out}
    (h : bertsModelQuantize cv ver header w (some room) qtype = .ok (b, some o)) (hg : o.fail = false) :
    ∃ o', bertsModelQuantize cv ver header w (some room') qtype = .ok (b, some o') ∧ o'.bytes = o.bytes := by
  unfold bertsModelQuantize at h ⊢
  cases hf : Load.ftype qtype with
  | ok x =>
    rw [hf] at h
    simp only [Res.bind] at h ⊢
    cases hl : Load.load w with
    | ok r =>
      rw [hl] at h
      simp only at h ⊢
      split at h
      · exact modelQuantize_roomier cv 32 qtype _ hle _ h hg
      · cases h
    | ub => rw [hl] at h; cases h
    | abort => rw [hl] at h; cases h
    | hang => rw [hl] at h; cases h
  | ub => rw [hf] at h; cases h
  | abort => rw [hf] at h; cases h
  | hang => rw [hf] at h; cases h

end Berts.Quantize
