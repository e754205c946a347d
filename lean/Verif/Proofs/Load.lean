import Verif.Spec.Load
import Verif.Proofs.Handle

/-!
# Proofs about loading
-/

namespace Berts.Load

open Berts.Handle (res_inv)
open Berts.Vocab (ascii decimal)
open Berts.Graph (T Layer LmWeights Weights Gg pad)

variable {α : Type}

/-! ## Handles -/

theorem dtor_eq (s : Handle.St Rsrc) (k : Nat) (p : Option Rsrc) (h : s.obj k = some p) :
    ∃ s', Handle.dtor s k = .ok s' ∧ s'.freed = s.freed ++ p.toList ∧ s'.obj k = none ∧
      ∀ j, j ≠ k → s'.obj j = s.obj j := by
  unfold Handle.dtor Handle.dispose
  rw [h]
  cases p with
  | none => exact ⟨_, rfl, by simp, by simp [Handle.put], fun j hj => by simp [Handle.put, hj]⟩
  | some r => exact ⟨_, rfl, by simp, by simp [Handle.put], fun j hj => by simp [Handle.put, hj]⟩

theorem closeGg_eq (l : Ledger) (a b : Option Rsrc) (h0 : l.h.obj 0 = some a) (h1 : l.h.obj 1 = some b) :
    ∃ l', closeGg l = .ok l' ∧ l'.acq = l.acq ∧ l'.h.freed = l.h.freed ++ b.toList ++ a.toList ∧
      l'.h.obj 0 = none ∧ l'.h.obj 1 = none ∧ ∀ j, j ≠ 0 → j ≠ 1 → l'.h.obj j = l.h.obj j := by
  obtain ⟨s1, e1, f1, n1, o1⟩ := dtor_eq l.h 1 b h1
  obtain ⟨s2, e2, f2, n2, o2⟩ := dtor_eq s1 0 a (by rw [o1 0 (by omega), h0])
  refine ⟨{ l with h := s2 }, ?_, rfl, ?_, n2, ?_, ?_⟩
  · unfold closeGg; rw [e1]; simp only [Res.bind]; rw [e2]
  · show s2.freed = _; rw [f2, f1]
  · show s2.obj 1 = none; rw [o2 1 (by omega), n1]
  · intro j hj hj'; show s2.obj j = _; rw [o2 j hj, o1 j hj']

theorem leave_eq (r : Option (Ctx α)) (l : Ledger) (a b c : Option Rsrc) (h0 : l.h.obj 0 = some a)
    (h1 : l.h.obj 1 = some b) (h2 : l.h.obj 2 = some c) :
    ∃ l', leave r l = .ok (r, l') ∧ l'.acq = l.acq ∧
      l'.h.freed = l.h.freed ++ c.toList ++ b.toList ++ a.toList := by
  obtain ⟨s1, e1, f1, n1, o1⟩ := dtor_eq l.h 2 c h2
  obtain ⟨l2, e2, q2, f2, _⟩ := closeGg_eq { l with h := s1 } a b (by show s1.obj 0 = _; rw [o1 0 (by omega), h0])
    (by show s1.obj 1 = _; rw [o1 1 (by omega), h1])
  refine ⟨l2, ?_, q2, ?_⟩
  · unfold leave; rw [e1]; simp only [Res.bind]; rw [e2]
  · rw [f2]; show s1.freed ++ _ ++ _ = _; rw [f1]

/-- The state of the handles after `gg_ctx` was constructed from a good file. -/
structure Opened (h : Handle.St Rsrc) : Prop where
  o0 : h.obj 0 = some (some .meta)
  o1 : h.obj 1 = some (some .gguf)
  o2 : h.obj 2 = none
  fr : h.freed = []

theorem ggCtor_some : ∃ h, Handle.ggCtor Handle.St.init 0 1 3 (some (Rsrc.gguf, Rsrc.meta)) = .ok h ∧ Opened h :=
  ⟨_, rfl, rfl, rfl, rfl, rfl⟩

theorem ggCtor_none : ∃ h, Handle.ggCtor (R := Rsrc) Handle.St.init 0 1 3 none = .ok h ∧
    h.obj 0 = some none ∧ h.obj 1 = some none ∧ h.freed = [] :=
  ⟨_, rfl, rfl, rfl, rfl⟩

theorem ctor_eq (h : Handle.St Rsrc) (p : Option Rsrc) (h2 : h.obj 2 = none) :
    ∃ h', Handle.ctor h 2 p = .ok h' ∧ h'.freed = h.freed ∧ h'.obj 2 = some p ∧
      ∀ j, j ≠ 2 → h'.obj j = h.obj j := by
  unfold Handle.ctor
  rw [h2]
  exact ⟨_, rfl, rfl, by simp [Handle.put], fun j hj => by simp [Handle.put, hj]⟩

theorem release_eq (h : Handle.St Rsrc) (k : Nat) (p : Option Rsrc) (hk : h.obj k = some p) :
    ∃ h', Handle.release h k = .ok (p, h') ∧ h'.freed = h.freed ∧ h'.obj k = some none ∧
      ∀ j, j ≠ k → h'.obj j = h.obj j := by
  unfold Handle.release
  rw [hk]
  exact ⟨_, rfl, rfl, by simp [Handle.put], fun j hj => by simp [Handle.put, hj]⟩

/-- The handles once the weight context exists. -/
structure Opened3 (l : Ledger) : Prop where
  o0 : l.h.obj 0 = some (some .meta)
  o1 : l.h.obj 1 = some (some .gguf)
  o2 : l.h.obj 2 = some (some .weights)
  fr : l.h.freed = []
  ac : l.acq = [.gguf, .meta, .weights]

/-- What `create` returns and does. -/
inductive Created (w : World α) (g : Gguf) (hp : Hp) (type : Nat) (ts : List LT) : Option (Ctx α) → Prop
  | fail : vocabInit w.signed w.order hp.arch g ts = .ok none → Created w g hp type ts none
  | noWeights (v) : vocabInit w.signed w.order hp.arch g ts = .ok (some v) →
      initWeights (fun k => (getTensor ts k).map w.conv) hp.hp.nLayers = none → Created w g hp type ts none
  | ok (v ws) : vocabInit w.signed w.order hp.arch g ts = .ok (some v) →
      initWeights (fun k => (getTensor ts k).map w.conv) hp.hp.nLayers = some ws →
      Created w g hp type ts (some ⟨hp, type, ts, v, ws⟩)

theorem create_cases {w : World α} {g : Gguf} {hp : Hp} {type : Nat} {ts : List LT} {l l' : Ledger}
    {r : Option (Ctx α)} (h : create w g hp type ts l = .ok (r, l')) :
    Created w g hp type ts r ∧ l'.acq = l.acq ++ [.ctx] ∧
      l'.h.freed = (if r.isSome then l.h.freed else l.h.freed ++ [.model, .ctx]) ∧ l'.h.obj = l.h.obj := by
  unfold create at h
  simp only at h
  obtain ⟨v, hv, h⟩ := res_inv h
  cases v with
  | none =>
    simp only at h
    cases h
    exact ⟨.fail hv, rfl, by simp [deleteCtx, freeRaw, acquire], rfl⟩
  | some v =>
    simp only at h
    split at h
    · rename_i hw
      cases h
      exact ⟨.noWeights v hv hw, rfl, by simp [deleteCtx, freeRaw, acquire], rfl⟩
    · rename_i ws hw
      cases h
      exact ⟨.ok v ws hv hw, rfl, by simp [acquire], rfl⟩

/-- The ways in which `finish` returns. -/
inductive Finished (w : World α) (g : Gguf) (ts : List LT) : Option (Ctx α) → List Rsrc → List Rsrc → Prop
  | act (hp) : hparams g = .ok hp → hp.hp.act ≠ 0 →
      Finished w g ts none [.gguf, .meta, .weights] [.weights, .gguf, .meta]
  | arch (hp) : hparams g = .ok hp → hp.hp.act = 0 → hp.arch ≠ 0 ∧ hp.arch ≠ 1 →
      Finished w g ts none [.gguf, .meta, .weights] [.weights, .gguf, .meta]
  | create (hp type) (r : Option (Ctx α)) : hparams g = .ok hp → hp.hp.act = 0 → hp.arch = 0 ∨ hp.arch = 1 →
      u32 g "general.file_type" = .ok type → ftype type = .ok () → Created w g hp type ts r →
      Finished w g ts r [.gguf, .meta, .weights, .model, .ctx] (if r.isSome then [.meta] else [.model, .ctx, .meta])

theorem finish_cases {w : World α} {g : Gguf} {ts : List LT} {l l' : Ledger} {r : Option (Ctx α)}
    (o : Opened3 l) (h : finish w g ts l = .ok (r, l')) : Finished w g ts r l'.acq l'.h.freed := by
  unfold finish at h
  obtain ⟨hp, h1, h⟩ := res_inv h
  obtain ⟨type, h2, h⟩ := res_inv h
  obtain ⟨⟨⟩, h3, h⟩ := res_inv h
  by_cases ha : hp.hp.act ≠ 0
  · rw [if_pos ha] at h
    obtain ⟨l2, e, q, f⟩ := leave_eq (α := α) none l _ _ _ o.o0 o.o1 o.o2
    rw [h] at e
    cases e
    rw [q, f, o.fr, o.ac]
    exact .act hp h1 ha
  · rw [if_neg ha] at h
    have ha : hp.hp.act = 0 := Classical.not_not.mp ha
    by_cases hb : hp.arch ≠ 0 ∧ hp.arch ≠ 1
    · rw [if_pos hb] at h
      obtain ⟨l2, e, q, f⟩ := leave_eq (α := α) none l _ _ _ o.o0 o.o1 o.o2
      rw [h] at e
      cases e
      rw [q, f, o.fr, o.ac]
      exact .arch hp h1 ha hb
    · rw [if_neg hb] at h
      simp only at h
      obtain ⟨s1, e1, f1, n1, k1⟩ := release_eq (acquire l .model).h 1 _ o.o1
      rw [e1] at h
      simp only [Res.bind] at h
      obtain ⟨s2, e2, f2, n2, k2⟩ := release_eq s1 2 (some .weights) (by rw [k1 2 (by omega)]; exact o.o2)
      rw [e2] at h
      simp only at h
      change Res.bind _ _ = _ at h
      obtain ⟨⟨rc, lc⟩, hc, h⟩ := res_inv h
      obtain ⟨c1, c2, c3, c4⟩ := create_cases hc
      simp only at c2 c3 c4 h
      obtain ⟨l2, e, q, f⟩ := leave_eq rc lc (some .meta) none none
        (by rw [c4, k2 0 (by omega), k1 0 (by omega)]; exact o.o0)
        (by rw [c4, k2 1 (by omega), n1]) (by rw [c4, n2])
      rw [h] at e
      cases e
      rw [q, f, c2, c3]
      have hac : (acquire l .model).acq = [.gguf, .meta, .weights, .model] := by
        show l.acq ++ _ = _; rw [o.ac]; rfl
      have hfr : s2.freed = [] := by rw [f2, f1]; exact o.fr
      rw [hac, hfr]
      have hd : hp.arch = 0 ∨ hp.arch = 1 := by omega
      have := Finished.create hp type r h1 ha hd h2 h3 c1
      cases r <;> exact this

/-- The ways in which `load` returns. -/
inductive Outcome (w : World α) : Option (Ctx α) → List Rsrc → List Rsrc → Prop
  | noFile : w.gguf = none → Outcome w none [] []
  | noPool (g size) : w.gguf = some g → initGg w.gg g = .ok size → w.poolInit size = false →
      Outcome w none [.gguf, .meta] [.gguf, .meta]
  | noStream (g size) : w.gguf = some g → initGg w.gg g = .ok size → w.poolInit size = true → w.file = none →
      Outcome w none [.gguf, .meta, .weights] [.weights, .gguf, .meta]
  | truncated (g size bytes) : w.gguf = some g → initGg w.gg g = .ok size → w.poolInit size = true →
      w.file = some bytes →
      loadLoop w.gg g (poolSize w.gg size) w.junk 0 g.dir 0 ⟨bytes, 0, false⟩ [] = .ok none →
      Outcome w none [.gguf, .meta, .weights] [.weights, .gguf, .meta]
  | finished (g size bytes ts) (r : Option (Ctx α)) (acq freed) : w.gguf = some g → initGg w.gg g = .ok size →
      w.poolInit size = true → w.file = some bytes →
      loadLoop w.gg g (poolSize w.gg size) w.junk 0 g.dir 0 ⟨bytes, 0, false⟩ [] = .ok (some ts) →
      Finished w g ts r acq freed → Outcome w r acq freed

theorem load_cases {w : World α} {r : Option (Ctx α)} {l : Ledger} (h : load w = .ok (r, l)) :
    Outcome w r l.acq l.h.freed := by
  unfold load at h
  split at h
  · rename_i hg
    obtain ⟨s, e, o0, o1, f⟩ := ggCtor_none
    rw [e] at h
    simp only [Res.bind] at h
    change Res.bind _ _ = _ at h
    obtain ⟨l2, e2, q2, f2, _⟩ := closeGg_eq ⟨s, []⟩ none none o0 o1
    rw [e2] at h
    cases h
    rw [q2, f2]
    simp only [f]
    exact .noFile hg
  · rename_i g hg
    obtain ⟨s, e, o⟩ := ggCtor_some
    rw [e] at h
    simp only [Res.bind] at h
    change Res.bind _ _ = _ at h
    obtain ⟨size, hs, h⟩ := res_inv h
    unfold loadWeights at h
    split at h
    · rename_i hp
      obtain ⟨h2, e2, f2, n2, k2⟩ := ctor_eq s (some .weights) o.o2
      rw [show (⟨s, [.gguf, .meta]⟩ : Ledger).h = s from rfl, e2] at h
      simp only [Res.bind] at h
      have o3 : Opened3 (acquire ⟨h2, [.gguf, .meta]⟩ .weights) :=
        ⟨by show h2.obj 0 = _; rw [k2 0 (by omega)]; exact o.o0,
         by show h2.obj 1 = _; rw [k2 1 (by omega)]; exact o.o1, n2,
         by show h2.freed = _; rw [f2]; exact o.fr, rfl⟩
      split at h
      · rename_i hf
        obtain ⟨l2, e, q, f⟩ := leave_eq (α := α) none _ _ _ _ o3.o0 o3.o1 o3.o2
        rw [h] at e
        cases e
        rw [q, f, o3.fr, o3.ac]
        exact .noStream g size hg hs hp hf
      · rename_i bytes hf
        change Res.bind _ _ = _ at h
        obtain ⟨x, hx, h⟩ := res_inv h
        cases x with
        | none =>
          simp only at h
          obtain ⟨l2, e, q, f⟩ := leave_eq (α := α) none _ _ _ _ o3.o0 o3.o1 o3.o2
          rw [h] at e
          cases e
          rw [q, f, o3.fr, o3.ac]
          exact .truncated g size bytes hg hs hp hf hx
        | some ts =>
          simp only at h
          exact .finished g size bytes ts r _ _ hg hs hp hf hx (finish_cases o3 h)
    · rename_i hp
      have hp : w.poolInit size = false := by simpa using hp
      obtain ⟨h2, e2, f2, n2, k2⟩ := ctor_eq s none o.o2
      rw [show (⟨s, [.gguf, .meta]⟩ : Ledger).h = s from rfl, e2] at h
      simp only [Res.bind] at h
      obtain ⟨l2, e, q, f⟩ := leave_eq (α := α) none (⟨h2, [.gguf, .meta]⟩ : Ledger) (some .meta) (some .gguf) none
        (by show h2.obj 0 = _; rw [k2 0 (by omega)]; exact o.o0)
        (by show h2.obj 1 = _; rw [k2 1 (by omega)]; exact o.o1) n2
      rw [h] at e
      cases e
      rw [q, f]
      simp only [f2, o.fr]
      exact .noPool g size hg hs hp

/-! ## The weight context -/

theorem meta_of (g : Gguf) (hn : NamesOk g) (t : TInfo) (ht : t ∈ g.dir) : metaTensor g t.name = some t := by
  unfold metaTensor
  obtain ⟨nd, hl⟩ := hn
  generalize g.dir = d at nd hl ht
  induction d with
  | nil => cases ht
  | cons a d ih =>
    have ha : setName a.name = a.name := List.take_of_length_le (by have := hl a (by simp); omega)
    rw [List.find?_cons]
    rw [List.map_cons, List.nodup_cons] at nd
    rcases List.mem_cons.1 ht with rfl | ht
    · simp [ha]
    · have : ¬ a.name = t.name := fun he => nd.1 (he ▸ List.mem_map_of_mem ht)
      have hf : (setName a.name == t.name) = false := by rw [ha]; simpa using this
      rw [hf]
      simpa using ih nd.2 (fun x hx => hl x (List.mem_cons_of_mem _ hx)) ht

theorem sizeLoop_eq (gg : Gg) (g : Gguf) (hn : NamesOk g) :
    ∀ (ts : List TInfo) (acc : Nat), (∀ t ∈ ts, t ∈ g.dir) → acc < 2 ^ 64 →
      sizeLoop gg g ts acc = .ok ((acc + needed gg ts) % 2 ^ 64)
  | [], acc, _, h => by
    simp only [sizeLoop, needed, Nat.add_zero]; rw [Nat.mod_eq_of_lt h]
  | t :: ts, acc, hm, h => by
    unfold sizeLoop
    rw [meta_of g hn t (hm t (by simp))]
    simp only
    rw [sizeLoop_eq gg g hn ts _ (fun x hx => hm x (List.mem_cons_of_mem _ hx)) (Nat.mod_lt _ (by omega))]
    rw [Nat.mod_add_mod]
    rw [show needed gg (t :: ts) = gg.objectSize + gg.tensorSize + (t.nbytes + gg.align - 1) / gg.align * gg.align +
      needed gg ts from rfl]
    unfold Graph.pad
    congr 2
    omega

theorem pad_add (a n b : Nat) (hb : 0 < b) (ha : a % b = 0) : pad (a + n) b = a + pad n b := by
  unfold pad
  obtain ⟨k, rfl⟩ := Nat.dvd_of_mod_eq_zero ha
  have : b * k + n + b - 1 = n + b - 1 + b * k := by omega
  rw [this, Nat.add_mul_div_left _ _ hb, Nat.add_mul, Nat.mul_comm k b]
  omega

theorem le_pad (n b : Nat) (hb : 0 < b) : n ≤ pad n b := by
  unfold pad
  have h1 := Nat.div_add_mod (n + b - 1) b
  have h2 := Nat.mod_lt (n + b - 1) hb
  rw [Nat.mul_comm] at h1
  omega

/-- The tensor made from a directory entry. -/
def loadedT (g : Gguf) (bytes : List Nat) (junk : Nat → Nat) (t : TInfo) : LT :=
  ⟨t.name, t.ndims, t.ne, t.type, fill ((bytes.drop (g.dataOffset + t.offset)).take t.nbytes) junk t.nbytes⟩

def loadedFrom (g : Gguf) (bytes : List Nat) (junk : Nat → Nat → Nat) : Nat → List TInfo → List LT
  | _, [] => []
  | i, t :: ts => loadedT g bytes (junk i) t :: loadedFrom g bytes junk (i + 1) ts

theorem loadedFrom_get (g : Gguf) (bytes : List Nat) (junk : Nat → Nat → Nat) :
    ∀ (ts : List TInfo) (i k : Nat), (loadedFrom g bytes junk i ts)[k]? = (ts[k]?).map (loadedT g bytes (junk (i + k)))
  | [], i, k => by simp [loadedFrom]
  | t :: ts, i, 0 => by simp [loadedFrom]
  | t :: ts, i, k + 1 => by
    simp only [loadedFrom, List.getElem?_cons_succ]
    rw [loadedFrom_get g bytes junk ts (i + 1) k]
    congr 3
    omega

theorem complete_iff (g : Gguf) (bytes : List Nat) (t : TInfo) :
    Complete g bytes t ↔ ((bytes.drop (g.dataOffset + t.offset)).take t.nbytes).length = t.nbytes := by
  unfold Complete
  simp only [List.length_take, List.length_drop]
  constructor
  · intro h
    by_cases h0 : t.nbytes = 0
    · omega
    · have := h (t.nbytes - 1) (by omega); omega
  · intro h j hj
    omega

theorem loop_failed (gg : Gg) (g : Gguf) (pool : Nat) (junk) (i : Nat) (ts : List TInfo) (used : Nat) (s : Stream)
    (acc : List LT) (hs : s.fail = true) (r) (h : loadLoop gg g pool junk i ts used s acc = .ok (some r)) :
    ts = [] ∧ r = acc := by
  cases ts with
  | nil => unfold loadLoop at h; cases h; exact ⟨rfl, rfl⟩
  | cons t ts =>
    unfold loadLoop at h
    split at h
    · cases h
    · obtain ⟨u, _, h⟩ := res_inv h
      have : (s.seekg ((g.dataOffset + t.offset) % 2 ^ 64)).fail = true := by
        unfold Stream.seekg; rw [if_pos hs]; exact hs
      simp only at h
      rw [if_pos this] at h
      cases h

/-- If the loop succeeds, all tensors but the last are complete and the tensors are as expected. -/
theorem loop_sound (gg : Gg) (g : Gguf) (hn : NamesOk g) (ho : ∀ t ∈ g.dir, g.dataOffset + t.offset < 2 ^ 64)
    (pool : Nat) (junk) (bytes : List Nat) :
    ∀ (ts : List TInfo) (i used : Nat) (s : Stream) (acc r : List LT), (∀ t ∈ ts, t ∈ g.dir) →
      s.fail = false → s.bytes = bytes →
      loadLoop gg g pool junk i ts used s acc = .ok (some r) →
      (∀ t ∈ ts.dropLast, Complete g bytes t) ∧ r = acc ++ loadedFrom g bytes junk i ts
  | [], i, used, s, acc, r, _, _, _, h => by
    unfold loadLoop at h; cases h; simp [loadedFrom]
  | t :: ts, i, used, s, acc, r, hm, hs, hb, h => by
    unfold loadLoop at h
    rw [meta_of g hn t (hm t (by simp))] at h
    simp only at h
    obtain ⟨u, _, h⟩ := res_inv h
    rw [Nat.mod_eq_of_lt (ho t (hm t (by simp)))] at h
    have hname : setName t.name = t.name :=
      List.take_of_length_le (by have := hn.2 t (hm t (by simp)); omega)
    rw [hname] at h
    have hk : s.seekg (g.dataOffset + t.offset) =
        if g.dataOffset + t.offset < 2 ^ 63 then { s with pos := g.dataOffset + t.offset } else { s with fail := true } := by
      unfold Stream.seekg; simp [hs]
    rw [hk] at h
    by_cases hl : g.dataOffset + t.offset < 2 ^ 63
    · rw [if_pos hl] at h
      simp only [hs, Bool.false_eq_true, if_false] at h
      have hr : ({ s with pos := g.dataOffset + t.offset } : Stream).read t.nbytes =
          (((bytes.drop (g.dataOffset + t.offset)).take t.nbytes),
            { s with
              pos := g.dataOffset + t.offset + ((bytes.drop (g.dataOffset + t.offset)).take t.nbytes).length,
              fail := decide (((bytes.drop (g.dataOffset + t.offset)).take t.nbytes).length < t.nbytes) }) := by
        unfold Stream.read; simp [hs, hb]
      rw [hs] at hr
      rw [hr] at h
      by_cases hc : Complete g bytes t
      · have hc' := (complete_iff g bytes t).1 hc
        have hd : decide (((bytes.drop (g.dataOffset + t.offset)).take t.nbytes).length < t.nbytes) = false :=
          decide_eq_false (by omega)
        have := loop_sound gg g hn ho pool junk bytes ts (i + 1) u _ _ r
          (fun x hx => hm x (List.mem_cons_of_mem _ hx)) (by exact hd) (by exact hb) h
        refine ⟨?_, ?_⟩
        · intro x hx
          cases ts with
          | nil => simp at hx
          | cons b ts =>
            rw [List.dropLast_cons_cons] at hx
            rcases List.mem_cons.1 hx with rfl | hx
            · exact hc
            · exact this.1 x hx
        · rw [this.2]
          simp [loadedFrom, loadedT]
      · have hc' : ¬ ((bytes.drop (g.dataOffset + t.offset)).take t.nbytes).length = t.nbytes :=
          fun e => hc ((complete_iff g bytes t).2 e)
        have hlen : ((bytes.drop (g.dataOffset + t.offset)).take t.nbytes).length ≤ t.nbytes := by
          simp only [List.length_take]; omega
        have := loop_failed _ _ _ _ _ _ _ _ _ (by simp only [decide_eq_true_eq]; omega) r h
        obtain ⟨rfl, rfl⟩ := this
        simp [loadedFrom, loadedT]
    · rw [if_neg hl] at h
      simp at h

/-- With enough memory and correct offsets the loop decides exactly whether all tensors but the last are
complete. -/
theorem loop_exact (gg : Gg) (g : Gguf) (hn : NamesOk g) (ho : OffsetsOk g) (ha : 0 < gg.align)
    (hts : gg.tensorSize % gg.align = 0) (pool : Nat) (junk) (bytes : List Nat) :
    ∀ (ts : List TInfo) (i used : Nat) (s : Stream) (acc : List LT), (∀ t ∈ ts, t ∈ g.dir) →
      s.bytes = bytes → used + needed gg ts ≤ pool →
      ∃ r, loadLoop gg g pool junk i ts used s acc = .ok r ∧
        (s.fail = false → (∀ t ∈ ts.dropLast, Complete g bytes t) →
          r = some (acc ++ loadedFrom g bytes junk i ts))
  | [], i, used, s, acc, _, _, _ => by
    exact ⟨some acc, by unfold loadLoop; rfl, by simp [loadedFrom]⟩
  | t :: ts, i, used, s, acc, hm, hb, hp => by
    unfold loadLoop
    rw [meta_of g hn t (hm t (by simp))]
    simp only
    have hname : setName t.name = t.name :=
      List.take_of_length_le (by have := hn.2 t (hm t (by simp)); omega)
    have hpad : gg.objectSize + pad (gg.tensorSize + t.nbytes) gg.align + needed gg ts = needed gg (t :: ts) := by
      rw [pad_add _ _ _ ha hts]
      rw [show needed gg (t :: ts) = gg.objectSize + gg.tensorSize +
        (t.nbytes + gg.align - 1) / gg.align * gg.align + needed gg ts from rfl]
      unfold Graph.pad
      omega
    have hal : allocT gg pool used t.nbytes =
        .ok (used + (gg.objectSize + pad (gg.tensorSize + t.nbytes) gg.align)) := by
      unfold allocT
      simp only
      rw [if_pos (by omega)]
    have ho' := ho t (hm t (by simp))
    rw [hal, Nat.mod_eq_of_lt (by omega), hname]
    simp only [Res.bind]
    cases hs : s.fail with
    | true =>
      have : (s.seekg (g.dataOffset + t.offset)) = s := by unfold Stream.seekg; rw [if_pos hs]
      rw [this, if_pos hs]
      exact ⟨none, rfl, by simp⟩
    | false =>
      have hk : s.seekg (g.dataOffset + t.offset) = { s with pos := g.dataOffset + t.offset } := by
        unfold Stream.seekg; rw [hs]; simp only [Bool.false_eq_true, if_false]; rw [if_pos ho']
      rw [hk, if_neg (by simp [hs])]
      have hr : ({ s with pos := g.dataOffset + t.offset } : Stream).read t.nbytes =
          (((bytes.drop (g.dataOffset + t.offset)).take t.nbytes),
            { s with
              pos := g.dataOffset + t.offset + ((bytes.drop (g.dataOffset + t.offset)).take t.nbytes).length,
              fail := decide (((bytes.drop (g.dataOffset + t.offset)).take t.nbytes).length < t.nbytes) }) := by
        unfold Stream.read; simp [hs, hb]
      rw [hr]
      obtain ⟨r, e, h⟩ := loop_exact gg g hn ho ha hts pool junk bytes ts (i + 1)
        (used + (gg.objectSize + pad (gg.tensorSize + t.nbytes) gg.align))
        { s with
          pos := g.dataOffset + t.offset + ((bytes.drop (g.dataOffset + t.offset)).take t.nbytes).length,
          fail := decide (((bytes.drop (g.dataOffset + t.offset)).take t.nbytes).length < t.nbytes) }
        (acc ++ [⟨t.name, t.ndims, t.ne, t.type,
          fill ((bytes.drop (g.dataOffset + t.offset)).take t.nbytes) (junk i) t.nbytes⟩])
        (fun x hx => hm x (List.mem_cons_of_mem _ hx)) hb (by omega)
      refine ⟨r, e, ?_⟩
      intro _ hc
      cases ts with
      | nil =>
        unfold loadLoop at e
        cases e
        simp [loadedFrom, loadedT]
      | cons b ts =>
        rw [List.dropLast_cons_cons] at hc
        have h1 := (complete_iff g bytes t).1 (hc t (by simp))
        rw [h (by simp only [decide_eq_false_iff_not]; omega) (fun x hx => hc x (List.mem_cons_of_mem _ hx))]
        simp [loadedFrom, loadedT]

/-- With enough memory the loop is defined, whatever the offsets and the file. -/
theorem loop_defined (gg : Gg) (g : Gguf) (hn : NamesOk g) (ha : 0 < gg.align)
    (hts : gg.tensorSize % gg.align = 0) (pool : Nat) (junk) :
    ∀ (ts : List TInfo) (i used : Nat) (s : Stream) (acc : List LT), (∀ t ∈ ts, t ∈ g.dir) →
      used + needed gg ts ≤ pool → ∃ r, loadLoop gg g pool junk i ts used s acc = .ok r
  | [], i, used, s, acc, _, _ => ⟨some acc, by unfold loadLoop; rfl⟩
  | t :: ts, i, used, s, acc, hm, hp => by
    unfold loadLoop
    rw [meta_of g hn t (hm t (by simp))]
    simp only
    have hpad : gg.objectSize + pad (gg.tensorSize + t.nbytes) gg.align + needed gg ts = needed gg (t :: ts) := by
      rw [pad_add _ _ _ ha hts]
      rw [show needed gg (t :: ts) = gg.objectSize + gg.tensorSize +
        (t.nbytes + gg.align - 1) / gg.align * gg.align + needed gg ts from rfl]
      unfold Graph.pad
      omega
    have hal : allocT gg pool used t.nbytes =
        .ok (used + (gg.objectSize + pad (gg.tensorSize + t.nbytes) gg.align)) := by
      unfold allocT
      simp only
      rw [if_pos (by omega)]
    rw [hal]
    simp only [Res.bind]
    split
    · exact ⟨none, rfl⟩
    · exact loop_defined gg g hn ha hts pool junk ts _ _ _ _ (fun x hx => hm x (List.mem_cons_of_mem _ hx)) (by omega)

theorem pool_enough (gg : Gg) (ha : 0 < gg.align) (n : Nat) : n ≤ poolSize gg n := by
  unfold poolSize
  split
  · omega
  · exact le_pad n _ ha

theorem fill_complete (got : List Nat) (junk : Nat → Nat) (n : Nat) (h : got.length = n) : fill got junk n = got := by
  unfold fill
  rw [h, Nat.sub_self]
  simp

theorem get_loaded (g : Gguf) (bytes : List Nat) (junk : Nat → Nat → Nat) (k : List Nat) :
    ∀ (ts : List TInfo) (i : Nat), (getTensor (loadedFrom g bytes junk i ts) k).isSome = true ↔
      k ∈ ts.map (·.name)
  | [], i => by simp [getTensor, loadedFrom]
  | t :: ts, i => by
    have ih := get_loaded g bytes junk k ts (i + 1)
    unfold getTensor at ih ⊢
    rw [loadedFrom, List.find?_cons, List.map_cons, List.mem_cons]
    by_cases h : t.name = k
    · simp [loadedT, h]
    · have hf : ((loadedT g bytes (junk i) t).name == k) = false := by simpa [loadedT] using h
      rw [hf]
      simp only
      rw [ih]
      constructor
      · exact .inr
      · rintro (e | e)
        · exact absurd e.symm h
        · exact e

/-! ## Metadata -/

theorem find_some (g : Gguf) (k : String) (v : Kv) :
    find g k = some v ↔ ∃ a b, g.kv = a ++ (ascii k, v) :: b ∧ ∀ p ∈ a, p.1 ≠ ascii k := by
  unfold find
  generalize g.kv = kv
  induction kv with
  | nil => simp
  | cons x kv ih =>
    rw [List.find?_cons]
    by_cases hx : x.1 = ascii k
    · simp only [hx, beq_self_eq_true, Option.map_some, Option.some.injEq]
      constructor
      · intro h
        exact ⟨[], kv, by rw [← h, ← hx]; rfl, by simp⟩
      · rintro ⟨a, b, e, ha⟩
        cases a with
        | nil => cases e; rfl
        | cons y a => cases e; exact absurd hx (ha x (by simp))
    · have : (x.1 == ascii k) = false := by simpa using hx
      simp only [this]
      rw [ih]
      constructor
      · rintro ⟨a, b, rfl, ha⟩
        refine ⟨x :: a, b, rfl, ?_⟩
        intro p hp
        rcases List.mem_cons.1 hp with rfl | hp
        · exact hx
        · exact ha p hp
      · rintro ⟨a, b, e, ha⟩
        cases a with
        | nil => cases e; exact absurd rfl hx
        | cons y a =>
          cases e
          exact ⟨a, b, rfl, fun p hp => ha p (List.mem_cons_of_mem _ hp)⟩

theorem u32_iff (g : Gguf) (k : String) (n : Nat) : u32 g k = .ok n ↔ HasU32 g k n := by
  unfold HasU32
  rw [← find_some]
  unfold u32
  split
  · rename_i m h
    rw [h]
    constructor
    · intro e; cases e; rfl
    · intro e; cases e; rfl
  · rename_i h
    constructor
    · intro e; cases e
    · intro e; exact absurd e (h n)

theorem find_none (g : Gguf) (k : String) : find g k = none ↔ NoKey g k := by
  unfold find NoKey
  simp

theorem u32Opt_segments {g : Gguf} {k : Option Nat} (h : u32Opt g "berts.segments" = .ok k) :
    HasSegments g (k.getD 2) := by
  unfold u32Opt at h
  split at h
  · rename_i hf; cases h; exact .inr ⟨(find_none _ _).1 hf, rfl⟩
  · rename_i hf; cases h; exact .inl ((find_some _ _ _).1 hf)
  · cases h

theorem f64Opt_spec {g : Gguf} {s : String} {k : Option Nat} (h : f64Opt g s = .ok k) {num den d : Nat}
    (hd : NearestDouble num den d) : OptF64 g s num den (k.getD d) := by
  unfold f64Opt at h
  split at h
  · rename_i hf; cases h; exact .inr ⟨(find_none _ _).1 hf, hd⟩
  · rename_i hf; cases h; exact .inl ((find_some _ _ _).1 hf)
  · cases h

theorem hparams_iff (g : Gguf) (hp : Hp) (h : hparams g = .ok hp) :
    HasU32 g "berts.bert_type" hp.arch ∧ HasU32 g "berts.vocab_size" hp.hp.vocabSize ∧
    HasU32 g "berts.hidden_dim" hp.hp.hidden ∧ HasU32 g "berts.n_layers" hp.hp.nLayers ∧
    HasU32 g "berts.attn_heads" hp.hp.heads ∧ HasU32 g "berts.max_token" hp.hp.maxTokens ∧
    HasU32 g "berts.intermediate_dim" hp.hp.interm ∧ HasU32 g "berts.hidden_act" hp.hp.act ∧
    HasSegments g hp.hp.segments ∧ OptF64 g "berts.layer_norm_eps" 1 (10 ^ 12) hp.hp.eps ∧
    OptF64 g "berts.initializer_range" 2 100 hp.initRange := by
  unfold hparams at h
  obtain ⟨a, h1, h⟩ := res_inv h
  obtain ⟨b, h2, h⟩ := res_inv h
  obtain ⟨c, h3, h⟩ := res_inv h
  obtain ⟨d, h4, h⟩ := res_inv h
  obtain ⟨e, h5, h⟩ := res_inv h
  obtain ⟨f, h6, h⟩ := res_inv h
  obtain ⟨i, h7, h⟩ := res_inv h
  obtain ⟨j, h8, h⟩ := res_inv h
  obtain ⟨k, h9, h⟩ := res_inv h
  obtain ⟨m, h10, h⟩ := res_inv h
  obtain ⟨n, h11, h⟩ := res_inv h
  cases h
  exact ⟨(u32_iff ..).1 h1, (u32_iff ..).1 h2, (u32_iff ..).1 h3, (u32_iff ..).1 h4, (u32_iff ..).1 h5,
    (u32_iff ..).1 h6, (u32_iff ..).1 h7, (u32_iff ..).1 h9, u32Opt_segments h8, f64Opt_spec h10 (by decide),
    f64Opt_spec h11 (by decide)⟩

/-! ## Weights -/

theorem ascii_append (a b : String) : ascii (a ++ b) = ascii a ++ ascii b := by
  unfold Vocab.ascii; simp

theorem key_eq (s : String) : key s = ascii ("berts.bert." ++ s) := by
  unfold key; rw [ascii_append]

theorem layerKey_eq (n : Nat) (s : String) :
    layerKey n s = ascii "berts.bert.encoder.layer." ++ decimal n ++ ascii ("." ++ s) := by
  unfold layerKey
  rw [ascii_append, show ("berts.bert.encoder.layer." : String) = "berts.bert." ++ ("encoder.layer" ++ ".") from rfl,
    ascii_append, ascii_append]
  simp only [List.append_assoc]

theorem initLayer_iff (get : List Nat → Option (T α)) (n : Nat) (l : Layer α) :
    initLayer get n = some l ↔ LayerNamed get n l := by
  unfold initLayer LayerNamed
  simp only [layerKey_eq, Option.bind_eq_bind, Option.bind_eq_some_iff, Option.pure_def, Option.some.injEq]
  constructor
  · rintro ⟨_, h1, _, h2, _, h3, _, h4, _, h5, _, h6, _, h7, _, h8, _, h9, _, h10, _, h11, _, h12, _, h13,
      _, h14, _, h15, _, h16, rfl⟩
    exact ⟨h1, h2, h3, h4, h5, h6, h7, h8, h9, h10, h11, h12, h13, h14, h15, h16⟩
  · rintro ⟨h1, h2, h3, h4, h5, h6, h7, h8, h9, h10, h11, h12, h13, h14, h15, h16⟩
    exact ⟨_, h1, _, h2, _, h3, _, h4, _, h5, _, h6, _, h7, _, h8, _, h9, _, h10, _, h11, _, h12, _, h13,
      _, h14, _, h15, _, h16, rfl⟩

theorem initLm_iff (get : List Nat → Option (T α)) (l : LmWeights α) :
    initLm get = some l ↔ LmNamed get l := by
  unfold initLm LmNamed
  have e (s : String) : key ("predictions." ++ s) = ascii ("berts.bert.predictions." ++ s) := by
    rw [key_eq, ← String.append_assoc]; rfl
  have e1 := e "transform.dense.weight"
  have e2 := e "transform.dense.bias"
  have e3 := e "transform.LayerNorm.weight"
  have e4 := e "transform.LayerNorm.bias"
  have e5 := e "decoder.weight"
  have e6 := e "decoder.bias"
  rw [show ("predictions." ++ "transform.dense.weight" : String) = "predictions.transform.dense.weight" from rfl] at e1
  rw [show ("predictions." ++ "transform.dense.bias" : String) = "predictions.transform.dense.bias" from rfl] at e2
  rw [show ("predictions." ++ "transform.LayerNorm.weight" : String) = "predictions.transform.LayerNorm.weight" from rfl] at e3
  rw [show ("predictions." ++ "transform.LayerNorm.bias" : String) = "predictions.transform.LayerNorm.bias" from rfl] at e4
  rw [show ("predictions." ++ "decoder.weight" : String) = "predictions.decoder.weight" from rfl] at e5
  rw [show ("predictions." ++ "decoder.bias" : String) = "predictions.decoder.bias" from rfl] at e6
  simp only [e1, e2, e3, e4, e5, e6, Option.bind_eq_bind, Option.bind_eq_some_iff, Option.pure_def, Option.some.injEq]
  constructor
  · rintro ⟨_, h1, _, h2, _, h3, _, h4, _, h5, _, h6, rfl⟩
    exact ⟨h1, h2, h3, h4, h5, h6⟩
  · rintro ⟨h1, h2, h3, h4, h5, h6⟩
    exact ⟨_, h1, _, h2, _, h3, _, h4, _, h5, _, h6, rfl⟩

theorem initLayers_iff (get : List Nat → Option (T α)) :
    ∀ (k n : Nat) (ls : List (Layer α)), initLayers get n k = some ls ↔
      ls.length = k ∧ ∀ i l, ls[i]? = some l → LayerNamed get (n + i) l
  | 0, n, ls => by
    unfold initLayers
    simp only [Option.some.injEq, List.length_eq_zero_iff]
    constructor
    · rintro rfl; simp
    · rintro ⟨h, _⟩; exact h.symm
  | k + 1, n, ls => by
    unfold initLayers
    simp only [Option.bind_eq_bind, Option.bind_eq_some_iff, Option.pure_def, Option.some.injEq, initLayer_iff,
      initLayers_iff get k]
    constructor
    · rintro ⟨l, h1, ls', ⟨h2, h3⟩, rfl⟩
      refine ⟨by simp [h2], ?_⟩
      intro i l' hi
      cases i with
      | zero => cases hi; exact h1
      | succ i =>
        rw [List.getElem?_cons_succ] at hi
        have := h3 i l' hi
        rwa [show n + 1 + i = n + (i + 1) by omega] at this
    · rintro ⟨h1, h2⟩
      cases ls with
      | nil => simp at h1
      | cons l ls =>
        refine ⟨l, h2 0 l rfl, ls, ⟨by simpa using h1, ?_⟩, rfl⟩
        intro i l' hi
        have := h2 (i + 1) l' (by rw [List.getElem?_cons_succ]; exact hi)
        rwa [show n + (i + 1) = n + 1 + i by omega] at this

theorem initWeights_iff (get : List Nat → Option (T α)) (n : Nat) (w : Weights α) :
    initWeights get n = some w ↔ Named get n w := by
  unfold initWeights Named
  simp only [key_eq, Option.bind_eq_bind, Option.bind_eq_some_iff, Option.pure_def, Option.some.injEq,
    initLayers_iff]
  constructor
  · rintro ⟨_, h1, _, h2, _, h3, _, h4, _, h5, _, ⟨h6, h6'⟩, _, h7, _, h8, rfl⟩
    refine ⟨h1, h2, h3, h4, h5, h7, h8, h6, ?_, ?_⟩
    · intro i l hi; have := h6' i l hi; rwa [Nat.zero_add] at this
    · intro l; exact initLm_iff get l
  · rintro ⟨h1, h2, h3, h4, h5, h7, h8, h6, h6', h9⟩
    refine ⟨_, h1, _, h2, _, h3, _, h4, _, h5, _, ⟨h6, ?_⟩, _, h7, _, h8, ?_⟩
    · intro i l hi; rw [Nat.zero_add]; exact h6' i l hi
    · obtain ⟨tok, seg, pos, lnw, lnb, layers, poolw, poolb, lm⟩ := w
      congr 1
      apply Option.ext
      intro l
      rw [h9 l]
      exact initLm_iff get l

/-- All required tensors are there if and only if there are weights. -/
theorem named_iff (get : List Nat → Option (T α)) (n : Nat) :
    (∃ w, Named get n w) ↔ ∀ k ∈ requiredNames n, (get k).isSome = true := by
  constructor
  · rintro ⟨w, h1, h2, h3, h4, h5, h7, h8, h6, h6', h9⟩ k hk
    unfold requiredNames at hk
    rcases List.mem_append.1 hk with hk | hk
    · simp only [List.map_cons, List.map_nil, List.mem_cons, List.not_mem_nil, or_false] at hk
      rcases hk with rfl | rfl | rfl | rfl | rfl | rfl | rfl
      · rw [h1]; rfl
      · rw [h2]; rfl
      · rw [h3]; rfl
      · rw [h4]; rfl
      · rw [h5]; rfl
      · rw [h7]; rfl
      · rw [h8]; rfl
    · simp only [List.mem_flatMap, List.mem_range] at hk
      obtain ⟨i, hi, s, hs, hk⟩ := hk
      have hl := h6' i w.layers[i] (List.getElem?_eq_getElem (by omega))
      obtain ⟨l1, l2, l3, l4, l5, l6, l7, l8, l9, l10, l11, l12, l13, l14, l15, l16⟩ := hl
      simp only [List.mem_cons, List.not_mem_nil, or_false] at hs hk
      rcases hs with rfl | rfl | rfl | rfl | rfl | rfl | rfl | rfl <;> rcases hk with rfl | rfl
      · rw [Option.isSome_iff_exists]; exact ⟨_, l1⟩
      · rw [Option.isSome_iff_exists]; exact ⟨_, l2⟩
      · rw [Option.isSome_iff_exists]; exact ⟨_, l3⟩
      · rw [Option.isSome_iff_exists]; exact ⟨_, l4⟩
      · rw [Option.isSome_iff_exists]; exact ⟨_, l5⟩
      · rw [Option.isSome_iff_exists]; exact ⟨_, l6⟩
      · rw [Option.isSome_iff_exists]; exact ⟨_, l7⟩
      · rw [Option.isSome_iff_exists]; exact ⟨_, l8⟩
      · rw [Option.isSome_iff_exists]; exact ⟨_, l9⟩
      · rw [Option.isSome_iff_exists]; exact ⟨_, l10⟩
      · rw [Option.isSome_iff_exists]; exact ⟨_, l11⟩
      · rw [Option.isSome_iff_exists]; exact ⟨_, l12⟩
      · rw [Option.isSome_iff_exists]; exact ⟨_, l13⟩
      · rw [Option.isSome_iff_exists]; exact ⟨_, l14⟩
      · rw [Option.isSome_iff_exists]; exact ⟨_, l15⟩
      · rw [Option.isSome_iff_exists]; exact ⟨_, l16⟩
  · intro h
    unfold requiredNames at h
    have he : ∀ s ∈ ["embeddings.word_embeddings.weight", "embeddings.token_type_embeddings.weight",
        "embeddings.position_embeddings.weight", "embeddings.LayerNorm.weight", "embeddings.LayerNorm.bias",
        "pooler.dense.weight", "pooler.dense.bias"], ∃ t, get (ascii ("berts.bert." ++ s)) = some t := by
      intro s hs
      exact Option.isSome_iff_exists.1 (h _ (List.mem_append_left _ (List.mem_map_of_mem hs)))
    have hl : ∀ i, i < n → ∀ s ∈ ["attention.self.query", "attention.self.key", "attention.self.value",
        "attention.output.dense", "attention.output.LayerNorm", "intermediate.dense", "output.dense",
        "output.LayerNorm"],
        (∃ t, get (ascii "berts.bert.encoder.layer." ++ decimal i ++ ascii ("." ++ s ++ ".weight")) = some t) ∧
        (∃ t, get (ascii "berts.bert.encoder.layer." ++ decimal i ++ ascii ("." ++ s ++ ".bias")) = some t) := by
      intro i hi s hs
      constructor
      · apply Option.isSome_iff_exists.1
        apply h
        apply List.mem_append_right
        simp only [List.mem_flatMap, List.mem_range]
        exact ⟨i, hi, s, hs, by simp⟩
      · apply Option.isSome_iff_exists.1
        apply h
        apply List.mem_append_right
        simp only [List.mem_flatMap, List.mem_range]
        exact ⟨i, hi, s, hs, by simp⟩
    have hlay : ∀ i, i < n → ∃ l, LayerNamed get i l := by
      intro i hi
      have hl := hl i hi
      obtain ⟨⟨_, a1⟩, ⟨_, a2⟩⟩ := hl "attention.self.query" (by simp)
      obtain ⟨⟨_, a3⟩, ⟨_, a4⟩⟩ := hl "attention.self.key" (by simp)
      obtain ⟨⟨_, a5⟩, ⟨_, a6⟩⟩ := hl "attention.self.value" (by simp)
      obtain ⟨⟨_, a7⟩, ⟨_, a8⟩⟩ := hl "attention.output.dense" (by simp)
      obtain ⟨⟨_, a9⟩, ⟨_, a10⟩⟩ := hl "attention.output.LayerNorm" (by simp)
      obtain ⟨⟨_, a11⟩, ⟨_, a12⟩⟩ := hl "intermediate.dense" (by simp)
      obtain ⟨⟨_, a13⟩, ⟨_, a14⟩⟩ := hl "output.dense" (by simp)
      obtain ⟨⟨_, a15⟩, ⟨_, a16⟩⟩ := hl "output.LayerNorm" (by simp)
      exact ⟨⟨_, _, _, _, _, _, _, _, _, _, _, _, _, _, _, _⟩, a1, a2, a3, a4, a5, a6, a7, a8, a9, a10, a11, a12,
        a13, a14, a15, a16⟩
    have hls : ∀ (k m : Nat), m + k ≤ n → ∃ ls : List (Layer α), ls.length = k ∧
        ∀ i l, ls[i]? = some l → LayerNamed get (m + i) l := by
      intro k
      induction k with
      | zero => intro m _; exact ⟨[], rfl, by simp⟩
      | succ k ih =>
        intro m hm
        obtain ⟨l, hl⟩ := hlay m (by omega)
        obtain ⟨ls, h1, h2⟩ := ih (m + 1) (by omega)
        refine ⟨l :: ls, by simp [h1], ?_⟩
        intro i l' hi
        cases i with
        | zero => cases hi; exact hl
        | succ i =>
          rw [List.getElem?_cons_succ] at hi
          have := h2 i l' hi
          rwa [show m + 1 + i = m + (i + 1) by omega] at this
    obtain ⟨ls, h1, h2⟩ := hls n 0 (by omega)
    obtain ⟨_, a1⟩ := he "embeddings.word_embeddings.weight" (by simp)
    obtain ⟨_, a2⟩ := he "embeddings.token_type_embeddings.weight" (by simp)
    obtain ⟨_, a3⟩ := he "embeddings.position_embeddings.weight" (by simp)
    obtain ⟨_, a4⟩ := he "embeddings.LayerNorm.weight" (by simp)
    obtain ⟨_, a5⟩ := he "embeddings.LayerNorm.bias" (by simp)
    obtain ⟨_, a6⟩ := he "pooler.dense.weight" (by simp)
    obtain ⟨_, a7⟩ := he "pooler.dense.bias" (by simp)
    refine ⟨⟨_, _, _, _, _, ls, _, _, initLm get⟩, a1, a2, a3, a4, a5, a6, a7, h1, ?_, fun l => initLm_iff get l⟩
    intro i l hi
    have := h2 i l hi
    rwa [Nat.zero_add] at this

end Berts.Load
