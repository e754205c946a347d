import Verif.Spec.Loaded
import Verif.Props.Load
import Verif.Proofs.EvalRef

/-! # Helper lemmas: weights of a loaded model -/

namespace Berts.Load

open Berts.Vocab (ascii decimal)
open Berts.Graph
open Berts.Eval

variable {α : Type}

/-- Where a tensor of a loaded model comes from. -/
theorem tensor_of {w : World α} {c : Ctx α} {l : Ledger} {g : Gguf} {bytes : List Nat}
    (h : load w = .ok (some c, l)) (hg : w.gguf = some g) (hf : w.file = some bytes) (hn : NamesOk g)
    (ho : ∀ t ∈ g.dir, g.dataOffset + t.offset < 2 ^ 64) {k : List Nat} {x : LT}
    (hx : getTensor c.tensors k = some x) :
    ∃ t ∈ g.dir, t.name = k ∧ x.ne = t.ne ∧ x.type = t.type ∧ x.ndims = t.ndims ∧ x.data.length = t.nbytes := by
  obtain ⟨_, hlen, hall⟩ := Props.C56_complete_partial h hg hf hn ho
  unfold getTensor at hx
  have hname : x.name = k := by simpa using List.find?_some hx
  have hmem := List.mem_of_find?_eq_some hx
  obtain ⟨i, hi, he⟩ := List.getElem_of_mem hmem
  have hi' : i < g.dir.length := by omega
  obtain ⟨y, h1, h2, h3, h4, h5, h6, _⟩ := hall i g.dir[i] (List.getElem?_eq_getElem hi')
  rw [List.getElem?_eq_getElem hi, he] at h1
  cases h1
  exact ⟨_, List.getElem_mem hi', by rw [← h2]; exact hname, h4, h5, h3, h6⟩

section
variable {w : World α} {c : Ctx α} {l : Ledger} {g : Gguf} {bytes : List Nat}
  (h : load w = .ok (some c, l)) (hg : w.gguf = some g) (hf : w.file = some bytes) (hn : NamesOk g)
  (ho : ∀ t ∈ g.dir, g.dataOffset + t.offset < 2 ^ 64) (hc : ConvOk w.conv)
include h hg hf hn ho hc

theorem matrix_isW {k : List Nat} {n0 n1 : Nat} {x : T α} (hm : IsMatrix g k n0 n1)
    (hx : (getTensor c.tensors k).map w.conv = some x) : IsW x n0 n1 := by
  rw [Option.map_eq_some_iff] at hx
  obtain ⟨y, hy, rfl⟩ := hx
  obtain ⟨t, ht, hk, hne, _⟩ := tensor_of h hg hf hn ho hy
  obtain ⟨m0, m1, m2, m3⟩ := hm t ht hk
  rw [← hne] at m0 m1 m2 m3
  exact ⟨by rw [hc.ne0, m0], by rw [hc.ne1, m1], by rw [hc.ne2, m2], by rw [hc.ne3, m3], hc.contig y⟩

theorem vector_isVec {k : List Nat} {n : Nat} {x : T α} (hm : IsVector g k n)
    (hx : (getTensor c.tensors k).map w.conv = some x) : IsVec x n := by
  rw [Option.map_eq_some_iff] at hx
  obtain ⟨y, hy, rfl⟩ := hx
  obtain ⟨t, ht, hk, hne, hty, _⟩ := tensor_of h hg hf hn ho hy
  obtain ⟨⟨m0, m1, m2, m3⟩, m4⟩ := hm t ht hk
  rw [← hne] at m0 m1 m2 m3
  exact ⟨by rw [hc.ne0, m0], by rw [hc.ne1, m1], by rw [hc.ne2, m2], by rw [hc.ne3, m3],
    hc.esz y (by rw [hty, m4])⟩

/-- The weights of a consistent file have the right shapes. -/
theorem model_ok {V P S : Nat} (hcons : Consistent g V P S) :
    ModelOK (emodel c) V P S ∧ (emodel c).hp.segments ≤ S ∧ (emodel c).hp.nLayers ≤ 44 := by
  obtain ⟨g', bytes', n, hg', hf', hact, _, _, _, _, hnl, ⟨k1, k2, k3, k4, k5, k6, k7, k8, k9, _, _⟩, hnamed, _⟩ :=
    Props.C57_supported h
  rw [hg] at hg'; cases hg'
  have hnl' : HasU32 g "berts.n_layers" c.hp.hp.nLayers := by rw [k4]; exact hnl
  obtain ⟨s1, s2, s3, s4, s5, s6, s7, s8⟩ := hcons.shapes _ _ _ k3 k7 hnl
  obtain ⟨n1, n2, n3, n4, n5, n6, n7, n8, n9, _⟩ := hnamed
  have W := fun {k n0 n1 x} a b => matrix_isW (k := k) (n0 := n0) (n1 := n1) (x := x) h hg hf hn ho hc a b
  have U := fun {k n x} a b => vector_isVec (k := k) (n := n) (x := x) h hg hf hn ho hc a b
  refine ⟨⟨⟨W s1 n1, W s2 n3, W s3 n2, U s4 n4, U s5 n5, ?_, ?_, W s6 n6, U s7 n7⟩, ?_, ?_, ?_, ?_⟩, ?_, ?_⟩
  · intro ly hly
    obtain ⟨i, hi, he⟩ := List.getElem_of_mem hly
    have hi' : i < n := by rw [← n8]; exact hi
    obtain ⟨q1, q2, q3, q4, q5⟩ := s8 i hi'
    obtain ⟨m1, m2, m3, m4, m5, m6, m7, m8, m9, m10, m11, m12, m13, m14, m15, m16⟩ :=
      n9 i ly (by rw [← he]; exact List.getElem?_eq_getElem hi)
    exact ⟨W (q1 _ (by simp)) m1, U (q4 _ (by simp)) m2, W (q1 _ (by simp)) m3, U (q4 _ (by simp)) m4,
      W (q1 _ (by simp)) m5, U (q4 _ (by simp)) m6, W (q1 _ (by simp)) m7, U (q4 _ (by simp)) m8,
      U (q4 _ (by simp)) m9, U (q4 _ (by simp)) m10, W q2 m11, U q5 m12, W q3 m13, U (q4 _ (by simp)) m14,
      U (q4 _ (by simp)) m15, U (q4 _ (by simp)) m16⟩
  · show c.weights.layers.length = c.hp.hp.nLayers
    rw [n8, k4]
  · exact Nat.pos_of_ne_zero fun h0 => hcons.hidden (by rw [← h0]; exact k3)
  · exact hcons.heads _ _ k3 k5
  · exact Nat.pos_of_ne_zero fun h0 => hcons.interm (by rw [← h0]; exact k7)
  · obtain ⟨a, b, e, ha⟩ := hact
    obtain ⟨a', b', e', ha'⟩ := k8
    have h1 : find g "berts.hidden_act" = some (.u32 0) := (find_some _ _ _).2 ⟨a, b, e, ha⟩
    have h2 : find g "berts.hidden_act" = some (.u32 c.hp.hp.act) := (find_some _ _ _).2 ⟨a', b', e', ha'⟩
    rw [h1] at h2
    injection h2 with h2
    injection h2 with h2
    exact h2.symm
  · exact hcons.segments _ k9
  · exact hcons.layers _ hnl'
end

end Berts.Load
