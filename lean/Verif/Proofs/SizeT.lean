import Verif.Spec.SizeT

namespace Berts.SizeT

open Berts.Graph

theorem Mod.add {a b : W} {x y : Nat} (h : Mod a x) (k : Mod b y) : Mod (a + b) (x + y) := by
  unfold Mod at *
  rw [BitVec.toNat_add, h, k, ← Nat.add_mod]

theorem Mod.mul {a b : W} {x y : Nat} (h : Mod a x) (k : Mod b y) : Mod (a * b) (x * y) := by
  unfold Mod at *
  rw [BitVec.toNat_mul, h, k, ← Nat.mul_mod]

theorem Mod.ofNat (x : Nat) : Mod (BitVec.ofNat 64 x) x := by
  simp [Mod, BitVec.toNat_ofNat]

theorem Mod.zero : Mod 0 0 := by simp [Mod]

theorem pred_eq (k : Nat) (hk : k < 64) : BitVec.ofNat 64 (2 ^ k) - 1 = BitVec.ofNat 64 (2 ^ k - 1) := by
  apply BitVec.eq_of_toNat_eq
  have : 2 ^ k < 2 ^ 64 := Nat.pow_lt_pow_right (by omega) hk
  have h0 : 0 < 2 ^ k := Nat.two_pow_pos k
  have h1 : (1 : W).toNat = 1 := rfl
  rw [BitVec.toNat_sub, BitVec.toNat_ofNat, BitVec.toNat_ofNat, h1]
  omega

theorem mask_eq (a : W) (k : Nat) (hk : k < 64) :
    a &&& ~~~(BitVec.ofNat 64 (2 ^ k) - 1) = (a >>> k) <<< k := by
  rw [pred_eq k hk]
  apply BitVec.eq_of_getLsbD_eq
  intro i hi
  simp only [BitVec.getLsbD_and, BitVec.getLsbD_not, BitVec.getLsbD_ofNat, BitVec.getLsbD_shiftLeft,
    BitVec.getLsbD_ushiftRight, Nat.testBit_two_pow_sub_one, hi, decide_true, Bool.true_and]
  by_cases h : i < k
  · simp [h]
  · simp [h, show k + (i - k) = i by omega]

theorem mod_div_mul (z k : Nat) (hk : k ≤ 64) : z % 2 ^ 64 / 2 ^ k * 2 ^ k = z / 2 ^ k * 2 ^ k % 2 ^ 64 := by
  have h : 2 ^ 64 = 2 ^ (64 - k) * 2 ^ k := by rw [← Nat.pow_add]; congr 1; omega
  rw [h, Nat.mul_mod_mul_right, Nat.mul_comm (2 ^ (64 - k)), Nat.mod_mul_right_div_self]

theorem Mod.pad {w : W} {x : Nat} (h : Mod w x) (k : Nat) (hk : k < 64) :
    Mod (padW w (BitVec.ofNat 64 (2 ^ k))) (pad x (2 ^ k)) := by
  have h0 : 0 < 2 ^ k := Nat.two_pow_pos k
  have hlt : 2 ^ k < 2 ^ 64 := Nat.pow_lt_pow_right (by omega) hk
  have ha : Mod (w + BitVec.ofNat 64 (2 ^ k) - 1) (x + 2 ^ k - 1) := by
    have e : w + BitVec.ofNat 64 (2 ^ k) - 1 = w + (BitVec.ofNat 64 (2 ^ k) - 1) := by
      rw [BitVec.sub_eq_add_neg, BitVec.sub_eq_add_neg, BitVec.add_assoc]
    rw [e, pred_eq k hk, show x + 2 ^ k - 1 = x + (2 ^ k - 1) by omega]
    exact h.add (.ofNat _)
  unfold padW Graph.pad
  rw [mask_eq _ k hk]
  unfold Mod at *
  rw [BitVec.toNat_shiftLeft, BitVec.toNat_ushiftRight, ha, Nat.shiftRight_eq_div_pow, Nat.shiftLeft_eq,
    mod_div_mul _ _ (by omega), Nat.mod_mod]

variable {g : Gg} {k : Nat} {gw : GgW}

theorem Mod.ofLit (n : Nat) : Mod (OfNat.ofNat n) n := Mod.ofNat n

theorem Mod.ofEq {w : W} {x : Nat} (h : w.toNat = x) : Mod w x := by
  have := w.isLt
  unfold Mod
  omega

theorem mod_tensorSize (hc : Consts g k gw) {a b c d : W} {x y z t : Nat} (ha : Mod a x) (hb : Mod b y)
    (hcc : Mod c z) (hd : Mod d t) : Mod (tensorSizeW gw a b c d) (tensorSize g x y z t) := by
  unfold tensorSizeW tensorSize dataSizeW
  simp only
  rw [hc.wordAlign, hc.align]
  refine Mod.add (Mod.pad (Mod.add ?_ (.ofEq hc.tensor)) k hc.small) (.ofEq hc.object)
  refine Mod.mul (Mod.mul (Mod.mul ?_ hb) hcc) hd
  refine Mod.mul (Mod.ofLit 4) ?_
  have : a / 1 = a := by
    apply BitVec.eq_of_toNat_eq
    simp
  rw [this]
  exact ha

theorem mod_ts1 (hc : Consts g k gw) {a : W} {x : Nat} (ha : Mod a x) :
    Mod (tensorSizeW gw a) (tensorSize g x) :=
  mod_tensorSize hc ha (.ofLit 1) (.ofLit 1) (.ofLit 1)

theorem mod_ts2 (hc : Consts g k gw) {a b : W} {x y : Nat} (ha : Mod a x) (hb : Mod b y) :
    Mod (tensorSizeW gw a b) (tensorSize g x y) :=
  mod_tensorSize hc ha hb (.ofLit 1) (.ofLit 1)

theorem mod_ts3 (hc : Consts g k gw) {a b c : W} {x y z : Nat} (ha : Mod a x) (hb : Mod b y) (hz : Mod c z) :
    Mod (tensorSizeW gw a b c) (tensorSize g x y z) :=
  mod_tensorSize hc ha hb hz (.ofLit 1)

theorem mod_emb (hc : Consts g k gw) {a n : W} {x y : Nat} (ha : Mod a x) (hn : Mod n y) :
    Mod (embW gw a n) (embSize g x y) := by
  have h2 := mod_ts2 hc ha hn
  exact Mod.add (Mod.add (Mod.add (Mod.mul (mod_ts1 hc hn) (.ofLit 3)) (Mod.mul h2 (.ofLit 3)))
    (Mod.mul h2 (.ofLit 2))) (Mod.mul h2 (.ofLit 5))

theorem mod_layer (hc : Consts g k gw) {a b i n : W} {x y z t : Nat} (ha : Mod a x) (hb : Mod b y)
    (hi : Mod i z) (hn : Mod n t) : Mod (layerW gw a b i n) (layerSize g x y z t) := by
  have s := mod_ts2 hc ha hn
  have j := mod_ts2 hc hi hn
  have v := mod_ts1 hc Mod.zero
  have q := mod_ts3 hc hn hn hb
  have s3 := (s.add s).add s
  have j3 := (j.add j).add j
  exact ((((((((((((((((s3.add v).add s).add v).mul (.ofLit 3)).add (q.mul (.ofLit 2))).add s).add (v.add s)).add
    (v.add s)).add s3).add s).add (s.mul (.ofLit 5))).add j3).add j).add s3).add s).add (s.mul (.ofLit 5)))

theorem mod_pooler (hc : Consts g k gw) {a : W} {x : Nat} (ha : Mod a x) (p : Nat) :
    Mod (poolerW gw a p) (poolerSize g x p) := by
  have s := mod_ts1 hc ha
  unfold poolerW poolerSize
  split
  · exact .zero
  · refine Mod.add (Mod.add ?_ ((s.add s).add s)) s
    match p with
    | 0 => exact .zero
    | 1 => exact mod_ts1 hc .zero
    | 2 => exact s
    | 3 => exact s
    | _ + 4 => exact .zero

theorem mod_calc (hc : Consts g k gw) (hp : HParams) (hl : hp.nLayers < 2 ^ 64) (p n L : Nat) :
    Mod ((bufferSizeW gw hp p (.ofNat 64 n)).calc (.ofNat 64 L)) ((bufferSize g hp p n).calc L) := by
  refine Mod.add (Mod.add (Mod.add (mod_emb hc (.ofNat _) (.ofNat _)) (Mod.mul ?_ (.ofNat _)))
    (mod_pooler hc (.ofNat _) _)) (.ofEq hc.graph)
  unfold bufferSizeW bufferSize
  simp only
  have e : (BitVec.ofNat 64 hp.nLayers ≠ 0) ↔ hp.nLayers ≠ 0 := by
    rw [Ne, Ne, BitVec.toNat_inj.symm, BitVec.toNat_ofNat, Nat.mod_eq_of_lt hl]
    simp
  by_cases h : hp.nLayers ≠ 0
  · rw [if_pos (e.mpr h), if_pos h]
    exact mod_layer hc (.ofNat _) (.ofNat _) (.ofNat _) (.ofNat _)
  · rw [if_neg (fun x => h (e.mp x)), if_neg h]
    exact .zero

theorem mod_lm (hc : Consts g k gw) (isBert : Bool) (hp : HParams) (v n : Nat) :
    (lmBufferSizeW gw isBert hp (.ofNat 64 v) (.ofNat 64 n) = .abort ∧ lmBufferSize g isBert hp v n = .abort) ∨
    ∃ w s, lmBufferSizeW gw isBert hp (.ofNat 64 v) (.ofNat 64 n) = .ok w ∧ lmBufferSize g isBert hp v n = .ok s ∧
      Mod (w.calc 0) (s.calc 0) := by
  unfold lmBufferSizeW lmBufferSize
  split
  · exact .inl ⟨rfl, rfl⟩
  · refine .inr ⟨_, _, rfl, rfl, ?_⟩
    have s := mod_ts2 hc (.ofNat hp.hidden) (.ofNat n)
    have j := mod_ts2 hc (.ofNat v) (.ofNat n)
    have i := mod_ts1 hc (Mod.mul (.ofNat n) (.ofNat hp.hidden))
    have z := mod_ts1 hc Mod.zero
    refine Mod.add (Mod.add (Mod.add ?_ (Mod.mul .zero .zero)) .zero) (.ofEq hc.graph)
    exact (((((i.add z).add ((s.add s).add s)).add s).add (s.mul (.ofLit 5))).add ((j.add j).add j)).add j |>.add j

theorem tensorSize_le (g : Gg) (a b c d : Nat) :
    tensorSize g a b c d ≤ 4 * a * b * c * d + (g.tensorSize + g.align + g.objectSize) := by
  unfold tensorSize pad
  have := Nat.div_mul_le_self (4 * a * b * c * d + g.tensorSize + g.align - 1) g.align
  omega

theorem le_tensorSize (g : Gg) (ha : 0 < g.align) (a b c d : Nat) : 4 * a * b * c * d ≤ tensorSize g a b c d := by
  unfold tensorSize pad
  have h1 := Nat.div_add_mod (4 * a * b * c * d + g.tensorSize + g.align - 1) g.align
  have h2 := Nat.mod_lt (4 * a * b * c * d + g.tensorSize + g.align - 1) ha
  rw [Nat.mul_comm] at h1
  omega

end Berts.SizeT
