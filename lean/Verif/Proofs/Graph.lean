import Verif.Spec.Eval

/-! # Lemmas about the graph model: memory use, shapes and values of each operation -/

namespace Berts.Graph

open Berts.Spec (Arith Mat col headPart RefLayer)

variable {α : Type}

/-- `p` uses exactly `c` bytes: given enough memory it returns with a result satisfying `P`, otherwise
it aborts. -/
def Yields {β : Type} (e : Env α) (p : M β) (c : Nat) (P : β → Prop) : Prop :=
  (∀ u, u + c ≤ e.mem → ∃ r, p u = .ok (r, u + c) ∧ P r) ∧
  (∀ u, u ≤ e.mem → e.mem < u + c → p u = .abort)

theorem Yields.bind {β γ : Type} {e : Env α} {p : M β} {c : Nat} {P : β → Prop} {f : β → M γ} {c' : Nat}
    {Q : γ → Prop} (h : Yields e p c P) (h' : ∀ r, P r → Yields e (f r) c' Q) :
    Yields e (p >>= f) (c + c') Q := by
  constructor
  · intro u hu
    obtain ⟨r, h1, h2⟩ := h.1 u (by omega)
    obtain ⟨s, h3, h4⟩ := (h' r h2).1 (u + c) (by omega)
    refine ⟨s, ?_, h4⟩
    show (p u).bind _ = _
    rw [h1]
    show f r (u + c) = _
    rw [h3, Nat.add_assoc]
  · intro u hu hlt
    show (p u).bind _ = _
    by_cases hc : u + c ≤ e.mem
    · obtain ⟨r, h1, h2⟩ := h.1 u hc
      rw [h1]
      exact (h' r h2).2 (u + c) hc (by omega)
    · rw [h.2 u hu (by omega)]
      rfl

theorem Yields.pure {β : Type} {e : Env α} {P : β → Prop} {r : β} (h : P r) :
    Yields e (pure r : M β) 0 P := ⟨fun _ _ => ⟨r, rfl, h⟩, fun u h1 h2 => by omega⟩

theorem Yields.weaken {β : Type} {e : Env α} {p : M β} {c c' : Nat} {P Q : β → Prop}
    (h : Yields e p c P) (hc : c = c') (hq : ∀ r, P r → Q r) : Yields e p c' Q := by
  subst hc
  refine ⟨fun u hu => ?_, h.2⟩
  obtain ⟨r, h1, h2⟩ := h.1 u hu
  exact ⟨r, h1, hq r h2⟩

theorem check_true {e : Env α} {b : Bool} (h : b = true) : Yields e (check b) 0 (fun _ => True) := by
  subst h; exact Yields.pure trivial

theorem canRepeat_true {e : Env α} {a b : T α} (hz : ¬ (a.ne0 = 0 ∨ a.ne1 = 0 ∨ a.ne2 = 0 ∨ a.ne3 = 0))
    (h : (b.ne0 % a.ne0 == 0 && b.ne1 % a.ne1 == 0 && b.ne2 % a.ne2 == 0 && b.ne3 % a.ne3 == 0) = true) :
    Yields e (canRepeat a b) 0 (fun _ => True) := by
  unfold canRepeat
  rw [if_neg hz]
  exact check_true h

theorem canMulMat_true {e : Env α} {a b : T α} (hz : ¬ (a.ne2 = 0 ∨ a.ne3 = 0))
    (h : (a.contig && a.ne0 == b.ne0 && b.ne2 % a.ne2 == 0 && b.ne3 % a.ne3 == 0) = true) :
    Yields e (canMulMat a b) 0 (fun _ => True) := by
  unfold canMulMat
  rw [if_neg hz]
  exact check_true h

theorem alloc_yields (e : Env α) (bytes : Nat) :
    Yields e (alloc e bytes) (e.g.objectSize + pad (e.g.tensorSize + bytes) e.g.align) (fun _ => True) := by
  constructor
  · intro u hu
    refine ⟨(), ?_, trivial⟩
    unfold alloc
    simp only
    rw [if_pos hu]
  · intro u _ hu
    unfold alloc
    simp only
    rw [if_neg (by omega)]

/-- Cost of a fresh 4-byte tensor. -/
theorem fresh_yields {β : Type} (e : Env α) (t : T β) (h : t.esz = 4) :
    Yields e (fresh e t) (tensorSize e.g t.ne0 t.ne1 t.ne2 t.ne3) (fun r => r = t) := by
  refine ((alloc_yields e _).bind fun _ _ => Yields.pure rfl).weaken ?_ (fun _ h => h.symm)
  unfold tensorSize T.count
  rw [h, Nat.add_zero, Nat.add_comm]
  congr 2
  rw [Nat.add_comm]
  congr 1
  simp only [Nat.mul_assoc]

theorem view_yields {β : Type} (e : Env α) (t : T β) :
    Yields e (view e t) (tensorSize e.g 0) (fun r => r = t) := by
  refine ((alloc_yields e _).bind fun _ _ => Yields.pure rfl).weaken ?_ (fun _ h => h.symm)
  unfold tensorSize
  simp [Nat.add_comm]

/-- A contiguous 4-byte matrix with `d` features and `n` tokens. -/
structure IsMat (t : T α) (d n : Nat) (X : Mat α) : Prop where
  ne0 : t.ne0 = d
  ne1 : t.ne1 = n
  ne2 : t.ne2 = 1
  ne3 : t.ne3 = 1
  esz : t.esz = 4
  contig : t.contig = true
  get : ∀ i j, i < d → j < n → t.get i j 0 0 = X i j

theorem IsMat.congr {t : T α} {d n : Nat} {X Y : Mat α} (h : IsMat t d n X)
    (hxy : ∀ i j, X i j = Y i j) : IsMat t d n Y :=
  ⟨h.ne0, h.ne1, h.ne2, h.ne3, h.esz, h.contig, fun i j hi hj => (h.get i j hi hj).trans (hxy i j)⟩

/-- A contiguous 4-byte tensor of four dimensions, the last of which is 1. -/
structure Is3 (t : T α) (n0 n1 n2 : Nat) (f : Nat → Nat → Nat → α) : Prop where
  ne0 : t.ne0 = n0
  ne1 : t.ne1 = n1
  ne2 : t.ne2 = n2
  ne3 : t.ne3 = 1
  esz : t.esz = 4
  get : ∀ i j k, i < n0 → j < n1 → k < n2 → t.get i j k 0 = f i j k

theorem map_range_congr {β : Type} {n : Nat} {f g : Nat → β} (h : ∀ i, i < n → f i = g i) :
    (List.range n).map f = (List.range n).map g :=
  List.map_congr_left fun i hi => h i (List.mem_range.mp hi)

theorem mulMat_mat {e : Env α} {w x : T α} {d d' n : Nat} {X : Mat α} (hw : IsW w d d')
    (hx : IsMat x d n X) :
    Yields e (mulMat e w x) (tensorSize e.g d' n) (fun r => IsMat r d' n (fun j t =>
      e.A.dot ((List.range d).map (wmat w · j)) (col d X t))) := by
  unfold mulMat
  refine ((canMulMat_true ?_ ?_).bind fun _ _ => (fresh_yields e _ ?_).weaken rfl ?_).weaken ?_ (fun _ h => h)
  · simp [hw.ne2, hw.ne3]
  · simp [hw.contig, hw.ne0, hx.ne0, hw.ne2, hw.ne3, hx.ne2, hx.ne3]
  · rfl
  · rintro r rfl
    refine ⟨hw.ne1, hx.ne1, hx.ne2, hx.ne3, rfl, rfl, ?_⟩
    intro i j hi hj
    simp only [hw.ne0, hx.ne0, hw.ne2, hw.ne3, hx.ne2, hx.ne3, Nat.zero_div]
    congr 1
    exact map_range_congr fun k hk => hx.get k j hk hj
  · simp [hw.ne1, hx.ne1, hx.ne2, hx.ne3]

theorem repeat_vec {e : Env α} {b x : T α} {d n : Nat} {X : Mat α} (hd : 0 < d) (hb : IsVec b d)
    (hx : IsMat x d n X) :
    Yields e («repeat» e b x) (tensorSize e.g d n) (fun r => IsMat r d n (fun j _ => wvec b j)) := by
  unfold «repeat»
  refine ((canRepeat_true ?_ ?_).bind fun _ _ => (fresh_yields e _ ?_).weaken rfl ?_).weaken ?_ (fun _ h => h)
  · simp [hb.ne0, hb.ne1, hb.ne2, hb.ne3]
    omega
  · simp [hb.ne0, hb.ne1, hb.ne2, hb.ne3, hx.ne0, hx.ne1, hx.ne2, hx.ne3, Nat.mod_one]
  · exact hb.esz
  · rintro r rfl
    refine ⟨hx.ne0, hx.ne1, hx.ne2, hx.ne3, hb.esz, rfl, ?_⟩
    intro i j hi hj
    simp only [hb.ne0, hb.ne1, hb.ne2, hb.ne3, Nat.mod_one, Nat.mod_eq_of_lt hi, wvec]
  · simp [hx.ne0, hx.ne1, hx.ne2, hx.ne3]

theorem binary_mat {e : Env α} (f : α → α → α) {a b : T α} {d n : Nat} {X Y : Mat α} (hd : 0 < d)
    (hn : 0 < n) (ha : IsMat a d n X) (hb : IsMat b d n Y) :
    Yields e (binary f e a b) (tensorSize e.g d n) (fun r => IsMat r d n (fun i t => f (X i t) (Y i t))) := by
  unfold binary
  refine ((canRepeat_true ?_ ?_).bind fun _ _ => (fresh_yields e _ ?_).weaken rfl ?_).weaken ?_ (fun _ h => h)
  · simp [hb.ne0, hb.ne1, hb.ne2, hb.ne3]
    omega
  · simp [ha.ne0, ha.ne1, ha.ne2, ha.ne3, hb.ne0, hb.ne1, hb.ne2, hb.ne3]
  · exact ha.esz
  · rintro r rfl
    refine ⟨ha.ne0, ha.ne1, ha.ne2, ha.ne3, ha.esz, rfl, ?_⟩
    intro i j hi hj
    simp only [hb.ne0, hb.ne1, hb.ne2, hb.ne3, Nat.mod_one, Nat.mod_eq_of_lt hi, Nat.mod_eq_of_lt hj]
    rw [ha.get i j hi hj, hb.get i j hi hj]
  · simp [ha.ne0, ha.ne1, ha.ne2, ha.ne3]

theorem unary_mat {e : Env α} (f : α → α) {a : T α} {d n : Nat} {X : Mat α} (ha : IsMat a d n X) :
    Yields e (unary f e a) (tensorSize e.g d n) (fun r => IsMat r d n (fun i t => f (X i t))) := by
  unfold unary
  refine (fresh_yields e _ ?_).weaken ?_ ?_
  · exact ha.esz
  · simp [ha.ne0, ha.ne1, ha.ne2, ha.ne3]
  · rintro r rfl
    refine ⟨ha.ne0, ha.ne1, ha.ne2, ha.ne3, ha.esz, rfl, ?_⟩
    intro i j hi hj
    simp only
    rw [ha.get i j hi hj]

theorem rowOp_mat {e : Env α} (f : List α → Nat → α) {a : T α} {d n : Nat} {X : Mat α}
    (ha : IsMat a d n X) :
    Yields e (rowOp f e a) (tensorSize e.g d n) (fun r => IsMat r d n (fun i t => f (col d X t) i)) := by
  unfold rowOp
  refine (fresh_yields e _ ?_).weaken ?_ ?_
  · exact ha.esz
  · simp [ha.ne0, ha.ne1, ha.ne2, ha.ne3]
  · rintro r rfl
    refine ⟨ha.ne0, ha.ne1, ha.ne2, ha.ne3, ha.esz, rfl, ?_⟩
    intro i j hi hj
    simp only [ha.ne0]
    congr 1
    exact map_range_congr fun k hk => ha.get k j hk hj

theorem dense_mat {e : Env α} {x w b : T α} {d d' n : Nat} {X : Mat α} (hd : 0 < d') (hn : 0 < n)
    (hx : IsMat x d n X) (hw : IsW w d d') (hb : IsVec b d') :
    Yields e (dense e x w b) (tensorSize e.g d' n * 3)
      (fun r => IsMat r d' n (Spec.dense e.A d (wmat w) (wvec b) X)) := by
  unfold dense
  refine ((mulMat_mat hw hx).bind fun y hy => (repeat_vec hd hb hy).bind fun z hz =>
    binary_mat e.A.add hd hn hy hz).weaken (by omega) (fun _ h => h)

theorem layerNorm_mat {e : Env α} {x w b : T α} {eps d n : Nat} {X : Mat α} (hd : 0 < d) (hn : 0 < n)
    (hx : IsMat x d n X) (hw : IsVec w d) (hb : IsVec b d) :
    Yields e (layerNorm e eps x w b) (tensorSize e.g d n * 5)
      (fun r => IsMat r d n (Spec.layerNorm e.A eps d (wvec w) (wvec b) X)) := by
  unfold layerNorm
  refine ((rowOp_mat (e.A.norm eps) hx).bind fun y hy => (repeat_vec hd hw hy).bind fun z hz =>
    (binary_mat e.A.mul hd hn hz hy).bind fun m hm => (repeat_vec hd hb hy).bind fun s hs =>
    binary_mat e.A.add hd hn hm hs).weaken (by omega) (fun _ h => h)

/-! ## Attention -/

theorem mat_flat {t : T α} {d n : Nat} {X : Mat α} (h : IsMat t d n X) (i j : Nat) (hi : i < d)
    (hj : j < n) : t.flat (i + d * j) = X i j := by
  unfold T.flat
  rw [h.ne0, h.ne1, h.ne2, Nat.add_mul_mod_self_left, Nat.mod_eq_of_lt hi,
    Nat.add_mul_div_left _ _ (by omega), Nat.div_eq_of_lt hi, Nat.zero_add, Nat.mod_eq_of_lt hj,
    Nat.mod_one]
  have : (i + d * j) / (d * n * 1) = 0 := by
    apply Nat.div_eq_of_lt
    rw [Nat.mul_one]
    calc i + d * j < d * 1 + d * j := by omega
      _ = d * (1 + j) := by rw [Nat.mul_add]
      _ ≤ d * n := Nat.mul_le_mul_left _ (by omega)
  rw [this]
  exact h.get i j hi hj

theorem reshape_heads {e : Env α} {x : T α} {d heads n : Nat} {X : Mat α}
    (hx : IsMat x (heads * d) n X) :
    Yields e (reshape e x d heads n 1) (tensorSize e.g 0)
      (fun r => Is3 r d heads n (fun i h t => X (h * d + i) t)) := by
  unfold reshape
  refine ((check_true ?_).bind fun _ _ => (view_yields e _).weaken rfl ?_).weaken (by omega) (fun _ h => h)
  · simp [hx.contig, T.count, hx.ne0, hx.ne1, hx.ne2, hx.ne3]
    rw [Nat.mul_comm heads d]
  · rintro r rfl
    refine ⟨rfl, rfl, rfl, rfl, hx.esz, ?_⟩
    intro i h t hi hh ht
    simp only [Nat.mul_zero, Nat.add_zero]
    have e1 : i + d * (h + heads * t) = (h * d + i) + heads * d * t := by
      rw [Nat.mul_add, Nat.mul_comm d h, ← Nat.mul_assoc, Nat.mul_comm d heads]
      omega
    have hlt : h * d + i < heads * d := by
      calc h * d + i < h * d + d := by omega
        _ = (h + 1) * d := by rw [Nat.add_mul, Nat.one_mul]
        _ ≤ heads * d := Nat.mul_le_mul_right _ (by omega)
    rw [e1]
    exact mat_flat hx _ t hlt ht

theorem project_heads {e : Env α} {x w b : T α} {d heads n : Nat} {X : Mat α} (hd : 0 < heads * d)
    (hn : 0 < n) (hx : IsMat x (heads * d) n X) (hw : IsW w (heads * d) (heads * d))
    (hb : IsVec b (heads * d)) :
    Yields e (project e x w b d heads n) (tensorSize e.g (heads * d) n * 3 + tensorSize e.g 0)
      (fun r => Is3 r d heads n (fun i h t =>
        Spec.dense e.A (heads * d) (wmat w) (wvec b) X (h * d + i) t)) := by
  unfold project
  exact (dense_mat hd hn hx hw hb).bind fun y hy => reshape_heads hy

theorem permute_021 {e : Env α} {a : T α} {n0 n1 n2 : Nat} {f : Nat → Nat → Nat → α}
    (ha : Is3 a n0 n1 n2 f) :
    Yields e (permute e a 0 2 1 3) (tensorSize e.g 0) (fun r => Is3 r n0 n2 n1 (fun i j k => f i k j)) := by
  unfold permute
  refine ((check_true (by decide)).bind fun _ _ => (view_yields e _).weaken rfl ?_).weaken (by omega) (fun _ h => h)
  rintro r rfl
  refine ⟨by simpa using ha.ne0, by simpa using ha.ne2, by simpa using ha.ne1, by simpa using ha.ne3,
    ha.esz, ?_⟩
  intro i j k hi hj hk
  simpa [sel] using ha.get i k j hi hk hj

theorem permute_120 {e : Env α} {a : T α} {n0 n1 n2 : Nat} {f : Nat → Nat → Nat → α}
    (ha : Is3 a n0 n1 n2 f) :
    Yields e (permute e a 1 2 0 3) (tensorSize e.g 0) (fun r => Is3 r n2 n0 n1 (fun i j k => f j k i)) := by
  unfold permute
  refine ((check_true (by decide)).bind fun _ _ => (view_yields e _).weaken rfl ?_).weaken (by omega) (fun _ h => h)
  rintro r rfl
  refine ⟨by simpa using ha.ne2, by simpa using ha.ne0, by simpa using ha.ne1, by simpa using ha.ne3,
    ha.esz, ?_⟩
  intro i j k hi hj hk
  simpa [sel] using ha.get j k i hj hk hi

theorem cont_3 {e : Env α} {a : T α} {n0 n1 n2 : Nat} {f : Nat → Nat → Nat → α} (ha : Is3 a n0 n1 n2 f) :
    Yields e (cont e a) (tensorSize e.g n0 n1 n2) (fun r => Is3 r n0 n1 n2 f ∧ r.contig = true) := by
  unfold cont
  refine (fresh_yields e _ ?_).weaken ?_ ?_
  · exact ha.esz
  · simp [ha.ne0, ha.ne1, ha.ne2, ha.ne3]
  · rintro r rfl
    exact ⟨⟨ha.ne0, ha.ne1, ha.ne2, ha.ne3, ha.esz, ha.get⟩, rfl⟩

theorem mulMat_3 {e : Env α} {a b : T α} {k m n h : Nat} {f g : Nat → Nat → Nat → α} (hh : 0 < h)
    (ha : Is3 a k m h f) (hc : a.contig = true) (hb : Is3 b k n h g) :
    Yields e (mulMat e a b) (tensorSize e.g m n h) (fun r => Is3 r m n h (fun i j l =>
      e.A.dot ((List.range k).map (f · i l)) ((List.range k).map (g · j l)))) := by
  unfold mulMat
  refine ((canMulMat_true ?_ ?_).bind fun _ _ => (fresh_yields e _ ?_).weaken rfl ?_).weaken ?_ (fun _ h => h)
  · rw [ha.ne2, ha.ne3]
    omega
  · simp [hc, ha.ne0, ha.ne2, ha.ne3, hb.ne0, hb.ne2, hb.ne3]
  · rfl
  · rintro r rfl
    refine ⟨ha.ne1, hb.ne1, hb.ne2, hb.ne3, rfl, ?_⟩
    intro i j l hi hj hl
    simp only [ha.ne0, hb.ne0, ha.ne2, ha.ne3, hb.ne2, hb.ne3, Nat.div_self hh, Nat.div_one]
    congr 1
    · exact map_range_congr fun x hx => ha.get x i l hx hi hl
    · exact map_range_congr fun x hx => hb.get x j l hx hj hl
  · simp [ha.ne1, hb.ne1, hb.ne2, hb.ne3]

theorem rowOp_3 {e : Env α} (f : List α → Nat → α) {a : T α} {n0 n1 n2 : Nat} {g : Nat → Nat → Nat → α}
    (ha : Is3 a n0 n1 n2 g) :
    Yields e (rowOp f e a) (tensorSize e.g n0 n1 n2)
      (fun r => Is3 r n0 n1 n2 (fun i j k => f ((List.range n0).map (g · j k)) i)) := by
  unfold rowOp
  refine (fresh_yields e _ ?_).weaken ?_ ?_
  · exact ha.esz
  · simp [ha.ne0, ha.ne1, ha.ne2, ha.ne3]
  · rintro r rfl
    refine ⟨ha.ne0, ha.ne1, ha.ne2, ha.ne3, ha.esz, ?_⟩
    intro i j k hi hj hk
    simp only [ha.ne0]
    congr 1
    exact map_range_congr fun x hx => ha.get x j k hx hj hk

theorem tensorSize_heads (g : Gg) (a b c : Nat) : tensorSize g a b c = tensorSize g (a * b * c) := by
  unfold tensorSize; simp only [Nat.mul_assoc, Nat.mul_one]

theorem tensorSize_comm (g : Gg) (a b c a' b' : Nat) (h : a * b * c = a' * b') :
    tensorSize g a b c = tensorSize g a' b' := by
  rw [tensorSize_heads, h]; unfold tensorSize; simp only [Nat.mul_assoc, Nat.mul_one]

theorem is3_flat {t : T α} {n0 n1 n2 : Nat} {f : Nat → Nat → Nat → α} (h : Is3 t n0 n1 n2 f)
    (i j k : Nat) (hi : i < n0) (hj : j < n1) (hk : k < n2) :
    t.flat (i + n0 * (j + n1 * k)) = f i j k := by
  have e0 : (i + n0 * (j + n1 * k)) / n0 = j + n1 * k := by
    rw [Nat.add_mul_div_left _ _ (by omega), Nat.div_eq_of_lt hi, Nat.zero_add]
  have e1 : (j + n1 * k) / n1 = k := by
    rw [Nat.add_mul_div_left _ _ (by omega), Nat.div_eq_of_lt hj, Nat.zero_add]
  unfold T.flat
  rw [h.ne0, h.ne1, h.ne2, ← Nat.div_div_eq_div_mul, ← Nat.div_div_eq_div_mul, ← Nat.div_div_eq_div_mul,
    e0, e1, Nat.add_mul_mod_self_left, Nat.mod_eq_of_lt hi, Nat.add_mul_mod_self_left,
    Nat.mod_eq_of_lt hj, Nat.mod_eq_of_lt hk, Nat.div_eq_of_lt hk]
  exact h.get i j k hi hj hk

theorem cpy_heads {e : Env α} {a : T α} {d heads n : Nat} {f : Nat → Nat → Nat → α} (hd : 0 < d)
    (ha : Is3 a d heads n f) :
    Yields e (cpyTo2d e a (heads * d) n) (tensorSize e.g (heads * d) n + tensorSize e.g 0)
      (fun r => IsMat r (heads * d) n (fun j t => f (j % d) (j / d) t)) := by
  unfold cpyTo2d
  refine ((alloc_yields e _).bind fun _ _ => (check_true ?_).bind fun _ _ =>
    (view_yields e _).weaken rfl ?_).weaken ?_ (fun _ h => h)
  · simp [T.count, ha.ne0, ha.ne1, ha.ne2, ha.ne3, Nat.mul_comm d heads]
  · rintro r rfl
    refine ⟨rfl, rfl, rfl, rfl, rfl, rfl, ?_⟩
    intro j t hj ht
    simp only
    have hh : j / d < heads := Nat.div_lt_of_lt_mul (by rw [Nat.mul_comm]; exact hj)
    have e1 : j + heads * d * t = j % d + d * (j / d + heads * t) := by
      rw [Nat.mul_add, ← Nat.add_assoc, Nat.mod_add_div, ← Nat.mul_assoc, Nat.mul_comm d heads]
    rw [e1]
    exact is3_flat ha _ _ _ (Nat.mod_lt _ hd) hh ht
  · unfold tensorSize
    simp only [Nat.mul_one, Nat.mul_assoc, Nat.mul_zero, Nat.zero_add]
    rw [Nat.add_comm e.g.objectSize, Nat.add_comm (4 * _)]

theorem attend_eq (A : Arith α) (d n : Nat) (Q K V : Mat α) (j t : Nat) :
    A.dot ((List.range n).map (fun s => V (j / d * d + j % d) s))
      ((List.range n).map (fun s => A.softmax (A.scale d) ((List.range n).map fun s' =>
        A.dot ((List.range d).map fun i => K (j / d * d + i) s')
          ((List.range d).map fun i => Q (j / d * d + i) t)) s)) = Spec.attend A d n Q K V j t := by
  have : j / d * d + j % d = j := Nat.div_add_mod' j d
  rw [this]
  rfl

/-- The part of `layerSize` used by the attention block. -/
def attnSize (g : Gg) (hidden heads n : Nat) : Nat :=
  tensorSize g hidden n * 24 + tensorSize g 0 * 8 + tensorSize g n n heads * 2

theorem attend_mat {e : Env α} {d heads n : Nat} {q k v : T α} {Q K V : Mat α}
    (hd : 0 < d) (hh : 0 < heads)
    (hq : Is3 q d heads n (fun i h t => Q (h * d + i) t))
    (hk : Is3 k d heads n (fun i h t => K (h * d + i) t))
    (hv : Is3 v d heads n (fun i h t => V (h * d + i) t)) :
    Yields e (attend e (heads * d) d n q k v)
      (tensorSize e.g (heads * d) n * 6 + tensorSize e.g 0 * 5 + tensorSize e.g n n heads * 2)
      (fun r => IsMat r (heads * d) n (Spec.attend e.A d n Q K V)) := by
  have s1 : tensorSize e.g d n heads = tensorSize e.g (heads * d) n := by
    apply tensorSize_comm; rw [Nat.mul_right_comm, Nat.mul_comm d heads]
  have s2 : tensorSize e.g n d heads = tensorSize e.g (heads * d) n := by
    apply tensorSize_comm; rw [Nat.mul_assoc, Nat.mul_comm d heads, Nat.mul_comm n]
  have s3 : tensorSize e.g d heads n = tensorSize e.g (heads * d) n := by
    apply tensorSize_comm; rw [Nat.mul_comm d heads]
  have hr : ∀ r : T α, IsMat r (heads * d) n _ → IsMat r (heads * d) n (Spec.attend e.A d n Q K V) :=
    fun r h => h.congr fun j t => attend_eq e.A d n Q K V j t
  unfold attend
  refine Yields.weaken (c := tensorSize e.g 0 + (tensorSize e.g d n heads + (tensorSize e.g 0 +
    (tensorSize e.g d n heads + (tensorSize e.g 0 + (tensorSize e.g n d heads + (tensorSize e.g n n heads +
    (tensorSize e.g n n heads + (tensorSize e.g d n heads + (tensorSize e.g 0 + (tensorSize e.g d heads n +
    (tensorSize e.g (heads * d) n + tensorSize e.g 0)))))))))))) ?_ ?_ hr
  · refine (permute_021 hq).bind fun q hq => (cont_3 hq).bind fun q hq => ?_
    refine (permute_021 hk).bind fun k hk => (cont_3 hk).bind fun k hk => ?_
    refine (permute_120 hv).bind fun v hv => (cont_3 hv).bind fun v hv => ?_
    refine (mulMat_3 hh hk.1 hk.2 hq.1).bind fun kq hkq => ?_
    refine (rowOp_3 _ hkq).bind fun sim hsim => ?_
    refine (mulMat_3 hh hv.1 hv.2 hsim).bind fun res hres => ?_
    refine (permute_021 hres).bind fun res hres => (cont_3 hres).bind fun res hres => ?_
    exact cpy_heads hd hres.1
  · rw [s1, s2, s3]; omega

theorem attention_mat {e : Env α} {eps : Nat} {l : Layer α} {d heads n interm : Nat} {x : T α} {X : Mat α}
    (hd : 0 < d) (hh : 0 < heads) (hn : 0 < n) (hl : LayerOK l (heads * d) interm)
    (hx : IsMat x (heads * d) n X) :
    Yields e (attention e eps (heads * d) heads n l x) (attnSize e.g (heads * d) heads n)
      (fun r => IsMat r (heads * d) n (Spec.refAttention e.A eps (heads * d) d n l.ref X)) := by
  have hhd : 0 < heads * d := Nat.mul_pos hh hd
  have hdiv : heads * d / heads = d := Nat.mul_div_cancel_left d hh
  unfold attention
  simp only [hdiv]
  refine ((project_heads hhd hn hx hl.qw hl.qb).bind fun q hq =>
    (project_heads hhd hn hx hl.kw hl.kb).bind fun k hk =>
    (project_heads hhd hn hx hl.vw hl.vb).bind fun v hv =>
    (attend_mat hd hh hq hk hv).bind fun res hres =>
    (dense_mat hhd hn hres hl.ffw hl.ffb).bind fun res hres =>
    (binary_mat e.A.add hhd hn hx hres).bind fun y hy =>
    layerNorm_mat hhd hn hy hl.lnffw hl.lnffb).weaken ?_ (fun _ h => h)
  unfold attnSize
  omega

/-- The part of `layerSize` used by the feed-forward block. -/
def ffSize (g : Gg) (hidden interm n : Nat) : Nat := tensorSize g interm n * 4 + tensorSize g hidden n * 9

theorem layerSize_eq (g : Gg) (hidden heads interm n : Nat) :
    layerSize g hidden heads interm n = attnSize g hidden heads n + ffSize g hidden interm n := by
  unfold layerSize attnSize ffSize
  omega

theorem feedForward_mat {e : Env α} {eps : Nat} {l : Layer α} {hidden interm n : Nat} {x : T α} {X : Mat α}
    (hh : 0 < hidden) (hi : 0 < interm) (hn : 0 < n) (hl : LayerOK l hidden interm)
    (hx : IsMat x hidden n X) :
    Yields e (feedForward e eps 0 l x) (ffSize e.g hidden interm n)
      (fun o => ∃ r, o = some r ∧ IsMat r hidden n (Spec.refFeedForward e.A eps hidden interm l.ref X)) := by
  unfold feedForward
  simp only [if_true]
  refine ((dense_mat hi hn hx hl.iw hl.ib).bind fun res hres =>
    (unary_mat e.A.gelu hres).bind fun res hres =>
    (dense_mat hh hn hres hl.ow hl.ob).bind fun res hres =>
    (binary_mat e.A.add hh hn hx hres).bind fun y hy =>
    (layerNorm_mat hh hn hy hl.lnoutw hl.lnoutb).bind fun z hz =>
    Yields.pure (P := fun o => ∃ r, o = some r ∧ IsMat r hidden n _) ⟨z, rfl, hz⟩).weaken ?_ ?_
  · unfold ffSize; omega
  · exact fun _ h => h

theorem layer_mat {e : Env α} {eps : Nat} {l : Layer α} {d heads n interm : Nat} {x : T α} {X : Mat α}
    (hd : 0 < d) (hh : 0 < heads) (hi : 0 < interm) (hn : 0 < n) (hl : LayerOK l (heads * d) interm)
    (hx : IsMat x (heads * d) n X) :
    Yields e (do
        let x ← attention e eps (heads * d) heads n l x
        feedForward e eps 0 l x) (layerSize e.g (heads * d) heads interm n)
      (fun o => ∃ r, o = some r ∧
        IsMat r (heads * d) n (Spec.refLayer e.A eps (heads * d) d n interm l.ref X)) := by
  rw [layerSize_eq]
  exact (attention_mat hd hh hn hl hx).bind fun y hy =>
    feedForward_mat (Nat.mul_pos hh hd) hi hn hl hy

theorem layerLoop_mat {e : Env α} {hp : HParams} {d n : Nat} (hd : 0 < d) (hh : 0 < hp.heads)
    (hi : 0 < hp.interm) (hn : 0 < n) (hhid : hp.hidden = hp.heads * d) (hact : hp.act = 0) (last : Int)
    (ls : List (Layer α)) (hl : ∀ l ∈ ls, LayerOK l hp.hidden hp.interm) (idx : Nat) (x : T α) (X : Mat α)
    (hx : IsMat x hp.hidden n X) (hlast : last ≤ idx + ls.length) :
    Yields e (layerLoop e hp n last idx ls x)
      (layerSize e.g hp.hidden hp.heads hp.interm n * (last - idx).toNat)
      (fun o => ∃ r, o = some r ∧ IsMat r hp.hidden n
        (Spec.refEncode e.A hp.eps hp.hidden d n hp.interm ((ls.take (last - idx).toNat).map Layer.ref) X)) := by
  induction ls generalizing idx x X with
  | nil =>
    have : (last - idx).toNat = 0 := by simp at hlast; omega
    rw [this]
    exact (Yields.pure ⟨x, rfl, hx⟩)
  | cons l ls ih =>
    unfold layerLoop
    by_cases hc : last ≤ (idx : Int)
    · have : (last - idx).toNat = 0 := by omega
      rw [if_pos hc, this]
      exact (Yields.pure ⟨x, rfl, hx⟩)
    · rw [if_neg hc]
      have hsucc : (last - idx).toNat = (last - (idx + 1 : Nat)).toNat + 1 := by omega
      have hlen : last ≤ ((idx + 1 : Nat) : Int) + ls.length := by simp at hlast; omega
      have hlay := hl l (by simp)
      rw [hact]
      rw [hhid] at hlay hx
      have h1 := (attention_mat (e := e) (eps := hp.eps) hd hh hn hlay hx)
      have hhid' : hp.heads * d = hp.hidden := hhid.symm
      rw [hhid'] at h1 hlay
      refine (h1.bind fun y hy => (feedForward_mat (hhid' ▸ Nat.mul_pos hh hd) hi hn hlay hy).bind
        (c' := layerSize e.g hp.hidden hp.heads hp.interm n * (last - (idx + 1 : Nat)).toNat)
        (Q := fun o => ∃ r, o = some r ∧ IsMat r hp.hidden n
          (Spec.refEncode e.A hp.eps hp.hidden d n hp.interm ((ls.take (last - (idx + 1 : Nat)).toNat).map Layer.ref)
            (Spec.refLayer e.A hp.eps hp.hidden d n hp.interm l.ref X)))
        fun o ho => ?_).weaken ?_ ?_
      · obtain ⟨r, rfl, hr⟩ := ho
        exact ih (fun l' hl' => hl l' (by simp [hl'])) (idx + 1) r _ hr hlen
      · rw [hsucc, Nat.mul_add, Nat.mul_one, layerSize_eq]
        omega
      · rintro o ⟨r, h1, h2⟩
        refine ⟨r, h1, ?_⟩
        rw [hsucc]
        exact h2

/-! ## Embeddings -/

/-- `p` runs into undefined behaviour once it has used at most `c` bytes. -/
def Stuck {β : Type} (e : Env α) (p : M β) (c : Nat) : Prop := ∀ u, u + c ≤ e.mem → p u = .ub

theorem Stuck.bind {β γ : Type} {e : Env α} {p : M β} {c : Nat} {f : β → M γ} (h : Stuck e p c) :
    Stuck e (p >>= f) c := by
  intro u hu
  show (p u).bind _ = _
  rw [h u hu]
  rfl

theorem Yields.stuck {β γ : Type} {e : Env α} {p : M β} {c c' : Nat} {P : β → Prop} {f : β → M γ}
    (h : Yields e p c P) (h' : ∀ r, P r → Stuck e (f r) c') : Stuck e (p >>= f) (c + c') := by
  intro u hu
  obtain ⟨r, h1, h2⟩ := h.1 u (by omega)
  show (p u).bind _ = _
  rw [h1]
  exact h' r h2 (u + c) (by omega)

theorem Stuck.mono {β : Type} {e : Env α} {p : M β} {c c' : Nat} (h : Stuck e p c) (hc : c ≤ c') :
    Stuck e p c' := fun u hu => h u (by omega)

theorem newTensor1d_yields {β : Type} (e : Env α) (n : Nat) (f : Nat → β) :
    Yields e (newTensor1d e 4 n f) (tensorSize e.g n) (fun r => r = ⟨n, 1, 1, 1, 4, true, fun i _ _ _ => f i⟩) := by
  unfold newTensor1d
  exact (fresh_yields e _ rfl).weaken rfl (fun _ h => h)

theorem getRows_mat {e : Env α} {w : T α} {d V n : Nat} (hw : IsW w d V) (f : Nat → Int)
    (hf : ∀ i < n, 0 ≤ f i ∧ f i < V) :
    Yields e (getRows e w ⟨n, 1, 1, 1, 4, true, fun i _ _ _ => f i⟩) (tensorSize e.g d n)
      (fun r => IsMat r d n (fun i t => wmat w i (f t).toNat)) := by
  unfold getRows
  have hc : ∀ i < n, 0 ≤ f i ∧ f i < w.ne1 := by rw [hw.ne1]; exact hf
  refine ((check_true ?_).bind (c' := tensorSize e.g d n)
    (Q := fun r => IsMat r d n (fun i t => wmat w i (f t).toNat)) fun _ _ => ?_).weaken (by omega) (fun _ h => h)
  · simp [hw.ne2]
  · rw [if_pos hc]
    refine (fresh_yields e _ rfl).weaken ?_ ?_
    · simp [hw.ne0]
    · rintro r rfl
      exact ⟨hw.ne0, rfl, rfl, rfl, rfl, rfl, fun i j _ _ => rfl⟩

theorem getRows_stuck {e : Env α} {w : T α} {d V n : Nat} (hw : IsW w d V) (f : Nat → Int)
    (hf : ¬ ∀ i < n, 0 ≤ f i ∧ f i < V) :
    Stuck e (getRows e w ⟨n, 1, 1, 1, 4, true, fun i _ _ _ => f i⟩) 0 := by
  unfold getRows
  have hc : ¬ ∀ i < n, 0 ≤ f i ∧ f i < w.ne1 := by rw [hw.ne1]; exact hf
  refine ((check_true (e := e) ?_).stuck (c' := 0) fun _ _ => ?_).mono (by omega)
  · simp [hw.ne2]
  · rw [if_neg hc]
    intro u _
    rfl

theorem embeddings_mat {e : Env α} {hp : HParams} {w : Weights α} {V P S : Nat} (hw : WeightsOK w hp V P S)
    (hh : 0 < hp.hidden) (tokens segs : List Nat) (pos : List Int) (hn : 0 < tokens.length)
    (hr : RowsOK V P S tokens.length (fun i => i32 (tokens.getD i 0)) (fun i => i32 (segs.getD i 0))
      (fun i => pos.getD i 0)) :
    Yields e (embeddings e hp w tokens segs pos) (embSize e.g hp.hidden tokens.length)
      (fun r => IsMat r hp.hidden tokens.length
        (Spec.refEmbed e.A hp.eps hp.hidden (wmat w.tok) (wmat w.seg) (wmat w.pos) (wvec w.lnw) (wvec w.lnb)
          (fun t => (i32 (tokens.getD t 0)).toNat) (fun t => (i32 (segs.getD t 0)).toNat)
          (fun t => (pos.getD t 0).toNat))) := by
  unfold embeddings
  refine ((newTensor1d_yields e _ _).bind fun t1 h1 => (newTensor1d_yields e _ _).bind fun t2 h2 =>
    (newTensor1d_yields e _ _).bind fun t3 h3 => ?_).weaken
    (c := tensorSize e.g tokens.length + (tensorSize e.g tokens.length + (tensorSize e.g tokens.length +
      tensorSize e.g hp.hidden tokens.length * 10))) ?_ (fun _ h => h)
  · subst h1 h2 h3
    refine ((getRows_mat hw.tok _ hr.1).bind fun x hx => (getRows_mat hw.pos _ hr.2.1).bind fun p hp' =>
      (binary_mat e.A.add hh hn hp' hx).bind fun x hx => (getRows_mat hw.seg _ hr.2.2).bind fun s hs =>
      (binary_mat e.A.add hh hn hs hx).bind fun x hx =>
      (layerNorm_mat hh hn hx hw.lnw hw.lnb).bind fun x hx =>
      (check_true ?_).bind fun _ _ => (check_true ?_).bind fun _ _ => (check_true ?_).bind fun _ _ =>
      Yields.pure hx).weaken ?_ (fun _ h => h)
    · simp [hx.ne2, hx.ne3]
    · simp [hx.ne0]
    · simp [hx.ne1]
    · omega
  · unfold embSize
    omega

/-- An empty second argument makes `ggml_add` and `ggml_mul` divide by zero. -/
theorem binary_empty {e : Env α} (f : α → α → α) {a b : T α} (hb : b.ne1 = 0) : Stuck e (binary f e a b) 0 := by
  intro u _
  unfold binary canRepeat
  rw [if_pos (.inr (.inl hb))]
  rfl

theorem embeddings_empty {e : Env α} {hp : HParams} {w : Weights α} {V P S : Nat}
    (hw : WeightsOK w hp V P S) (segs : List Nat) (pos : List Int) :
    Stuck e (embeddings e hp w [] segs pos) (embSize e.g hp.hidden 0) := by
  unfold embeddings
  refine ((newTensor1d_yields e _ _).stuck fun t1 h1 => (newTensor1d_yields e _ _).stuck fun t2 h2 =>
    (newTensor1d_yields e _ _).stuck (c' := tensorSize e.g hp.hidden 0 * 2) fun t3 h3 => ?_).mono ?_
  · subst h1 h2 h3
    refine ((getRows_mat hw.tok _ (n := 0) (by intro i hi; omega)).stuck (c' := tensorSize e.g hp.hidden 0)
      fun x hx => ?_).mono (by omega)
    refine ((getRows_mat hw.pos _ (n := 0) (by intro i hi; omega)).stuck (c' := 0) fun p hp' => ?_).mono (by omega)
    exact (binary_empty e.A.add hx.ne1).bind
  · unfold embSize
    simp only [List.length_nil]
    omega

theorem embeddings_stuck {e : Env α} {hp : HParams} {w : Weights α} {V P S : Nat}
    (hw : WeightsOK w hp V P S) (hh : 0 < hp.hidden) (tokens segs : List Nat) (pos : List Int)
    (hn : 0 < tokens.length)
    (hr : ¬ RowsOK V P S tokens.length (fun i => i32 (tokens.getD i 0)) (fun i => i32 (segs.getD i 0))
      (fun i => pos.getD i 0)) :
    Stuck e (embeddings e hp w tokens segs pos) (embSize e.g hp.hidden tokens.length) := by
  unfold embeddings
  refine ((newTensor1d_yields e _ _).stuck fun t1 h1 => (newTensor1d_yields e _ _).stuck fun t2 h2 =>
    (newTensor1d_yields e _ _).stuck (c' := tensorSize e.g hp.hidden tokens.length * 10) fun t3 h3 => ?_).mono ?_
  · subst h1 h2 h3
    by_cases ht : ∀ i < tokens.length, 0 ≤ i32 (tokens.getD i 0) ∧ i32 (tokens.getD i 0) < V
    · refine ((getRows_mat hw.tok _ ht).stuck (c' := tensorSize e.g hp.hidden tokens.length * 9)
        fun x hx => ?_).mono (by omega)
      by_cases hp' : ∀ i < tokens.length, 0 ≤ pos.getD i 0 ∧ pos.getD i 0 < P
      · refine ((getRows_mat hw.pos _ hp').stuck (c' := tensorSize e.g hp.hidden tokens.length * 8)
          fun p hp'' => ?_).mono (by omega)
        refine ((binary_mat e.A.add hh hn hp'' hx).stuck (c' := tensorSize e.g hp.hidden tokens.length * 7)
          fun x hx => ?_).mono (by omega)
        have hs : ¬ ∀ i < tokens.length, 0 ≤ i32 (segs.getD i 0) ∧ i32 (segs.getD i 0) < S :=
          fun h => hr ⟨ht, hp', h⟩
        exact (getRows_stuck hw.seg _ hs).bind.mono (by omega)
      · exact (getRows_stuck hw.pos _ hp').bind.mono (by omega)
    · exact (getRows_stuck hw.tok _ ht).bind.mono (by omega)
  · unfold embSize
    omega

/-! ## Pooling -/

theorem mat_flat_first {t : T α} {d n : Nat} {X : Mat α} (h : IsMat t d n X) (hn : 0 < n) (i : Nat)
    (hi : i < d) : t.flat i = X i 0 := by
  have := mat_flat h i 0 hi hn
  simpa using this

theorem view1d_mat {e : Env α} {x : T α} {d n : Nat} {X : Mat α} (hn : 0 < n) (hx : IsMat x d n X) :
    Yields e (view1d e x x.ne0) (tensorSize e.g 0) (fun r => IsMat r d 1 (fun i _ => X i 0)) := by
  unfold view1d
  refine ((check_true ?_).bind fun _ _ => (view_yields e _).weaken rfl ?_).weaken (by omega) (fun _ h => h)
  · simp [hx.contig, T.count, hx.ne0, hx.ne1, hx.ne2, hx.ne3]
    exact Nat.le_mul_of_pos_right _ hn
  · rintro r rfl
    refine ⟨hx.ne0, rfl, rfl, rfl, hx.esz, rfl, ?_⟩
    intro i j hi _
    exact mat_flat_first hx hn i hi

theorem pool_mat {e : Env α} (f : List α → α) {x : T α} {d n : Nat} {X : Mat α} (hn : 0 < n)
    (hx : IsMat x d n X) :
    Yields e (pool f e x n) (tensorSize e.g d) (fun r => IsMat r d 1 (fun i _ => f ((List.range n).map (X i)))) := by
  unfold pool
  rw [if_neg (by omega)]
  refine (fresh_yields e _ rfl).weaken ?_ ?_
  · simp [hx.ne0, hx.ne1, hx.ne2, Nat.sub_self]
  · rintro r rfl
    refine ⟨hx.ne0, by simp [hx.ne1], hx.ne2, rfl, rfl, rfl, ?_⟩
    intro i j hi hj
    obtain rfl : j = 0 := by omega
    simp only [Nat.zero_mul, Nat.zero_add]
    congr 1
    exact map_range_congr fun k hk => hx.get i k hi hk

theorem pooler_mat {e : Env α} {hp : HParams} {w : Weights α} {V P S : Nat} (hw : WeightsOK w hp V P S)
    (hh : 0 < hp.hidden) {n poolType : Nat} (hn : 0 < n) (hpt : poolType < 4) {x : T α} {X : Mat α}
    (hx : IsMat x hp.hidden n X) :
    Yields e (pooler e hp w poolType n x) (poolerSize e.g hp.hidden poolType)
      (fun o => ∃ r, o = some r ∧
        IsMat r hp.hidden (outRows poolType n) (refOut e.A w hp.hidden poolType n X)) := by
  have fin : ∀ (y : T α) (v : Nat → α), IsMat y hp.hidden 1 (fun i _ => v i) →
      Yields e (do
        check (y.ne0 == hp.hidden && y.ne1 == 1 && y.ne2 == 1 && y.ne3 == 1)
        let y ← dense e y w.poolw w.poolb
        let y ← unary e.A.tanh e y
        pure (some y) : M (Option (T α))) (tensorSize e.g hp.hidden * 4)
      (fun o => ∃ r, o = some r ∧ IsMat r hp.hidden 1 (fun j _ =>
        Spec.refPool e.A hp.hidden (wmat w.poolw) (wvec w.poolb) v j)) := by
    intro y v hy
    refine ((check_true ?_).bind fun _ _ => (dense_mat hh Nat.one_pos hy hw.poolw hw.poolb).bind fun y hy =>
      (unary_mat e.A.tanh hy).bind fun y hy =>
      Yields.pure (P := fun o => ∃ r, o = some r ∧ IsMat r hp.hidden 1 _) ⟨y, rfl, hy⟩).weaken ?_ (fun _ h => h)
    · simp [hy.ne0, hy.ne1, hy.ne2, hy.ne3]
    · have : tensorSize e.g hp.hidden 1 = tensorSize e.g hp.hidden := rfl
      omega
  unfold pooler
  match poolType, hpt with
  | 0, _ => exact Yields.pure ⟨x, rfl, hx⟩
  | 1, _ =>
    refine ((view1d_mat hn hx).bind fun y hy => fin y _ hy).weaken ?_ (fun _ h => h)
    simp only [poolerSize]
    simp
    omega
  | 2, _ =>
    refine ((pool_mat e.A.avg hn hx).bind fun y hy => fin y _ hy).weaken ?_ (fun _ h => h)
    simp only [poolerSize]
    simp
    omega
  | 3, _ =>
    refine ((pool_mat e.A.max hn hx).bind fun y hy => fin y _ hy).weaken ?_ (fun _ h => h)
    simp only [poolerSize]
    simp
    omega

/-! ## The whole graph -/

theorem buildGraph_mat {e : Env α} {hp : HParams} {w : Weights α} {V P S : Nat} (hw : WeightsOK w hp V P S)
    (hh : 0 < hp.hidden) (hdvd : hp.heads ∣ hp.hidden) (hi : 0 < hp.interm) (hact : hp.act = 0)
    (tokens segs : List Nat) (pos : List Int) (hn : 0 < tokens.length) (L poolType : Nat)
    (hL : L ≤ hp.nLayers) (hpt : poolType < 4)
    (hr : RowsOK V P S tokens.length (fun i => i32 (tokens.getD i 0)) (fun i => i32 (segs.getD i 0))
      (fun i => pos.getD i 0)) :
    Yields e (buildGraph e hp w L poolType tokens segs pos)
      (embSize e.g hp.hidden tokens.length +
        layerSize e.g hp.hidden hp.heads hp.interm tokens.length * L + poolerSize e.g hp.hidden poolType)
      (fun o => ∃ r, o = some r ∧ IsMat r hp.hidden (outRows poolType tokens.length)
        (refEval e.A hp w L poolType (fun t => (i32 (tokens.getD t 0)).toNat)
          (fun t => (i32 (segs.getD t 0)).toNat) (fun t => (pos.getD t 0).toNat) tokens.length)) := by
  obtain ⟨d, hd⟩ := hdvd
  have hheads : 0 < hp.heads := by
    rcases Nat.eq_zero_or_pos hp.heads with h | h
    · rw [h, Nat.zero_mul] at hd; omega
    · exact h
  have hd0 : 0 < d := by
    rcases Nat.eq_zero_or_pos d with h | h
    · rw [h, Nat.mul_zero] at hd; omega
    · exact h
  have hdiv : hp.hidden / hp.heads = d := by rw [hd]; exact Nat.mul_div_cancel_left d hheads
  unfold buildGraph refEval encoded
  rw [hdiv]
  refine ((embeddings_mat hw hh tokens segs pos hn hr).bind (fun x hx => ?_)).weaken
    (c := embSize e.g hp.hidden tokens.length +
      (layerSize e.g hp.hidden hp.heads hp.interm tokens.length * L + poolerSize e.g hp.hidden poolType))
    (by omega) (fun _ h => h)
  rw [if_neg (by omega)]
  refine ((layerLoop_mat hd0 hheads hi hn hd hact L w.layers hw.layers 0 x _ hx
    (by rw [hw.count]; simp; exact hL)).bind (fun o ho => ?_)).weaken
    (c := layerSize e.g hp.hidden hp.heads hp.interm tokens.length * ((L : Int) - (0 : Nat)).toNat +
      poolerSize e.g hp.hidden poolType) (by simp) (fun _ h => h)
  obtain ⟨r, rfl, hr'⟩ := ho
  have e1 : ((L : Int) - (0 : Nat)).toNat = L := by simp
  rw [e1] at hr'
  exact pooler_mat hw hh hn hpt hr'

theorem buildGraph_stuck {e : Env α} {hp : HParams} {w : Weights α} {V P S : Nat}
    (hw : WeightsOK w hp V P S) (hh : 0 < hp.hidden)
    (tokens segs : List Nat) (pos : List Int) (hn : 0 < tokens.length) (last : Int) (poolType : Nat)
    (hr : ¬ RowsOK V P S tokens.length (fun i => i32 (tokens.getD i 0)) (fun i => i32 (segs.getD i 0))
      (fun i => pos.getD i 0)) :
    Stuck e (buildGraph e hp w last poolType tokens segs pos) (embSize e.g hp.hidden tokens.length) := by
  unfold buildGraph
  exact (embeddings_stuck hw hh tokens segs pos hn hr).bind

/-! ## Language model head -/

theorem buildLm_yields {e : Env α} (isBert : Bool) {hp : HParams} {w : Weights α} {lm : LmWeights α} {V : Nat}
    (hw : w.lm = some lm) (hlm : LmOK lm hp.hidden V) (hh : 0 < hp.hidden) (hV : 0 < V)
    (act : α → α) (hact : lmAct e.A isBert hp.act = some act) (hidden : List α) (dflt : α) (n : Nat) (hn : 0 < n)
    (hlen : hidden.length = hp.hidden * n) :
    Yields e (buildLm e isBert hp w V hidden dflt)
      (tensorSize e.g (n * hp.hidden) + tensorSize e.g 0 + tensorSize e.g hp.hidden n * 9 +
        tensorSize e.g V n * 5)
      (fun o => ∃ p x, o = some (p, x) ∧
        IsMat p V n (refLm e.A act lm hp.eps hp.hidden V (fun i t => hidden.getD (i + hp.hidden * t) dflt)) ∧
        x.ne0 = V ∧ x.ne1 = n ∧ x.ne2 = 1 ∧ x.ne3 = 1 ∧
        ∀ i t, i < V → t < n → x.get i t 0 0 = e.A.argsort (col V
          (refLm e.A act lm hp.eps hp.hidden V (fun i t => hidden.getD (i + hp.hidden * t) dflt)) t) i) := by
  have hdiv : hidden.length / hp.hidden = n := by rw [hlen]; exact Nat.mul_div_cancel_left n hh
  unfold buildLm
  rw [hw]
  simp only [hdiv]
  rw [hlen, hact]
  refine ((newTensor1d_yields e _ _).bind fun x hx => ?_).weaken
    (c := tensorSize e.g (hp.hidden * n) + (tensorSize e.g 0 + (tensorSize e.g hp.hidden n * 9 +
        tensorSize e.g V n * 5))) (by rw [Nat.mul_comm n]; omega) (fun _ h => h)
  subst hx
  have hresh : Yields e (reshape e (⟨hp.hidden * n, 1, 1, 1, 4, true, fun i _ _ _ => hidden.getD i dflt⟩ : T α)
      hp.hidden n 1 1) (tensorSize e.g 0)
      (fun r => IsMat r hp.hidden n (fun i t => hidden.getD (i + hp.hidden * t) dflt)) := by
    unfold reshape
    refine ((check_true ?_).bind fun _ _ => (view_yields e _).weaken rfl ?_).weaken (by omega) (fun _ h => h)
    · simp [T.count]
    · rintro r rfl
      refine ⟨rfl, rfl, rfl, rfl, rfl, rfl, ?_⟩
      intro i j hi hj
      simp only [Nat.mul_zero, Nat.add_zero]
      unfold T.flat
      simp only [Nat.mod_one]
      rw [Nat.mod_eq_of_lt]
      calc i + hp.hidden * j < hp.hidden * 1 + hp.hidden * j := by omega
        _ = hp.hidden * (1 + j) := by rw [Nat.mul_add]
        _ ≤ hp.hidden * n := Nat.mul_le_mul_left _ (by omega)
  refine (hresh.bind fun x hx => (dense_mat hh hn hx hlm.dw hlm.db).bind fun x hx =>
    (unary_mat act hx).bind fun x hx => (layerNorm_mat hh hn hx hlm.lnw hlm.lnb).bind fun x hx =>
    (check_true ?_).bind fun _ _ => (check_true ?_).bind fun _ _ =>
    (dense_mat hV hn hx hlm.decw hlm.decb).bind fun x hx =>
    (check_true ?_).bind fun _ _ => (check_true ?_).bind fun _ _ =>
    (rowOp_mat (e.A.softmax e.A.one) hx).bind fun p hp' => ?_).weaken
      (c := tensorSize e.g 0 + (tensorSize e.g hp.hidden n * 3 + (tensorSize e.g hp.hidden n +
        (tensorSize e.g hp.hidden n * 5 + (0 + (0 + (tensorSize e.g V n * 3 + (0 + (0 + (tensorSize e.g V n +
          tensorSize e.g V n))))))))))
      (by omega) (fun _ h => h)
  · simp [hx.ne0]
  · simp [hx.ne1]
  · simp [hx.ne0]
  · simp [hx.ne1]
  · refine ((fresh_yields e _ ?_).bind fun o ho => Yields.pure ?_).weaken ?_ (fun _ h => h)
    · rfl
    · subst ho
      refine ⟨p, _, rfl, hp', hp'.ne0, hp'.ne1, hp'.ne2, hp'.ne3, ?_⟩
      intro i t hi ht
      simp only [hp'.ne0]
      congr 1
      exact map_range_congr fun k hk => hp'.get k t hk ht
    · simp [hp'.ne0, hp'.ne1, hp'.ne2, hp'.ne3]

theorem buildLm_empty {e : Env α} (isBert : Bool) {hp : HParams} {w : Weights α} {lm : LmWeights α} {V : Nat}
    (hw : w.lm = some lm) (hlm : LmOK lm hp.hidden V) (hh : 0 < hp.hidden) (dflt : α) :
    Stuck e (buildLm e isBert hp w V [] dflt)
      (tensorSize e.g 0 + tensorSize e.g 0 + tensorSize e.g hp.hidden 0 * 9) := by
  unfold buildLm
  rw [hw]
  simp only [List.length_nil, Nat.zero_div]
  refine ((newTensor1d_yields e _ _).stuck (c' := tensorSize e.g 0 + tensorSize e.g hp.hidden 0 * 9)
    fun x hx => ?_).mono (by omega)
  subst hx
  have hresh : Yields e (reshape e (⟨0, 1, 1, 1, 4, true, fun i _ _ _ => ([] : List α).getD i dflt⟩ : T α)
      hp.hidden 0 1 1) (tensorSize e.g 0) (fun r => IsMat r hp.hidden 0 (fun _ _ => dflt)) := by
    unfold reshape
    refine ((check_true ?_).bind fun _ _ => (view_yields e _).weaken rfl ?_).weaken (by omega) (fun _ h => h)
    · simp [T.count]
    · rintro r rfl
      exact ⟨rfl, rfl, rfl, rfl, rfl, rfl, fun i j _ hj => absurd hj (Nat.not_lt_zero j)⟩
  refine (hresh.stuck (c' := tensorSize e.g hp.hidden 0 * 2) fun x hx => Stuck.bind ?_).mono (by omega)
  unfold dense
  refine ((mulMat_mat hlm.dw hx).stuck (c' := tensorSize e.g hp.hidden 0) fun y hy => ?_).mono (by omega)
  refine ((repeat_vec hh hlm.db hy).stuck (c' := 0) fun z hz => ?_).mono (by omega)
  exact binary_empty e.A.add hz.ne1

end Berts.Graph
