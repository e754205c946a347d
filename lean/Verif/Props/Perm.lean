import Verif.Props.Reals

/-! # Properties C120 and C121: the order of the tokens -/

namespace Berts.Props

open Berts.Spec Berts.Graph Berts.Eval Finset

/-! ## C120: rearranged input -/

/-- `σ` rearranges the numbers below `n`. -/
structure Rearranges (σ : Nat → Nat) (n : Nat) : Prop where
  lt : ∀ t, t < n → σ t < n
  inj : ∀ s t, s < n → t < n → σ s = σ t → s = t

section

variable {A : Arith ℝ} {eps : Nat → ℝ} {σ : Nat → Nat} {n : Nat}

theorem Rearranges.image (h : Rearranges σ n) : (range n).image σ = range n := by
  apply eq_of_subset_of_card_le
  · intro v hv
    obtain ⟨i, hi, rfl⟩ := mem_image.1 hv
    exact mem_range.2 (h.lt i (mem_range.1 hi))
  · rw [card_image_of_injOn fun i hi j hj e => h.inj i j (by simpa using hi) (by simpa using hj) e]

theorem Rearranges.sum (h : Rearranges σ n) (f : Nat → ℝ) : ∑ s ∈ range n, f s = ∑ s ∈ range n, f (σ s) := by
  conv => lhs; rw [← h.image]
  rw [sum_image fun i hi j hj e => h.inj i j (by simpa using hi) (by simpa using hj) e]

theorem Rearranges.perm (h : Rearranges σ n) : ((List.range n).map σ).Perm (List.range n) := by
  refine (List.perm_ext_iff_of_nodup ?_ List.nodup_range).2 fun v => ?_
  · rw [List.nodup_iff_injective_getElem]
    intro a b hab
    simp only [List.getElem_map, List.getElem_range] at hab
    have ha := a.2
    have hb := b.2
    simp only [List.length_map, List.length_range] at ha hb
    exact Fin.ext (h.inj a b ha hb hab)
  · have : v ∈ (range n).image σ ↔ v ∈ range n := by rw [h.image]
    simpa using this

/-- The second matrix is the first with the tokens rearranged. -/
def Moved (σ : Nat → Nat) (n : Nat) (X X' : Mat ℝ) : Prop := ∀ i t, t < n → X' i (σ t) = X i t

theorem moved_col {X X' : Mat ℝ} (h : Moved σ n X X') (d t : Nat) (ht : t < n) : col d X' (σ t) = col d X t := by
  unfold col
  exact List.map_congr_left fun i _ => h i t ht

theorem moved_dense {X X' : Mat ℝ} (h : Moved σ n X X') (d : Nat) (W b) :
    Moved σ n (Spec.dense A d W b X) (Spec.dense A d W b X') := by
  intro j t ht
  unfold Spec.dense
  rw [moved_col h d t ht]

theorem moved_norm {X X' : Mat ℝ} (h : Moved σ n X X') (e d : Nat) (g b) :
    Moved σ n (Spec.layerNorm A e d g b X) (Spec.layerNorm A e d g b X') := by
  intro j t ht
  unfold Spec.layerNorm
  rw [moved_col h d t ht]

theorem moved_add {X X' Y Y' : Mat ℝ} (h : Moved σ n X X') (h' : Moved σ n Y Y') :
    Moved σ n (madd A X Y) (madd A X' Y') := by
  intro j t ht
  unfold madd
  rw [h j t ht, h' j t ht]

theorem moved_weight (hA : Exact A eps) (hσ : Rearranges σ n) {Q Q' K K' : Mat ℝ} (hq : Moved σ n Q Q')
    (hk : Moved σ n K K') (d h t s : Nat) (ht : t < n) (hs : s < n) :
    attnWeight A d n h Q' K' (σ t) (σ s) = attnWeight A d n h Q K t s := by
  have hg : ∀ (f : Nat → ℝ) w, w < n → ((List.range n).map f).getD w 0 = f w := by
    intro f w hw
    rw [List.getD_eq_getElem?_getD, List.getElem?_map, List.getElem?_range hw]
    rfl
  have hp : ∀ {X X' : Mat ℝ}, Moved σ n X X' → ∀ t, t < n → headPart d h X' (σ t) = headPart d h X t := by
    intro X X' hx t ht
    unfold headPart
    exact List.map_congr_left fun i _ => hx _ t ht
  unfold attnWeight
  rw [softmax_eq hA _ _ _ (by simpa using hσ.lt s hs), softmax_eq hA _ _ _ (by simpa using hs)]
  simp only [List.length_map, List.length_range]
  rw [hg _ _ (hσ.lt s hs), hg _ _ hs, hp hq t ht, hp hk s hs, hσ.sum]
  congr 1
  refine sum_congr rfl fun w hw => ?_
  have hw : w < n := by simpa using hw
  rw [hg _ _ (hσ.lt w hw), hg _ _ hw, hp hk w hw]

theorem moved_attend (hA : Exact A eps) (hσ : Rearranges σ n) {Q Q' K K' V V' : Mat ℝ} (hq : Moved σ n Q Q')
    (hk : Moved σ n K K') (hv : Moved σ n V V') (d : Nat) :
    Moved σ n (Spec.attend A d n Q K V) (Spec.attend A d n Q' K' V') := by
  intro j t ht
  have he : ∀ (V : Nat → ℝ) (w : Nat → ℝ), A.dot ((List.range n).map V) ((List.range n).map w) =
      ∑ s ∈ range n, V s * w s := by
    intro V w
    rw [hA.dot, List.zipWith_map_left, List.zipWith_map_right, ← map_range_sum, List.zipWith_self]
  unfold Spec.attend
  rw [he, he, hσ.sum]
  refine sum_congr rfl fun s hs => ?_
  have hs : s < n := by simpa using hs
  rw [hv j s hs, moved_weight hA hσ hq hk d _ t s ht hs]

theorem moved_layer (hA : Exact A eps) (hσ : Rearranges σ n) {X X' : Mat ℝ} (h : Moved σ n X X') (e hidden d interm : Nat)
    (l : RefLayer ℝ) : Moved σ n (refLayer A e hidden d n interm l X) (refLayer A e hidden d n interm l X') := by
  have ha : Moved σ n (refAttention A e hidden d n l X) (refAttention A e hidden d n l X') :=
    moved_norm (moved_add h (moved_dense (moved_attend hA hσ (moved_dense h _ _ _) (moved_dense h _ _ _)
      (moved_dense h _ _ _) _) _ _ _)) _ _ _ _
  refine moved_norm (moved_add ha (moved_dense ?_ _ _ _)) _ _ _ _
  intro i t ht
  show A.gelu _ = A.gelu _
  rw [moved_dense ha _ _ _ i t ht]

theorem moved_encode (hA : Exact A eps) (hσ : Rearranges σ n) (e hidden d interm : Nat) (ls : List (RefLayer ℝ)) :
    ∀ {X X' : Mat ℝ}, Moved σ n X X' →
      Moved σ n (refEncode A e hidden d n interm ls X) (refEncode A e hidden d n interm ls X') := by
  induction ls with
  | nil => exact fun h => h
  | cons l ls ih => exact fun h => ih (moved_layer hA hσ h _ _ _ _ l)

/-- A model with another table of positions. -/
def withPos (m : EModel ℝ) (p : T ℝ) : EModel ℝ := { m with w := { m.w with pos := p } }

/-- The second input is the first with the tokens rearranged by `σ`, with their segments and the embeddings of their
positions (which are looked up in another table). -/
structure Rearranged (σ : Nat → Nat) (m : EModel ℝ) (p : T ℝ) (tokens segs tokens' segs' : List Nat) : Prop where
  len : tokens'.length = tokens.length
  perm : Rearranges σ tokens.length
  tok : ∀ t, t < tokens.length → tokens'.getD (σ t) 0 = tokens.getD t 0
  seg : ∀ t, t < tokens.length → segs'.getD (σ t) 0 = segs.getD t 0
  pos : ∀ t i, t < tokens.length → i < m.hp.hidden →
    wmat p i (refPos m tokens' (σ t)) = wmat m.w.pos i (refPos m tokens t)

theorem moved_states (hA : Exact A eps) (m : EModel ℝ) (p : T ℝ) (tokens segs tokens' segs' : List Nat)
    (h : Rearranged σ m p tokens segs tokens' segs') (L : Nat) :
    Moved σ tokens.length (hiddenStates A m L tokens segs) (hiddenStates A (withPos m p) L tokens' segs') := by
  unfold hiddenStates encoded
  rw [h.len]
  refine moved_encode hA h.perm _ _ _ _ _ ?_
  intro j t ht
  unfold refEmbed Spec.layerNorm
  show A.add (A.mul _ (A.norm _ (col _ _ _) _)) _ = A.add (A.mul _ (A.norm _ (col _ _ _) _)) _
  refine congrArg (fun l => A.add (A.mul (wvec m.w.lnw j) (A.norm m.hp.eps l j)) (wvec m.w.lnb j)) ?_
  unfold col
  refine List.map_congr_left fun i hi => ?_
  show A.add (wmat m.w.seg i (segs'.getD (σ t) 0))
    (A.add (wmat p i (refPos m tokens' (σ t))) (wmat m.w.tok i (tokens'.getD (σ t) 0))) = _
  rw [h.pos t i ht (List.mem_range.1 hi), h.tok t ht, h.seg t ht]

/-- C120: hidden states move with their tokens. (No output with too many layers, C86.) -/
theorem C120_hidden_states (hA : Exact A eps) (g : Gg) (m : EModel ℝ) (p : T ℝ) (V P S : Nat)
    (tokens segs tokens' segs' : List Nat) (h : Rearranged σ m p tokens segs tokens' segs')
    (hf : Shaped m V P S tokens) (ha : Accepted m tokens segs 0) (hn : 0 < tokens.length)
    (hr : RowsExist m V P tokens)
    (hf' : Shaped (withPos m p) V P S tokens') (ha' : Accepted (withPos m p) tokens' segs' 0)
    (hr' : RowsExist (withPos m p) V P tokens') (L : Nat) (hL : L ≤ m.hp.nLayers) (buf : List ℝ)
    (hbuf : buf.length = m.hp.hidden * tokens.length) :
    (44 < L ∧ eval A g m tokens segs L 0 (some buf) buf.length = .abort ∧
      eval A g (withPos m p) tokens' segs' L 0 (some buf) buf.length = .abort) ∨
    ∃ out out', eval A g m tokens segs L 0 (some buf) buf.length = .ok ⟨true, some out, buf.length⟩ ∧
      eval A g (withPos m p) tokens' segs' L 0 (some buf) buf.length = .ok ⟨true, some out', buf.length⟩ ∧
      out.length = m.hp.hidden * tokens.length ∧ out'.length = out.length ∧
      ∀ i t, i < m.hp.hidden → t < tokens.length →
        out'[σ t * m.hp.hidden + i]? = out[t * m.hp.hidden + i]? := by
  have hn' : 0 < tokens'.length := by rw [h.len]; exact hn
  have hbuf' : buf.length = (withPos m p).hp.hidden * tokens'.length := by rw [h.len]; exact hbuf
  rcases Nat.lt_or_ge 44 L with hd | hd
  · refine .inl ⟨hd, ?_, ?_⟩
    · exact eval_deep hf ha hn hr L (by omega) (by omega) (by rw [layersOf_nat]; exact hd) buf _
    · exact eval_deep hf' ha' hn' hr' L (by omega) (by show _ ≤ (m.hp.nLayers : Int); omega)
        (by rw [layersOf_nat]; exact hd) buf _
  right
  rcases C61_hidden_states A g m V P S tokens segs hf ha hn hr L hL buf hbuf with h1 | ⟨out, h1, h2, h3⟩
  · omega
  rcases C61_hidden_states A g (withPos m p) V P S tokens' segs' hf' ha' hn' hr' L hL buf hbuf' with
    h1' | ⟨out', h1', h2', h3'⟩
  · omega
  refine ⟨out, out', h1, h1', h2, by rw [h2, h2', h.len]; rfl, fun i t hi ht => ?_⟩
  rw [h3 i t hi ht]
  have := h3' i (σ t) hi (by rw [h.len]; exact h.perm.lt t ht)
  refine this.trans (congrArg some ?_)
  exact moved_states hA m p tokens segs tokens' segs' h L i t ht

/-- C120: the pooled outputs by average (2) and maximum (3), if these do not depend on the order of the numbers, are the
same.  (No output with too many layers, C86.) -/
theorem C120_pooled (hA : Exact A eps) (havg : ∀ l l' : List ℝ, l.Perm l' → A.avg l = A.avg l')
    (hmax : ∀ l l' : List ℝ, l.Perm l' → A.max l = A.max l') (g : Gg) (m : EModel ℝ) (p : T ℝ) (V P S : Nat)
    (tokens segs tokens' segs' : List Nat) (h : Rearranged σ m p tokens segs tokens' segs')
    (poolType : Nat) (hp : poolType = 2 ∨ poolType = 3)
    (hf : Shaped m V P S tokens) (ha : Accepted m tokens segs poolType) (hn : 0 < tokens.length)
    (hr : RowsExist m V P tokens)
    (hf' : Shaped (withPos m p) V P S tokens') (ha' : Accepted (withPos m p) tokens' segs' poolType)
    (hr' : RowsExist (withPos m p) V P tokens') (L : Nat) (hL : L ≤ m.hp.nLayers) (buf : List ℝ)
    (hbuf : buf.length = m.hp.hidden) :
    (eval A g m tokens segs L poolType (some buf) buf.length = .abort ↔ 44 < L) ∧
    eval A g (withPos m p) tokens' segs' L poolType (some buf) buf.length =
      eval A g m tokens segs L poolType (some buf) buf.length := by
  have hn' : 0 < tokens'.length := by rw [h.len]; exact hn
  rcases Nat.lt_or_ge 44 L with hd | hd
  · have e1 := eval_deep (A := A) (g := g) hf ha hn hr L (by omega) (by omega) (by rw [layersOf_nat]; exact hd) buf
      buf.length
    have e2 := eval_deep (A := A) (g := g) hf' ha' hn' hr' L (by omega) (by show _ ≤ (m.hp.nLayers : Int); omega)
      (by rw [layersOf_nat]; exact hd) buf buf.length
    rw [e1, e2]
    exact ⟨⟨fun _ => hd, fun _ => rfl⟩, rfl⟩
  rcases C62_pooling A g m V P S tokens segs poolType (by omega) hf ha hn hr L hL buf hbuf with h1 | h1
  · omega
  rcases C62_pooling A g (withPos m p) V P S tokens' segs' poolType (by omega) hf' ha' hn' hr' L hL buf hbuf with
    h1' | h1'
  · omega
  refine ⟨by rw [h1]; exact ⟨fun h => (by cases h), fun h => by omega⟩, ?_⟩
  rw [h1, h1']
  have hperm : ∀ i, ((List.range tokens'.length).map (hiddenStates A (withPos m p) L tokens' segs' i)).Perm
      ((List.range tokens.length).map (hiddenStates A m L tokens segs i)) := by
    intro i
    rw [h.len]
    refine ((h.perm.perm.map _).symm).trans (List.Perm.of_eq ?_)
    rw [List.map_map]
    exact List.map_congr_left fun t ht => moved_states hA m p tokens segs tokens' segs' h L i t (by simpa using ht)
  have hin : (fun i => if poolType = 1 then hiddenStates A (withPos m p) L tokens' segs' i 0
      else if poolType = 2 then A.avg ((List.range tokens'.length).map (hiddenStates A (withPos m p) L tokens' segs' i))
      else A.max ((List.range tokens'.length).map (hiddenStates A (withPos m p) L tokens' segs' i))) =
      fun i => if poolType = 1 then hiddenStates A m L tokens segs i 0
      else if poolType = 2 then A.avg ((List.range tokens.length).map (hiddenStates A m L tokens segs i))
      else A.max ((List.range tokens.length).map (hiddenStates A m L tokens segs i)) := by
    funext i
    have h1 : poolType ≠ 1 := by omega
    simp only [h1, if_false, havg _ _ (hperm i), hmax _ _ (hperm i)]
  rw [hin]
  rfl

end

/-! ## C121: the same input twice -/

section

variable {α : Type} {A : Arith α}

/-- The matrix is the same at the places `s` and `t`. -/
def Twin (s t : Nat) (X : Mat α) : Prop := ∀ i, X i s = X i t

theorem twin_dense {s t : Nat} {X : Mat α} (h : Twin s t X) (d : Nat) (W b) : Twin s t (Spec.dense A d W b X) := by
  intro j
  unfold Spec.dense col
  simp only [h _]

theorem twin_norm {s t : Nat} {X : Mat α} (h : Twin s t X) (e d : Nat) (g b) :
    Twin s t (Spec.layerNorm A e d g b X) := by
  intro j
  unfold Spec.layerNorm col
  simp only [h _]

theorem twin_layer {s t : Nat} {X : Mat α} (h : Twin s t X) (e hidden d n interm : Nat) (l : RefLayer α) :
    Twin s t (refLayer A e hidden d n interm l X) := by
  have ha : Twin s t (refAttention A e hidden d n l X) := by
    refine twin_norm (X := madd A X _) ?_ _ _ _ _
    intro i
    unfold madd
    rw [h i]
    congr 1
    refine twin_dense (X := Spec.attend A d n _ _ _) ?_ _ _ _ i
    intro j
    unfold Spec.attend attnWeight headPart
    simp only [twin_dense h _ _ _ _]
  refine twin_norm (X := madd A (refAttention A e hidden d n l X) _) ?_ _ _ _ _
  intro i
  unfold madd
  rw [ha i]
  congr 1
  refine twin_dense (X := fun i t => A.gelu _) ?_ _ _ _ i
  intro j
  show A.gelu _ = A.gelu _
  rw [twin_dense ha _ _ _ j]

theorem twin_encode {s t : Nat} (e hidden d n interm : Nat) (ls : List (RefLayer α)) :
    ∀ {X : Mat α}, Twin s t X → Twin s t (refEncode A e hidden d n interm ls X) := by
  induction ls with
  | nil => exact fun h => h
  | cons l ls ih => exact fun h => ih (twin_layer h _ _ _ _ _ l)

/-- C121: two tokens with the same id, segment and position have the same hidden states. (No output with too many layers,
C86.) -/
theorem C121_twins (A : Arith α) (g : Gg) (m : EModel α) (V P S : Nat) (tokens segs : List Nat)
    (hf : Shaped m V P S tokens) (ha : Accepted m tokens segs 0) (hn : 0 < tokens.length)
    (hr : RowsExist m V P tokens) (L : Nat) (hL : L ≤ m.hp.nLayers) (buf : List α)
    (hbuf : buf.length = m.hp.hidden * tokens.length) (s t : Nat) (hs : s < tokens.length) (ht : t < tokens.length)
    (h1 : tokens.getD s 0 = tokens.getD t 0) (h2 : segs.getD s 0 = segs.getD t 0)
    (h3 : refPos m tokens s = refPos m tokens t) :
    (44 < L ∧ eval A g m tokens segs L 0 (some buf) buf.length = .abort) ∨
    ∃ out, eval A g m tokens segs L 0 (some buf) buf.length = .ok ⟨true, some out, buf.length⟩ ∧
      out.length = m.hp.hidden * tokens.length ∧
      ∀ i, i < m.hp.hidden → out[s * m.hp.hidden + i]? = out[t * m.hp.hidden + i]? := by
  rcases C61_hidden_states A g m V P S tokens segs hf ha hn hr L hL buf hbuf with h | ⟨out, h4, h5, h6⟩
  · exact .inl h
  refine .inr ⟨out, h4, h5, fun i hi => ?_⟩
  rw [h6 i s hi hs, h6 i t hi ht]
  congr 1
  refine twin_encode _ _ _ _ _ _ ?_ i
  intro j
  unfold refEmbed
  refine twin_norm (X := fun i t => A.add _ (A.add _ _)) ?_ _ _ _ _ j
  intro k
  simp only [h1, h2, h3]

/-- C121, RoBERTa: all padding tokens of a segment have the same hidden states, wherever they are. -/
theorem C121_pads (A : Arith α) (g : Gg) (m : EModel α) (hm : m.isBert = false) (V P S : Nat) (tokens segs : List Nat)
    (hf : Shaped m V P S tokens) (ha : Accepted m tokens segs 0) (hn : 0 < tokens.length)
    (hr : RowsExist m V P tokens) (L : Nat) (hL : L ≤ m.hp.nLayers) (hL44 : L ≤ 44) (buf : List α)
    (hbuf : buf.length = m.hp.hidden * tokens.length) :
    ∃ out, eval A g m tokens segs L 0 (some buf) buf.length = .ok ⟨true, some out, buf.length⟩ ∧
      out.length = m.hp.hidden * tokens.length ∧
      ∀ s t i, tokens[s]? = some m.padId → tokens[t]? = some m.padId → segs[s]? = segs[t]? → i < m.hp.hidden →
        out[s * m.hp.hidden + i]? = out[t * m.hp.hidden + i]? := by
  rcases C61_hidden_states A g m V P S tokens segs hf ha hn hr L hL buf hbuf with h | ⟨out, h4, h5, h6⟩
  · omega
  refine ⟨out, h4, h5, fun s t i hs ht hseg hi => ?_⟩
  have hs' : s < tokens.length := (List.getElem?_eq_some_iff.1 hs).1
  have ht' : t < tokens.length := (List.getElem?_eq_some_iff.1 ht).1
  have e1 : tokens.getD s 0 = m.padId := by rw [List.getD_eq_getElem?_getD, hs]; rfl
  have e2 : tokens.getD t 0 = m.padId := by rw [List.getD_eq_getElem?_getD, ht]; rfl
  have e3 : segs.getD s 0 = segs.getD t 0 := by
    rw [List.getD_eq_getElem?_getD, List.getD_eq_getElem?_getD, hseg]
  have e4 : ∀ s, tokens.getD s 0 = m.padId → refPos m tokens s = 0 := by
    intro s h
    simp only [refPos, hm, robertaPos, h, if_true, Bool.false_eq_true, if_false]
  rcases C121_twins A g m V P S tokens segs hf ha hn hr L hL buf hbuf s t hs' ht' (e1.trans e2.symm) e3
    ((e4 s e1).trans (e4 t e2).symm) with h | ⟨out', g1, _, g3⟩
  · omega
  rw [h4] at g1
  cases g1
  exact g3 i hi

end

/-! ## Examples -/

/-- The position table of `realTiny` with the first two rows exchanged. -/
def swappedPos : T ℝ :=
  { realT 2 4 with get := fun i j _ _ => (realT 2 4).get i (if j = 0 then 1 else if j = 1 then 0 else j) 0 0 }

theorem real_avg (l l' : List ℝ) (h : l.Perm l') : realA.avg l = realA.avg l' := by
  show mean l = mean l'
  rw [mean, mean, h.sum_eq, h.length_eq]

theorem real_max (l l' : List ℝ) (h : l.Perm l') : realA.max l = realA.max l' := by
  have : RightCommutative (max : ℝ → ℝ → ℝ) := ⟨fun a b c => by rw [max_right_comm]⟩
  exact h.foldl_eq 0

/-- The hypotheses of C120 are met: the input `[1, 2]` exchanged. -/
example : ∃ m : EModel ℝ, Exact realA (fun e => (e : ℝ)) ∧
    (∀ l l' : List ℝ, l.Perm l' → realA.avg l = realA.avg l') ∧
    (∀ l l' : List ℝ, l.Perm l' → realA.max l = realA.max l') ∧
    Rearranged (fun t => 1 - t) m swappedPos [1, 2] [0, 1] [2, 1] [1, 0] ∧
    Shaped m 3 4 2 [1, 2] ∧ Accepted m [1, 2] [0, 1] 2 ∧ RowsExist m 3 4 [1, 2] ∧
    Shaped (withPos m swappedPos) 3 4 2 [2, 1] ∧ Accepted (withPos m swappedPos) [2, 1] [1, 0] 2 ∧
    RowsExist (withPos m swappedPos) 3 4 [2, 1] ∧ 1 ≤ m.hp.nLayers := by
  have hok := realTiny_ok true 4
  refine ⟨realTiny true 4, real_exact, real_avg, real_max, ⟨rfl, ⟨fun t h => ?_, fun s t h1 h2 => ?_⟩, ?_, ?_, ?_⟩,
    ⟨hok, by decide, by decide, by decide, by simp [realTiny], by simp [realTiny], by simp [realTiny], by simp⟩,
    ⟨by simp [realTiny], rfl, by simp [realTiny], by decide⟩, ⟨by simp, ?_⟩,
    ⟨⟨⟨hok.weights.tok, ⟨rfl, rfl, rfl, rfl, rfl⟩, hok.weights.seg, hok.weights.lnw, hok.weights.lnb,
      hok.weights.layers, hok.weights.count, hok.weights.poolw, hok.weights.poolb⟩, hok.hidden, hok.heads, hok.interm,
      hok.act⟩, by decide, by decide, by decide, by simp [withPos, realTiny], by simp [withPos, realTiny],
      by simp [withPos, realTiny], by simp⟩,
    ⟨by simp [withPos, realTiny], rfl, by simp [withPos, realTiny], by decide⟩, ⟨by simp, ?_⟩, by simp [realTiny]⟩
  · simp only [List.length_cons, List.length_nil] at *
    omega
  · simp only [List.length_cons, List.length_nil] at *
    omega
  · intro t ht
    match t, ht with
    | 0, _ => rfl
    | 1, _ => rfl
  · intro t ht
    match t, ht with
    | 0, _ => rfl
    | 1, _ => rfl
  · intro t i ht _
    match t, ht with
    | 0, _ => simp [wmat, swappedPos, refPos, realTiny]
    | 1, _ => simp [wmat, swappedPos, refPos, realTiny]
  all_goals
    intro t ht
    simp only [List.length_cons, List.length_nil] at ht
    simp only [refPos, realTiny, withPos]
    simp only [if_true]
    omega

/-- The hypotheses of C121 are met: two padding tokens at the end. -/
example : ∃ m : EModel ℝ, m.isBert = false ∧ Shaped m 3 4 2 [2, 1, 1] ∧ Accepted m [2, 1, 1] [0, 0, 0] 0 ∧
    RowsExist m 3 4 [2, 1, 1] ∧ 1 ≤ m.hp.nLayers ∧ ([2, 1, 1] : List Nat)[1]? = some m.padId ∧
    ([2, 1, 1] : List Nat)[2]? = some m.padId := by
  refine ⟨realTiny false 4, rfl, ⟨realTiny_ok false 4, by decide, by decide, by decide, by simp [realTiny],
    by simp [realTiny], by simp [realTiny], by simp⟩, ⟨by simp [realTiny], rfl, by simp [realTiny], by decide⟩,
    ⟨by simp, ?_⟩, by simp [realTiny], rfl, rfl⟩
  intro t ht
  match t, ht with
  | 0, _ => simp [refPos, realTiny, robertaPos]
  | 1, _ => simp [refPos, realTiny, robertaPos]
  | 2, _ => simp [refPos, realTiny, robertaPos]

end Berts.Props
