import Verif.Spec.FileFormat
import Verif.Proofs.Chain

/-! # Reading what was written -/

namespace Berts.FileFormat

open Berts.Load (Kv TInfo Gguf World HasU32 NoKey)
open Berts.Vocab (ascii)
open Berts.Quantize (Info le metaData infoBytes readerOffset up ReadBack AlignedAs)

variable {α β γ : Type}

/-- The reader consumes exactly these bytes and gives this value; if some are missing it gives up. -/
def Reads (r : Rd β) (b : List Nat) (x : β) : Prop :=
  (∀ rest, r (b ++ rest) = .ok (some (x, rest))) ∧ ∀ c d, b = c ++ d → d ≠ [] → r c = .ok none

theorem Reads.pure (x : β) : Reads (Pure.pure x : Rd β) [] x :=
  ⟨fun _ => rfl, fun c d h h' => by simp at h; exact absurd h.2 h'⟩

theorem Reads.bind {r : Rd β} {f : β → Rd γ} {b c : List Nat} {x : β} {y : γ} (h : Reads r b x) (h' : Reads (f x) c y) :
    Reads (r >>= f) (b ++ c) y := by
  refine ⟨fun rest => ?_, fun p q hpq hq => ?_⟩
  · show Res.bind (r (b ++ c ++ rest)) _ = _
    rw [List.append_assoc, h.1 (c ++ rest)]
    exact h'.1 rest
  · show Res.bind (r p) _ = _
    rcases List.append_eq_append_iff.1 hpq with ⟨e, h1, h2⟩ | ⟨e, h1, h2⟩
    · rw [h1, h.1 e]
      exact h'.2 e q h2 hq
    · by_cases he : e = []
      · subst he
        rw [List.append_nil] at h1
        have := h.1 []
        rw [List.append_nil, h1] at this
        rw [this]
        refine h'.2 [] c rfl ?_
        rw [List.nil_append] at h2
        rwa [← h2]
      · rw [h.2 p e h1 he]
        rfl

theorem Reads.bind' {r : Rd β} {f : β → Rd γ} {b c d : List Nat} {x : β} {y : γ} (h : Reads r b x) (h' : Reads (f x) c y)
    (e : d = b ++ c) : Reads (r >>= f) d y := e ▸ h.bind h'

theorem Reads.last {r : Rd β} {f : β → γ} {b : List Nat} {x : β} (h : Reads r b x) :
    Reads (r >>= fun x => Pure.pure (f x)) b (f x) := by
  have := h.bind (f := fun x => Pure.pure (f x)) (Reads.pure (f x))
  rwa [List.append_nil] at this

theorem reads_take (b : List Nat) : Reads (take b.length) b b := by
  refine ⟨fun rest => by simp [take], fun c d h h' => ?_⟩
  have : 0 < d.length := List.length_pos_iff.2 h'
  simp [take, h, this]

theorem le_length (k n : Nat) : (le k n).length = k := by
  induction k generalizing n with
  | zero => rfl
  | succ k ih => simp [le, ih]

theorem unle_le (k n : Nat) (h : n < 256 ^ k) : unle (le k n) = n := by
  induction k generalizing n with
  | zero => simp at h; simp [le, unle, h]
  | succ k ih =>
    simp only [le, unle]
    rw [ih (n / 256) (by rw [Nat.pow_succ] at h; omega)]
    omega

theorem reads_num {k n : Nat} (h : n < 256 ^ k) : Reads (num k) (le k n) n := by
  have := (reads_take (le k n)).last (f := unle)
  rw [le_length, unle_le k n h] at this
  exact this

theorem reads_str {s : List Nat} (h : s.length < 2 ^ 64) : Reads str (le 8 s.length ++ s) s :=
  (reads_num h).bind (reads_take s)

theorem reads_many {r : Rd β} {f : δ → List Nat} {g : δ → β} {l : List δ} (h : ∀ x ∈ l, Reads r (f x) (g x)) :
    Reads (many r l.length) (l.flatMap f) (l.map g) := by
  induction l with
  | nil => exact Reads.pure []
  | cons x l ih =>
    have := (h x (by simp)).bind (f := fun x => many r l.length >>= fun xs => Pure.pure (x :: xs))
      ((ih fun y hy => h y (by simp [hy])).last (f := fun xs => g x :: xs))
    simpa [many] using this

theorem width_iff (t w : Nat) : width t = some w ↔ (t, w) ∈ scalars := by
  by_cases h : t < 13
  · have : ∀ t, t < 13 → ∀ w, w < 9 → (width t = some w ↔ (t, w) ∈ scalars) := by decide
    by_cases hw : w < 9
    · exact this t h w hw
    · have h1 : ∀ t, t < 13 → ∀ v ∈ width t, v < 9 := by decide
      have h2 : ∀ p ∈ scalars, p.2 < 9 := by decide
      exact ⟨fun e => absurd (h1 t h w e) hw, fun e => absurd (h2 _ e) hw⟩
  · have h1 : width t = none := by
      unfold width
      rw [List.getD_eq_getElem?_getD, List.getElem?_eq_none (by simp; omega)]
      rfl
    have h2 : ∀ p ∈ scalars, p.1 < 13 := by decide
    rw [h1]
    constructor
    · intro e; cases e
    · intro e; exact absurd (h2 _ e) h

theorem reads_other {b : List Nat} (h : OtherAs b) : Reads value b (.other b) := by
  cases h with
  | scalar h ht hd =>
    rename_i t w d
    have hw := (width_iff t w).2 h
    have h13 : ∀ p ∈ scalars, p.1 < 13 ∧ p.1 ≠ 8 ∧ p.1 ≠ 9 := by decide
    have := h13 _ h
    simp only at this
    simp only [List.mem_cons, List.not_mem_nil, or_false, not_or] at ht
    refine (reads_num (k := 4) (n := t) (by omega)).bind ?_
    rw [if_neg ht.1, if_neg ht.2.2, if_neg ht.2.1, if_neg this.2.1, if_neg this.2.2, hw]
    subst hd
    exact (reads_take d).last (f := fun d => Kv.other (le 4 t ++ d))
  | array h hn hd =>
    rename_i t w n d
    have hw := (width_iff t w).2 h
    have h13 : ∀ p ∈ scalars, p.1 < 13 := by decide
    have := h13 _ h
    simp only at this
    refine (reads_num (k := 4) (n := 9) (by decide)).bind ?_
    rw [if_neg (by decide), if_neg (by decide), if_neg (by decide), if_neg (by decide), if_pos rfl]
    refine (reads_num (k := 4) (n := t) (by omega)).bind ((reads_num (k := 8) (n := n) hn).bind ?_)
    rw [hw]
    simp only
    rw [← hd]
    exact (reads_take d).last (f := fun d => Kv.other (le 4 9 ++ (le 4 t ++ (le 8 n ++ d))))
  | strings hn hs =>
    rename_i ss
    refine (reads_num (k := 4) (n := 9) (by decide)).bind ?_
    rw [if_neg (by decide), if_neg (by decide), if_neg (by decide), if_neg (by decide), if_pos rfl]
    refine (reads_num (k := 4) (n := 8) (by decide)).bind ((reads_num (k := 8) (n := ss.length) hn).bind ?_)
    have hw : width 8 = none := rfl
    rw [hw]
    simp only [if_true]
    have h1 := reads_many (r := str) (f := strBytes) (g := id) (l := ss) fun s h => reads_str (hs s h)
    rw [List.map_id] at h1
    exact h1.last (f := fun l => Kv.other (le 4 9 ++ (le 4 8 ++ (le 8 ss.length ++ l.flatMap strBytes))))

theorem reads_value {v : Kv} (h : KvOk v) : Reads value (valueBytes v) v := by
  cases v with
  | u32 n => exact (reads_num (by decide)).bind ((reads_num (n := n) h).last (f := Kv.u32))
  | f64 n => exact (reads_num (by decide)).bind ((reads_num (n := n) h).last (f := Kv.f64))
  | bool b =>
    refine (reads_num (by decide)).bind ?_
    cases b
    · exact (reads_num (k := 1) (n := 0) (by decide)).last (f := fun n => Kv.bool (n ≠ 0))
    · exact (reads_num (k := 1) (n := 1) (by decide)).last (f := fun n => Kv.bool (n ≠ 0))
  | str s => exact (reads_num (by decide)).bind ((reads_str (s := s) h).last (f := Kv.str))
  | other b => exact reads_other h

theorem reads_entry {p : List Nat × Kv} (h1 : p.1.length < 2 ^ 64) (h2 : KvOk p.2) : Reads entry (entryBytes p) p :=
  (reads_str h1).bind ((reads_value h2).last (f := fun v => (p.1, v)))

/-- What the reader makes of an entry. -/
def back (nb : Nat → List Nat → Nat) (e : Info) : TInfo := ⟨e.name, e.ndims, e.ne, e.type, nb e.type e.ne, e.offset⟩

theorem reads_info (nb : Nat → List Nat → Nat) {ok : Nat → List Nat → Bool} {i : Info} (h : InfoOk ok i) :
    Reads (info nb ok) (infoBytes i) (back nb i) := by
  have hn : Reads (many (num 8) i.ndims) (i.ne.flatMap (le 8)) i.ne := by
    have := reads_many (r := num 8) (f := le 8) (g := id) (l := i.ne) fun n hn => reads_num (h.ne n hn)
    rwa [h.dims.1, List.map_id] at this
  have hd : i.ndims < 256 ^ 4 := by have := h.dims.2; omega
  refine (reads_str h.name).bind' ((reads_num hd).bind (c := i.ne.flatMap (le 8) ++ (le 4 i.type ++ le 8 i.offset)) ?_)
    (by simp [infoBytes])
  rw [if_pos h.dims.2]
  refine hn.bind ((reads_num (n := i.type) h.type).bind ((reads_num (n := i.offset) h.offset).bind' (c := []) ?_ (by simp)))
  rw [if_pos h.accepted]
  exact Reads.pure _

theorem reads_contents (nb : Nat → List Nat → Nat) {ok : Nat → List Nat → Bool} {kv : List (List Nat × Kv)}
    {infos : List Info} (hk : MetaOk kv) (hc : infos.length < 2 ^ 64) (hi : ∀ i ∈ infos, InfoOk ok i) :
    Reads (contents nb ok) (preamble kv infos.length ++ infos.flatMap infoBytes) (kv, infos.map (back nb)) := by
  refine (reads_take (ascii "GGUF")).bind' (c := le 4 3 ++ (le 8 infos.length ++ (le 8 kv.length ++ (kv.flatMap entryBytes ++
    infos.flatMap infoBytes)))) ?_ (by simp [preamble])
  rw [if_pos rfl]
  refine (reads_num (n := 3) (by decide)).bind ?_
  rw [if_neg (by decide)]
  refine (reads_num (n := infos.length) hc).bind ((reads_num (n := kv.length) hk.count).bind (x := kv.length) ?_)
  have h1 := reads_many (r := entry) (f := entryBytes) (g := id) (l := kv) fun p hp => reads_entry (hk.keys p hp) (hk.values p hp)
  rw [List.map_id] at h1
  exact h1.bind ((reads_many fun i h => reads_info nb (hi i h)).last (f := fun dir => (kv, dir)))

theorem find_key {kv : List (List Nat × Kv)} {k : List Nat} {v : Kv} (h : kv.find? (·.1 == k) = some (k', v)) :
    ∃ a b, kv = a ++ (k, v) :: b ∧ ∀ p ∈ a, p.1 ≠ k := by
  obtain ⟨h1, a, b, h2, h3⟩ := List.find?_eq_some_iff_append.1 h
  have : k' = k := by simpa using h1
  subst this
  exact ⟨a, b, h2, fun p hp => by simpa using h3 p hp⟩

theorem alignment_as {kv : List (List Nat × Kv)} {a : Nat} (h : AlignedAs kv a) (h0 : a ≠ 0) : alignment kv = .ok a := by
  rcases h with ⟨x, y, h1, h2⟩ | ⟨h1, rfl⟩
  · have : kv.find? (·.1 == ascii "general.alignment") = some (ascii "general.alignment", .u32 a) := by
      rw [List.find?_eq_some_iff_append]
      exact ⟨by simp, x, y, h1, fun p hp => by simpa using h2 p hp⟩
    simp [alignment, this, h0]
  · have : kv.find? (·.1 == ascii "general.alignment") = none := by
      rw [List.find?_eq_none]
      exact fun p hp => by simpa using h1 p hp
    simp [alignment, this]

theorem aligned_unique {kv : List (List Nat × Kv)} {a b : Nat} (h : AlignedAs kv a) (h' : AlignedAs kv b) (h0 : a ≠ 0) :
    b = a := by
  have h1 := alignment_as h h0
  by_cases hb : b = 0
  · subst hb
    rcases h' with ⟨x, y, h2, h3⟩ | ⟨_, h2⟩
    · have : kv.find? (·.1 == ascii "general.alignment") = some (ascii "general.alignment", .u32 0) := by
        rw [List.find?_eq_some_iff_append]
        exact ⟨by simp, x, y, h2, fun p hp => by simpa using h3 p hp⟩
      simp [alignment, this] at h1
    · cases h2
  · rw [alignment_as h' hb] at h1
    injection h1

theorem round_up {n a : Nat} (h : a ≠ 0) : (if n % a = 0 then n else n + (a - n % a)) = up a n := by
  unfold up
  have h1 := Nat.div_add_mod n a
  have h2 := Nat.mod_lt n (Nat.pos_of_ne_zero h)
  split
  · rename_i e
    have : (n + a - 1) / a = n / a := by
      rw [Nat.div_eq_of_lt_le]
      · rw [Nat.mul_comm]; omega
      · rw [Nat.add_mul, Nat.mul_comm]; omega
    rw [this, Nat.mul_comm]; omega
  · have : (n + a - 1) / a = n / a + 1 := by
      rw [Nat.div_eq_of_lt_le]
      · rw [Nat.add_mul, Nat.mul_comm]; omega
      · rw [Nat.add_mul, Nat.add_mul, Nat.mul_comm]; omega
    rw [this, Nat.add_mul, Nat.mul_comm]; omega

/-- A file that ends within the metadata or the directory is not opened. -/
theorem read_cut (nb : Nat → List Nat → Nat) {ok : Nat → List Nat → Bool} {kv : List (List Nat × Kv)}
    {infos : List Info} (hk : MetaOk kv) (hc : infos.length < 2 ^ 64) (hi : ∀ i ∈ infos, InfoOk ok i) {p q : List Nat}
    (h : preamble kv infos.length ++ infos.flatMap infoBytes = p ++ q) (hq : q ≠ []) : readGguf nb ok p = .ok none := by
  unfold readGguf
  rw [(reads_contents nb hk hc hi).2 p q h hq]
  rfl

/-- What follows metadata and directory does not matter. -/
theorem read_any (nb : Nat → List Nat → Nat) {ok : Nat → List Nat → Bool} {kv : List (List Nat × Kv)}
    {infos : List Info} (hk : MetaOk kv) (hc : infos.length < 2 ^ 64) (hi : ∀ i ∈ infos, InfoOk ok i) {a : Nat}
    (ha : AlignedAs kv a) (h0 : a ≠ 0) (rest : List Nat) :
    readGguf nb ok (preamble kv infos.length ++ infos.flatMap infoBytes ++ rest) =
      .ok (some ⟨kv, infos.map (back nb), readerOffset a (preamble kv infos.length) infos⟩) := by
  unfold readGguf
  simp only
  rw [(reads_contents nb hk hc hi).1]
  simp only [Res.bind]
  rw [alignment_as ha h0]
  simp only
  rw [round_up h0]
  rw [List.length_append (bs := rest), Nat.add_sub_cancel, readerOffset, List.length_append, List.length_flatMap]

/-- The reader delivers what was written, whatever follows. -/
theorem read_back (nb : Nat → List Nat → Nat) {ok : Nat → List Nat → Bool} {kv : List (List Nat × Kv)}
    {infos : List Info} (hk : MetaOk kv) (hc : infos.length < 2 ^ 64) (hi : ∀ i ∈ infos, InfoOk ok i) {a : Nat}
    (ha : AlignedAs kv a) (h0 : a ≠ 0) (aw : Nat) (rest : List Nat) :
    readGguf nb ok (metaData aw (preamble kv infos.length) infos ++ rest) =
      .ok (some ⟨kv, infos.map (back nb), readerOffset a (preamble kv infos.length) infos⟩) := by
  unfold metaData
  simp only
  rw [List.append_assoc _ _ rest, read_any nb hk hc hi ha h0]

/-- The contract of C80 holds. -/
theorem readBack (nb : Nat → List Nat → Nat) {kv : List (List Nat × Kv)} {infos : List Info} {pre : List Nat} {a : Nat}
    (ha : AlignedAs kv a) (h0 : a ≠ 0) :
    ReadBack nb kv pre infos ⟨kv, infos.map (back nb), readerOffset a pre infos⟩ :=
  ⟨rfl, rfl, fun b hb => by rw [aligned_unique ha hb h0]⟩

/-- Metadata and directory as given, data at the end of the header. -/
theorem written_any {nb : Nat → List Nat → Nat} {ok : Nat → List Nat → Bool} {kv : List (List Nat × Kv)}
    {dir : List TInfo} (hk : MetaOk kv) (hc : dir.length < 2 ^ 64) (hi : ∀ t ∈ dir, InfoOk ok (record t))
    (hs : ∀ t ∈ dir, t.nbytes = nb t.type t.ne) (ha : AlignedAs kv 32) (rest : List Nat) :
    readGguf nb ok (preamble kv dir.length ++ (dir.map record).flatMap infoBytes ++ rest) =
      .ok (some ⟨kv, dir, (metaData 32 (preamble kv dir.length) (dir.map record)).length⟩) := by
  have h1 := read_any nb (infos := dir.map record) hk (by rw [List.length_map]; exact hc)
    (fun i hi' => by
      obtain ⟨t, ht, rfl⟩ := List.mem_map.1 hi'
      exact hi t ht) ha (by omega) rest
  rw [List.length_map] at h1
  rw [h1]
  have h2 : (dir.map record).map (back nb) = dir := by
    rw [List.map_map]
    refine (List.map_congr_left fun t ht => ?_).trans (List.map_id _)
    simp [back, record, ← hs t ht]
  have h3 : readerOffset 32 (preamble kv dir.length) (dir.map record) =
      (metaData 32 (preamble kv dir.length) (dir.map record)).length := by
    have hval := Quantize.metaSize_val 32 (by omega) (preamble kv dir.length) (dir.map record)
    unfold Quantize.metaSize at hval
    rw [hval]
    unfold readerOffset
    rw [Quantize.up_eq, List.length_append, List.length_flatMap]
  rw [h2, h3]

theorem written_read {nb : Nat → List Nat → Nat} {ok : Nat → List Nat → Bool} {kv : List (List Nat × Kv)}
    {dir : List TInfo} (hk : MetaOk kv) (hc : dir.length < 2 ^ 64) (hi : ∀ t ∈ dir, InfoOk ok (record t))
    (hs : ∀ t ∈ dir, t.nbytes = nb t.type t.ne) (ha : AlignedAs kv 32) (rest : List Nat) :
    readGguf nb ok (metaData 32 (preamble kv dir.length) (dir.map record) ++ rest) =
      .ok (some ⟨kv, dir, (metaData 32 (preamble kv dir.length) (dir.map record)).length⟩) := by
  rw [← written_any hk hc hi hs ha]
  conv => lhs; unfold metaData
  rw [List.append_assoc _ _ rest]

theorem flat_ge {l : List β} {f : β → List Nat} (h : ∀ x, 0 < (f x).length) : l.length ≤ (l.flatMap f).length := by
  induction l with
  | nil => simp
  | cons x l ih =>
    rw [List.flatMap_cons, List.length_append, List.length_cons]
    have := h x
    omega

/-- A file is longer than its lists. -/
theorem counts_le (aw : Nat) (kv : List (List Nat × Kv)) (n : Nat) (infos : List Info) :
    kv.length ≤ (metaData aw (preamble kv n) infos).length ∧ infos.length ≤ (metaData aw (preamble kv n) infos).length := by
  have h1 := flat_ge (l := kv) (f := entryBytes) fun x => by
    simp only [entryBytes, strBytes, List.length_append, le_length]; omega
  have h2 := flat_ge (l := infos) (f := Quantize.infoBytes) fun x => by
    simp only [Quantize.infoBytes, List.length_append, le_length]; omega
  unfold metaData preamble
  simp only [List.length_append]
  omega

theorem quant_meta {kv : List (List Nat × Kv)} (h : MetaOk kv) (hk : (kv.map (·.1)).Nodup)
    {ver qtype : Nat} (hv : ver < 2 ^ 32) (hq : qtype < 19) (hl : (Quantize.quantKv ver qtype kv).length < 2 ^ 64) : MetaOk (Quantize.quantKv ver qtype kv) := by
  have hc : Quantize.copyKv kv [] = kv := Quantize.copyKv_eq kv [] hk
  have hmem : ∀ p ∈ Quantize.quantKv ver qtype kv, p ∈ kv ∨ p = (ascii "general.quantization_version", .u32 ver) ∨
      p = (ascii "general.file_type", .u32 qtype) := by
    intro p hp
    unfold Quantize.quantKv at hp
    rw [hc] at hp
    rcases Convert.setKey_mem hp with hp | hp
    · rcases Convert.setKey_mem hp with hp | hp
      · exact .inl hp
      · exact .inr (.inl hp)
    · exact .inr (.inr hp)
  refine ⟨hl, fun p hp => ?_, fun p hp => ?_⟩
  · rcases hmem p hp with hp | rfl | rfl
    · exact h.keys p hp
    · show (ascii "general.quantization_version").length < 2 ^ 64
      decide +kernel
    · show (ascii "general.file_type").length < 2 ^ 64
      decide +kernel
  · rcases hmem p hp with hp | rfl | rfl
    · exact h.values p hp
    · exact hv
    · show qtype < 2 ^ 32
      omega

theorem described_ok {g : Gguf} {qtype : Nat} {infos : List Info} (h : Convert.Described g qtype infos) (hq : qtype < 19)
    {ok : Nat → List Nat → Bool} (hi : ∀ t ∈ g.dir, InfoOk ok (record t))
    (hm : ∀ t ∈ g.dir, t.ndims = 2 → (∃ x, t.name = x ++ ascii "weight") → ok qtype t.ne = true)
    (hb : (infos.map fun e => up 32 e.size).sum < 2 ^ 64) : ∀ e ∈ infos, InfoOk ok e := by
  intro e he
  obtain ⟨t, ht, e1, e2, e3, e4⟩ := h.entries e he
  have hr := hi t ht
  refine ⟨by rw [e1]; exact hr.name, by rw [e2, e3]; exact hr.dims, by rw [e3]; exact hr.ne, ?_,
    Nat.lt_of_le_of_lt (h.offsets e he) hb, ?_⟩
  · rcases e4 with e4 | ⟨_, _, e4⟩
    · rw [e4]; exact hr.type
    · omega
  · rcases e4 with e4 | ⟨e5, e6, e4⟩
    · rw [e4, e3]; exact hr.accepted
    · rw [e4, e3]; exact hm t ht e5 e6

/-- The file of the converter, with the header computed. -/
theorem convert_header (enc : Bool → List α → List Nat) (f16 : Bool) (header : List Nat) (s : Convert.Source α) :
    Convert.convert enc f16 header s =
      (Convert.convert enc f16 [] s).map fun r => (⟨r.1.kv, r.1.dir, header.length⟩, header ++ r.2) := by
  unfold Convert.convert
  have key : ∀ x : Option (String × List (List Nat × Kv)), (do
      let (arch, kv) ← x
      let vocab ← Convert.writeVocab s.config s.tok
      let merge ← Convert.writeMerge s.tok
      let ts := vocab ++ merge ++ Convert.stateTensors enc f16 s.state ++ Convert.lmTensors enc f16 s.cls s.lm
      if (ts.map (·.name)).Nodup then
        pure ((⟨[(ascii "general.architecture", Kv.str (ascii arch)), (ascii "general.name", .str s.name),
            (ascii "general.alignment", .u32 32)] ++ kv ++ [(ascii "general.file_type", .u32 (if f16 then 1 else 0))],
          Convert.directory 0 ts, header.length⟩, header ++ Convert.dataBytes ts) : Gguf × List Nat)
      else none) = Option.map (fun r : Gguf × List Nat => ((⟨r.1.kv, r.1.dir, header.length⟩ : Gguf), header ++ r.2)) (do
      let (arch, kv) ← x
      let vocab ← Convert.writeVocab s.config s.tok
      let merge ← Convert.writeMerge s.tok
      let ts := vocab ++ merge ++ Convert.stateTensors enc f16 s.state ++ Convert.lmTensors enc f16 s.cls s.lm
      if (ts.map (·.name)).Nodup then
        pure (⟨[(ascii "general.architecture", Kv.str (ascii arch)), (ascii "general.name", .str s.name),
            (ascii "general.alignment", .u32 32)] ++ kv ++ [(ascii "general.file_type", .u32 (if f16 then 1 else 0))],
          Convert.directory 0 ts, ([] : List Nat).length⟩, [] ++ Convert.dataBytes ts)
      else none) := by
    intro x
    cases x with
    | none => rfl
    | some x =>
      cases Convert.writeVocab s.config s.tok with
      | none => rfl
      | some v =>
        cases Convert.writeMerge s.tok with
        | none => rfl
        | some m =>
          simp only [Option.bind_eq_bind, Option.bind_some]
          split <;> simp
  exact key _

theorem data_le {ts : List Convert.Tensor} {x : Convert.Tensor} (h : x ∈ ts) : x.data.length ≤ (Convert.dataBytes ts).length := by
  induction ts with
  | nil => cases h
  | cons t ts ih =>
    simp only [Convert.dataBytes, List.length_append]
    rcases List.mem_cons.1 h with rfl | h
    · omega
    · have := ih h
      omega

theorem prod_ge {l : List Nat} {n : Nat} (h : n ∈ l) (h0 : 0 < l.foldl (· * ·) 1) : n ≤ l.foldl (· * ·) 1 := by
  have key : ∀ (l : List Nat) (a : Nat), l.foldl (· * ·) a = a * l.foldl (· * ·) 1 := by
    intro l
    induction l with
    | nil => intro a; simp
    | cons x l ih => intro a; simp only [List.foldl_cons]; rw [ih (a * x), ih (1 * x)]; simp [Nat.mul_assoc]
  induction l with
  | nil => cases h
  | cons x l ih =>
    simp only [List.foldl_cons, Nat.one_mul] at h0 ⊢
    rw [key] at h0 ⊢
    have h1 : 0 < x := Nat.pos_of_mul_pos_right h0
    have h2 : 0 < l.foldl (· * ·) 1 := Nat.pos_of_mul_pos_left h0
    rcases List.mem_cons.1 h with rfl | h
    · exact Nat.le_mul_of_pos_right _ h2
    · exact Nat.le_trans (ih h h2) (Nat.le_mul_of_pos_left _ h1)

theorem words_length (l : List Nat) : (l.flatMap (Quantize.le 4)).length = 4 * l.length := by
  induction l with
  | nil => rfl
  | cons a l ih => rw [List.flatMap_cons, List.length_append, ih, le_length, List.length_cons]; omega

open Convert in
theorem file_infos {s : Source α} {enc : Bool → List α → List Nat} {dec : Nat → List Nat → List α}
    {rnd : Bool → α → α} {f16 : Bool} {chunk : Nat → List α → Option (List Nat)} {qz : List α → List α} {qtype : Nat}
    {nb : Nat → List Nat → Nat} (hcls : s.cls = .bert ∨ s.cls = .roberta) (hst : StateOk s.config s.state)
    (hlm : HeadOk s.cls s.lm) {m : List Convert.Tensor} (hm : MergeFile m)
    (hq : QuantOk s enc dec rnd f16 chunk qz qtype nb) {ok : Nat → List Nat → Bool} (hf : FormatOk s ok qtype)
    {ls ds header : List Nat} {kv : List (List Nat × Kv)}
    (hn : Load.NamesOk ⟨kv, directory 0 (fileTensors ls ds m enc f16 s), header.length⟩)
    (ho : ∀ t ∈ directory 0 (fileTensors ls ds m enc f16 s), header.length + t.offset < 2 ^ 64)
    (hb : (dataBytes (fileTensors ls ds m enc f16 s)).length < 2 ^ 63) :
    (∀ t ∈ directory 0 (fileTensors ls ds m enc f16 s), InfoOk ok (record t)) ∧
    ∀ t ∈ directory 0 (fileTensors ls ds m enc f16 s), t.ndims = 2 → (∃ x, t.name = x ++ ascii "weight") →
      ok qtype t.ne = true := by
  have hcase : ∀ x ∈ fileTensors ls ds m enc f16 s,
      (∃ n, x.ne = [n] ∧ n ≤ x.data.length ∧ (x.type = 16 ∨ x.type = 18)) ∨
      ∃ p name, p ∈ s.state ++ s.lm ∧ Tame p.shape ∧ x = convTensor enc f16 name p := by
    intro x hx
    rcases file_cases hcls hst hlm hm hq hx with _ | ⟨p, name, h1, h2, h3, _⟩
    · unfold fileTensors at hx
      rw [List.mem_append, List.mem_append, List.mem_append] at hx
      rcases hx with ((hx | hx) | hx) | hx
      · simp only [List.mem_cons, List.not_mem_nil, or_false] at hx
        rcases hx with rfl | rfl
        · exact .inl ⟨_, rfl, Nat.le_refl _, .inl rfl⟩
        · exact .inl ⟨_, rfl, Nat.le_refl _, .inl rfl⟩
      · rcases hm with rfl | ⟨l, rfl⟩
        · cases hx
        · rw [List.mem_singleton] at hx
          subst hx
          refine .inl ⟨_, rfl, ?_, .inr rfl⟩
          have := words_length l
          show l.length ≤ (l.flatMap (le 4)).length
          omega
      · obtain ⟨p, hp, rfl⟩ := List.mem_map.1 hx
        exact .inr ⟨p, _, List.mem_append_left _ hp, hst.tame p hp, rfl⟩
      · obtain ⟨p, hp, rfl⟩ := List.mem_map.1 hx
        have hp := (List.mem_filter.1 hp).1
        exact .inr ⟨p, _, List.mem_append_right _ hp, hlm.tame p hp, rfl⟩
    · exact .inr ⟨p, name, h1, h2, h3⟩
  refine ⟨fun t ht => ?_, fun t ht h2 hw => ?_⟩
  · obtain ⟨x, hx, e1, e2, e3, e4, e5⟩ := directory_entry _ _ _ ht
    have hname : t.name.length < 64 := hn.2 t ht
    have hoff := ho t ht
    have hdata := data_le hx
    rcases hcase x hx with ⟨n, h1, h2, h3⟩ | ⟨p, name, h1, h2, h3⟩
    · refine ⟨?_, ?_, ?_, ?_, ?_, ?_⟩
      · show t.name.length < _; omega
      · show t.ne.length = t.ndims ∧ t.ndims ≤ 4
        rw [e2, e3, h1]; simp
      · show ∀ n ∈ t.ne, _
        rw [e3, h1]
        intro k hk
        rw [List.mem_singleton] at hk
        omega
      · show t.type < _; omega
      · show t.offset < _; omega
      · show ok t.type t.ne = true
        refine hf.plain _ ?_ _ ?_
        · rw [e4]; rcases h3 with h3 | h3 <;> simp [h3]
        · rw [e3, h1]
          simp only [List.foldl_cons, List.foldl_nil]
          omega
    · have hprod : x.ne.foldl (· * ·) 1 = p.elems.length := by
        rw [h3, hq.elems p h1, ← (tame_prod h2).1]
        rfl
      have hlen : p.elems.length ≤ x.data.length := by
        have : x.data.length = (if Half f16 p then 2 else 4) * p.elems.length := by
          rw [h3]
          unfold convTensor
          simp only [half_eq f16 h2, hq.bytes]
        rw [this]
        split <;> omega
      have hty : x.type = 0 ∨ x.type = 1 := by
        rw [h3]
        unfold convTensor
        simp only
        split
        · exact .inr rfl
        · exact .inl rfl
      have hdims : x.ne.length ≤ 2 := by
        rw [h3]
        unfold convTensor squeeze
        simp only [List.length_reverse]
        refine Nat.le_trans (List.length_filter_le _ _) ?_
        rcases h2 with ⟨n, _, e⟩ | ⟨a, b, _, _, e⟩ <;> simp [e]
      have hpos : 0 < x.ne.foldl (· * ·) 1 := by
        rw [hprod, hq.elems p h1]
        rcases h2 with ⟨n, h, e⟩ | ⟨a, b, h, h', e⟩
        · rw [e]; simp; omega
        · rw [e]; simp only [List.foldl_cons, List.foldl_nil, Nat.one_mul]; exact Nat.mul_pos (by omega) (by omega)
      refine ⟨?_, ?_, ?_, ?_, ?_, ?_⟩
      · show t.name.length < _; omega
      · show t.ne.length = t.ndims ∧ t.ndims ≤ 4
        rw [e2, e3]; exact ⟨rfl, by omega⟩
      · show ∀ n ∈ t.ne, _
        rw [e3]
        intro k hk
        have := prod_ge hk hpos
        omega
      · show t.type < _; omega
      · show t.offset < _; omega
      · show ok t.type t.ne = true
        refine hf.plain _ ?_ _ ?_
        · rw [e4]; rcases hty with h | h <;> simp [h]
        · rw [e3, hprod]; omega
  · obtain ⟨x, hx, e1, e2, e3, _⟩ := directory_entry _ _ _ ht
    rcases file_cases hcls hst hlm hm hq hx with ⟨h, _⟩ | ⟨p, name, h1, h3, h4, h5, _⟩
    · omega
    · have hw' : ascii "weight" <:+ p.key := by
        refine h5.1 ?_
        obtain ⟨y, hy⟩ := hw
        exact ⟨y, by rw [← hy, e1, h4]; rfl⟩
      have hlen2 : (squeeze p.shape).length = 2 := by
        have := h2
        rw [e2, h4] at this
        simpa [convTensor] using this
      have hwide : wide p.shape = true := by
        rw [← (tame_ne h3).2.2.2.2]
        simp [hlen2]
      rw [e3, h4]
      show ok qtype (squeeze p.shape).reverse = true
      rw [(tame_prod h3).2 hwide]
      refine hf.matrices p h1 ?_
      unfold Reduced
      rw [hwide, Bool.true_and, List.isSuffixOf_iff_suffix]
      exact hw'

end Berts.FileFormat
