import Verif.Spec.Grammar
import Verif.Proofs.FileFormat

/-! # Reading files with any contents -/

namespace Berts.FileFormat

open Berts.Load (Kv TInfo Gguf World HasU32 NoKey)
open Berts.Vocab (ascii)
open Berts.Quantize (Info le infoBytes AlignedAs up)
open Berts.Spec (Each)

variable {α β γ : Type}

/-- On bytes, the reader ends without undefined behaviour, and a value it returns is related to the bytes consumed. -/
def Gives (P : List Nat → β → Prop) (r : Rd β) : Prop :=
  ∀ b, Octets b → r b = .ok none ∨ r b = .abort ∨ ∃ u c x, b = u ++ c ∧ r b = .ok (some (x, c)) ∧ P u x

theorem Gives.pure {P : List Nat → β → Prop} {x : β} (h : P [] x) : Gives P (Pure.pure x : Rd β) :=
  fun b _ => .inr (.inr ⟨[], b, x, rfl, rfl, h⟩)

theorem Gives.bind {P : List Nat → β → Prop} {Q : List Nat → γ → Prop} {r : Rd β} {f : β → Rd γ} (h : Gives P r)
    (h' : ∀ u x, P u x → Gives (fun v y => Q (u ++ v) y) (f x)) : Gives Q (r >>= f) := by
  intro b hb
  show Res.bind (r b) _ = _ ∨ Res.bind (r b) _ = _ ∨ ∃ u c x, _ ∧ Res.bind (r b) _ = _ ∧ _
  rcases h b hb with e | e | ⟨u, c, x, rfl, e, hx⟩
  · rw [e]; exact .inl rfl
  · rw [e]; exact .inr (.inl rfl)
  · rw [e]
    rcases h' u x hx c (fun y hy => hb y (by simp [hy])) with e | e | ⟨v, d, y, rfl, e, hy⟩
    · exact .inl e
    · exact .inr (.inl e)
    · exact .inr (.inr ⟨u ++ v, d, y, by simp, e, hy⟩)

theorem gives_up {P : List Nat → β → Prop} : Gives P (giveUp : Rd β) := fun _ _ => .inl rfl

theorem gives_stop {P : List Nat → β → Prop} : Gives P (stop : Rd β) := fun _ _ => .inr (.inl rfl)

theorem gives_take (k : Nat) : Gives (fun u x => u = x ∧ x.length = k ∧ Octets x) (take k) := by
  intro b hb
  by_cases h : k ≤ b.length
  · exact .inr (.inr ⟨b.take k, b.drop k, b.take k, by simp, by simp [take, h], rfl, by simp [h],
      fun x hx => hb x (List.mem_of_mem_take hx)⟩)
  · exact .inl (by simp [take, h])

theorem le_unle {b : List Nat} (h : Octets b) : unle b < 256 ^ b.length ∧ le b.length (unle b) = b := by
  induction b with
  | nil => exact ⟨by decide, rfl⟩
  | cons x b ih =>
    have h1 := h x (by simp)
    have h2 := ih fun y hy => h y (by simp [hy])
    rw [unle, List.length_cons, Nat.pow_succ, le]
    have h3 : (x + 256 * unle b) % 256 = x := by omega
    have h4 : (x + 256 * unle b) / 256 = unle b := by omega
    rw [h3, h4, h2.2]
    exact ⟨by omega, rfl⟩

theorem gives_num (k : Nat) : Gives (fun u n => n < 256 ^ k ∧ u = le k n) (num k) :=
  (gives_take k).bind fun u x ⟨e, hl, ho⟩ => .pure (by
    have := le_unle ho
    rw [hl] at this
    exact ⟨this.1, by rw [List.append_nil, e]; exact this.2.symm⟩)

theorem gives_str : Gives (fun u s => s.length < 2 ^ 64 ∧ u = strBytes s) str :=
  (gives_num 8).bind fun u n ⟨hn, e⟩ => fun b hb => by
    rcases gives_take n b hb with e' | e' | ⟨v, c, x, e1, e2, e3, e4, _⟩
    · exact .inl e'
    · exact .inr (.inl e')
    · exact .inr (.inr ⟨v, c, x, e1, e2, by rw [e4]; exact hn, by rw [e, e3, strBytes, e4]⟩)

theorem gives_many {P : List Nat → β → Prop} {r : Rd β} (h : Gives P r) (n : Nat) :
    Gives (fun u l => l.length = n ∧ ∃ us, u = us.flatten ∧ Each (fun x u => P u x) l us) (many r n) := by
  induction n with
  | zero => exact .pure ⟨rfl, [], rfl, trivial⟩
  | succ n ih =>
    refine h.bind fun u x hx => ih.bind fun v l ⟨hl, us, e, hus⟩ => .pure ⟨by simp [hl], u :: us, ?_, hx, hus⟩
    simp [e]

theorem each_map {Q : β → Prop} {f : β → List Nat} {l : List β} {us : List (List Nat)}
    (h : Each (fun x u => Q x ∧ u = f x) l us) : us = l.map f ∧ ∀ x ∈ l, Q x := by
  induction l generalizing us with
  | nil => cases us with
    | nil => exact ⟨rfl, by simp⟩
    | cons _ _ => exact h.elim
  | cons s x ih => cases us with
    | nil => exact h.elim
    | cons u us =>
      obtain ⟨i1, i2⟩ := ih h.2
      refine ⟨by rw [i1, h.1.2]; rfl, fun y hy => ?_⟩
      rcases List.mem_cons.1 hy with rfl | hy
      · exact h.1.1
      · exact i2 y hy

theorem gives_value : Gives (fun u v => ValueAs v u) value := by
  unfold value
  refine (gives_num 4).bind fun u type ⟨ht, eu⟩ => ?_
  subst eu
  split
  · rename_i e; subst e
    exact (gives_num 4).bind fun u n ⟨hn, e⟩ => .pure (by rw [e, List.append_nil]; exact .u32 hn)
  split
  · rename_i e; subst e
    exact (gives_num 8).bind fun u n ⟨hn, e⟩ => .pure (by rw [e, List.append_nil]; exact .f64 hn)
  split
  · rename_i e; subst e
    refine (gives_num 1).bind fun u n ⟨hn, e⟩ => .pure ?_
    have e : u = [n] := by rw [e]; simp [le]; omega
    rw [e, List.append_nil]
    by_cases h0 : n = 0
    · subst h0; exact .no
    · have := ValueAs.yes (n := n) ⟨by omega, by omega⟩
      simpa [h0] using this
  split
  · rename_i e; subst e
    exact gives_str.bind fun u s ⟨hs, e⟩ => .pure (by rw [e, List.append_nil]; exact .str hs)
  split
  · rename_i e; subst e
    refine (gives_num 4).bind fun u t ⟨_, e1⟩ => (gives_num 8).bind fun v n ⟨hn, e2⟩ => ?_
    split
    · rename_i w hw
      refine (gives_take _).bind fun d x ⟨e3, hl, _⟩ => .pure ?_
      rw [e1, e2, e3, List.append_nil]
      exact .other (.array ((width_iff _ _).1 hw) hn hl)
    · split
      · rename_i e; subst e
        refine (gives_many gives_str n).bind fun d x ⟨hl, us, e3, hus⟩ => .pure ?_
        have : us = x.map strBytes ∧ ∀ s ∈ x, s.length < 2 ^ 64 := each_map hus
        rw [e1, e2, e3, this.1, List.append_nil, ← List.flatMap_def]
        have hl' : n = x.length := hl.symm
        subst hl'
        exact .other (.strings hn this.2)
      · exact gives_stop
  · split
    · rename_i h1 h2 h3 h4 h5 _ w hw
      refine (gives_take _).bind fun d x ⟨e, hl, _⟩ => .pure ?_
      rw [e, List.append_nil]
      exact .other (.scalar ((width_iff _ _).1 hw) (by simp; omega) hl)
    · exact gives_stop

theorem gives_entry : Gives (fun u p => EntryAs p u) entry :=
  gives_str.bind fun _ _ ⟨hk, e⟩ => gives_value.bind fun v _ hv => .pure ⟨hk, v, hv, by rw [e, List.append_nil]⟩

theorem gives_info (nb : Nat → List Nat → Nat) (ok : Nat → List Nat → Bool) :
    Gives (fun u t => (InfoOk ok (record t) ∧ t.nbytes = nb t.type t.ne) ∧ u = infoBytes (record t)) (info nb ok) := by
  unfold info
  refine gives_str.bind fun u1 name ⟨hn, e1⟩ => (gives_num 4).bind fun u2 ndims ⟨_, e2⟩ => ?_
  split
  · rename_i hd
    refine (gives_many (gives_num 8) ndims).bind fun u3 ne ⟨hl, us, e3, hus⟩ => (gives_num 4).bind fun u4 type ⟨ht, e4⟩ =>
      (gives_num 8).bind fun u5 offset ⟨ho, e5⟩ => ?_
    have hne : us = ne.map (le 8) ∧ ∀ n ∈ ne, n < 2 ^ 64 := each_map hus
    split
    · rename_i hok
      refine .pure ⟨⟨⟨hn, ⟨hl, hd⟩, hne.2, ht, ho, hok⟩, rfl⟩, ?_⟩
      rw [e1, e2, e3, e4, e5, hne.1, ← List.flatMap_def]
      simp [infoBytes, record, strBytes]
    · exact gives_up
  · exact gives_up

theorem gives_contents (nb : Nat → List Nat → Nat) (ok : Nat → List Nat → Bool) :
    Gives (fun u p => ∀ rest, FileAs nb ok (u ++ rest) p.1 p.2 rest) (contents nb ok) := by
  unfold contents
  refine (gives_take 4).bind fun u1 m ⟨e1, _⟩ => ?_
  split
  · rename_i em
    refine (gives_num 4).bind fun u2 version ⟨hv, e2⟩ => ?_
    split
    · exact gives_up
    · rename_i h1
      refine (gives_num 8).bind fun u3 nt ⟨ht, e3⟩ => (gives_num 8).bind fun u4 nk ⟨hk, e4⟩ =>
        (gives_many gives_entry nk).bind fun u5 kv ⟨hkl, us, e5, hus⟩ =>
        (gives_many (gives_info nb ok) nt).bind fun u6 dir ⟨hdl, vs, e6, hvs⟩ => .pure fun rest => ?_
      have hdir : vs = dir.map (fun t => infoBytes (record t)) ∧
          ∀ t ∈ dir, InfoOk ok (record t) ∧ t.nbytes = nb t.type t.ne := each_map hvs
      subst hkl hdl
      refine ⟨version, us, h1, hv, ht, hk, hus, hdir.2, ?_⟩
      rw [e1, em, e2, e3, e4, e5, e6, hdir.1, ← List.flatMap_def]
      simp
  · exact gives_up

/-! ## All files of the grammar are read -/

/-- The reader consumes exactly these bytes and gives this value. -/
def Yields (r : Rd β) (u : List Nat) (x : β) : Prop := ∀ rest, r (u ++ rest) = .ok (some (x, rest))

theorem Yields.bind {r : Rd β} {f : β → Rd γ} {u v : List Nat} {x : β} {y : γ} (h : Yields r u x) (h' : Yields (f x) v y) :
    Yields (r >>= f) (u ++ v) y := by
  intro rest
  show Res.bind (r (u ++ v ++ rest)) _ = _
  rw [List.append_assoc, h (v ++ rest)]
  exact h' rest

theorem Yields.last {r : Rd β} {f : β → γ} {u : List Nat} {x : β} (h : Yields r u x) :
    Yields (r >>= fun x => Pure.pure (f x)) u (f x) := by
  have := h.bind (f := fun x => Pure.pure (f x)) (v := []) (y := f x) (fun _ => rfl)
  rwa [List.append_nil] at this

theorem yields_take {k : Nat} {d : List Nat} (h : d.length = k) : Yields (take k) d d := h ▸ (reads_take d).1

theorem yields_num {k n : Nat} (h : n < 256 ^ k) : Yields (num k) (le k n) n := (reads_num h).1

theorem yields_str {s : List Nat} (h : s.length < 2 ^ 64) : Yields str (strBytes s) s := (reads_str h).1

theorem yields_many {r : Rd β} {l : List β} {us : List (List Nat)} (h : Each (fun x u => Yields r u x) l us) :
    Yields (many r l.length) us.flatten l := by
  induction l generalizing us with
  | nil => cases us with
    | nil => exact fun _ => rfl
    | cons _ _ => exact h.elim
  | cons x l ih => cases us with
    | nil => exact h.elim
    | cons u us => exact h.1.bind ((ih h.2).last (f := (x :: ·)))

theorem each_of_map {R : β → List Nat → Prop} {f : β → List Nat} {l : List β} (h : ∀ x ∈ l, R x (f x)) :
    Each R l (l.map f) := by
  induction l with
  | nil => trivial
  | cons x l ih => exact ⟨h x (by simp), ih fun y hy => h y (by simp [hy])⟩

theorem each_imp {R S : β → List Nat → Prop} {l : List β} {us : List (List Nat)} (h : Each R l us)
    (hi : ∀ x u, R x u → S x u) : Each S l us := by
  induction l generalizing us with
  | nil => cases us with
    | nil => trivial
    | cons _ _ => exact h.elim
  | cons x l ih => cases us with
    | nil => exact h.elim
    | cons u us => exact ⟨hi _ _ h.1, ih h.2⟩

theorem yields_value {v : Kv} {u : List Nat} (h : ValueAs v u) : Yields value u v := by
  cases h with
  | u32 h => exact (reads_value (v := .u32 _) h).1
  | f64 h => exact (reads_value (v := .f64 _) h).1
  | no => exact (reads_value (v := .bool false) trivial).1
  | yes h =>
    rename_i n
    refine (yields_num (k := 4) (n := 7) (by decide)).bind ?_
    simp only
    rw [if_neg (by decide), if_neg (by decide), if_pos trivial]
    have h1 : le 1 n = [n] := by simp [le]; omega
    have := (yields_num (k := 1) (n := n) (by omega)).last (f := fun n => Kv.bool (n ≠ 0))
    rw [h1] at this
    have h0 : n ≠ 0 := by omega
    simpa [h0] using this
  | str h => exact (reads_value (v := .str _) h).1
  | other h => exact (reads_value (v := .other _) h).1

theorem yields_entry {p : List Nat × Kv} {u : List Nat} (h : EntryAs p u) : Yields entry u p := by
  obtain ⟨hk, v, hv, rfl⟩ := h
  exact (yields_str hk).bind ((yields_value hv).last (f := fun v => (p.1, v)))

theorem yields_info {nb : Nat → List Nat → Nat} {ok : Nat → List Nat → Bool} {t : TInfo} (h : InfoOk ok (record t))
    (hs : t.nbytes = nb t.type t.ne) : Yields (info nb ok) (infoBytes (record t)) t := by
  have h1 := (reads_info nb h).1
  have : back nb (record t) = t := by
    unfold back record
    simp only
    rw [← hs]
  rwa [this] at h1

theorem contents_of {nb : Nat → List Nat → Nat} {ok : Nat → List Nat → Bool} {file : List Nat}
    {kv : List (List Nat × Kv)} {dir : List TInfo} {rest : List Nat} (h : FileAs nb ok file kv dir rest) :
    contents nb ok file = .ok (some ((kv, dir), rest)) := by
  obtain ⟨version, entries, h1, hv, hd, hk, he, hi, rfl⟩ := h
  have key : Yields (contents nb ok) (ascii "GGUF" ++ (le 4 version ++ (le 8 dir.length ++ (le 8 kv.length ++
      (entries.flatten ++ dir.flatMap (fun t => infoBytes (record t))))))) (kv, dir) := by
    unfold contents
    refine (yields_take (by decide)).bind ?_
    simp only [if_true]
    refine (yields_num (k := 4) hv).bind ?_
    rw [if_neg h1]
    refine (yields_num (k := 8) hd).bind ((yields_num (k := 8) hk).bind
      ((yields_many (each_imp he fun _ _ => yields_entry)).bind ?_))
    rw [List.flatMap_def]
    exact (yields_many (each_of_map fun t h => yields_info (hi t h).1 (hi t h).2)).last (f := fun dir => (kv, dir))
  have := key rest
  simpa using this

/-- A file begins in one way only. -/
theorem contents_iff {nb : Nat → List Nat → Nat} {ok : Nat → List Nat → Bool} {file : List Nat} (h : Octets file)
    {kv : List (List Nat × Kv)} {dir : List TInfo} {rest : List Nat} :
    contents nb ok file = .ok (some ((kv, dir), rest)) ↔ FileAs nb ok file kv dir rest := by
  refine ⟨fun e => ?_, contents_of⟩
  rcases gives_contents nb ok file h with e' | e' | ⟨u, c, x, hu, e', hx⟩
  · rw [e] at e'; cases e'
  · rw [e] at e'; cases e'
  · rw [e] at e'
    injection e' with e'
    injection e' with e'
    injection e' with e1 e2
    subst e1 e2
    rw [hu]
    exact hx rest

theorem up_unique {a n m : Nat} (h0 : 0 < a) (h1 : m % a = 0) (h2 : n ≤ m) (h3 : m < n + a) : m = up a n := by
  have hr := round_up (n := n) (a := a) (by omega)
  rw [← hr]
  have hm := Nat.mod_lt n h0
  have hdm := Nat.div_add_mod m a
  have hdn := Nat.div_add_mod n a
  rw [h1] at hdm
  have hle : n / a ≤ m / a := Nat.div_le_div_right h2
  have hlt : m / a < n / a + 2 := by
    apply Nat.lt_of_mul_lt_mul_left (a := a)
    rw [Nat.mul_add]
    omega
  have : m / a = n / a ∨ m / a = n / a + 1 := by omega
  rcases this with e | e
  · rw [e] at hdm
    split <;> omega
  · rw [e, Nat.mul_add] at hdm
    split <;> omega

theorem read_iff (nb : Nat → List Nat → Nat) (ok : Nat → List Nat → Bool) {file : List Nat} (h : Octets file) :
    (∀ g, readGguf nb ok file = .ok (some g) ↔ ∃ a rest, FileAs nb ok file g.kv g.dir rest ∧ AlignedAs g.kv a ∧ 0 < a ∧
      g.dataOffset % a = 0 ∧ file.length - rest.length ≤ g.dataOffset ∧ g.dataOffset < file.length - rest.length + a) ∧
    (readGguf nb ok file = .ub ↔ ∃ kv dir rest, FileAs nb ok file kv dir rest ∧ AlignedAs kv 0) ∧
    readGguf nb ok file ≠ .hang := by
  have unique : ∀ {kv dir rest kv' dir' rest'}, contents nb ok file = .ok (some ((kv, dir), rest)) →
      FileAs nb ok file kv' dir' rest' → kv' = kv ∧ dir' = dir ∧ rest' = rest := by
    intro kv dir rest kv' dir' rest' e h'
    have := contents_of h'
    rw [e] at this
    injection this with this
    injection this with this
    injection this with e1 e2
    injection e1 with e3 e4
    exact ⟨e3.symm, e4.symm, e2.symm⟩
  have refused : (∀ p, contents nb ok file ≠ .ok (some p)) →
      ∀ kv dir rest, ¬ FileAs nb ok file kv dir rest := fun hc kv dir rest h' => hc _ (contents_of h')
  unfold readGguf
  rcases gives_contents nb ok file h with e | e | ⟨u, c, ⟨kv, dir⟩, hu, e, hx⟩
  · rw [e]
    have := refused (by rw [e]; intro p h; cases h)
    exact ⟨fun g => ⟨fun h => (by cases h), fun ⟨a, rest, h, _⟩ => absurd h (this _ _ _)⟩,
      ⟨fun h => (by cases h), fun ⟨_, _, _, h, _⟩ => absurd h (this _ _ _)⟩, by intro h; cases h⟩
  · rw [e]
    have := refused (by rw [e]; intro p h; cases h)
    exact ⟨fun g => ⟨fun h => (by cases h), fun ⟨a, rest, h, _⟩ => absurd h (this _ _ _)⟩,
      ⟨fun h => (by cases h), fun ⟨_, _, _, h, _⟩ => absurd h (this _ _ _)⟩, by intro h; cases h⟩
  · have hfile := (contents_iff h).1 e
    rw [e]
    simp only [Res.bind]
    by_cases ha : ∃ a, AlignedAs kv a
    · obtain ⟨a, ha⟩ := ha
      by_cases h0 : a = 0
      · subst h0
        have hal : alignment kv = .ub := by
          rcases ha with ⟨x, y, h2, h3⟩ | ⟨_, h2⟩
          · have : kv.find? (·.1 == ascii "general.alignment") = some (ascii "general.alignment", .u32 0) := by
              rw [List.find?_eq_some_iff_append]
              exact ⟨by simp, x, y, h2, fun p hp => by simpa using h3 p hp⟩
            simp [alignment, this]
          · cases h2
        rw [hal]
        refine ⟨fun g => ⟨fun h => (by cases h), fun ⟨b, rest, h1, h2, h3, _⟩ => ?_⟩, ⟨fun _ => ⟨kv, dir, c, hfile, ha⟩,
          fun _ => rfl⟩, by intro h; cases h⟩
        obtain ⟨e1, _⟩ := unique e h1
        rw [e1] at h2
        have := aligned_unique h2 ha (by omega)
        omega
      · rw [alignment_as ha h0]
        simp only
        rw [round_up h0]
        refine ⟨fun g => ⟨fun h => ?_, fun ⟨b, rest, h1, h2, h3, h4, h5, h6⟩ => ?_⟩, ⟨fun h => (by cases h),
          fun ⟨_, _, _, h1, h2⟩ => ?_⟩, by intro h; cases h⟩
        · injection h with h
          injection h with h
          subst h
          refine ⟨a, c, hfile, ha, by omega, Nat.mul_mod_left _ _, ?_, ?_⟩
          · simp only
            rw [← round_up h0]
            split <;> omega
          · simp only
            rw [← round_up h0]
            have := Nat.mod_lt (file.length - c.length) (Nat.pos_of_ne_zero h0)
            split <;> omega
        · obtain ⟨e1, e2, e3⟩ := unique e h1
          rw [e1] at h2
          have := aligned_unique ha h2 h0
          subst this
          have := up_unique h3 h4 h5 h6
          rw [e3] at this
          cases g
          simp only at e1 e2 this
          rw [e1, e2, this]
        · obtain ⟨e1, _⟩ := unique e h1
          rw [e1] at h2
          exact absurd (aligned_unique ha h2 h0).symm h0
    · have hal : alignment kv = .abort := by
        unfold alignment
        split
        · rename_i hn
          exact absurd ⟨32, .inr ⟨fun p hp => by simpa using List.find?_eq_none.1 hn p hp, rfl⟩⟩ ha
        · rename_i k a hn
          exact absurd ⟨a, .inl (find_key hn)⟩ ha
        · rfl
      rw [hal]
      refine ⟨fun g => ⟨fun h => (by cases h), fun ⟨b, rest, h1, h2, _⟩ => ?_⟩, ⟨fun h => (by cases h),
          fun ⟨_, _, _, h1, h2⟩ => ?_⟩, by intro h; cases h⟩
      · obtain ⟨e1, _⟩ := unique e h1
        rw [e1] at h2
        exact absurd ⟨b, h2⟩ ha
      · obtain ⟨e1, _⟩ := unique e h1
        rw [e1] at h2
        exact absurd ⟨0, h2⟩ ha

theorem each_mem {R : β → List Nat → Prop} {l : List β} {us : List (List Nat)} (h : Each R l us) {x : β} (hx : x ∈ l) :
    ∃ u, R x u := by
  induction l generalizing us with
  | nil => cases hx
  | cons y l ih => cases us with
    | nil => exact h.elim
    | cons u us =>
      rcases List.mem_cons.1 hx with rfl | hx
      · exact ⟨u, h.1⟩
      · exact ih h.2 hx

theorem file_meta {nb : Nat → List Nat → Nat} {ok : Nat → List Nat → Bool} {file : List Nat} {kv : List (List Nat × Kv)}
    {dir : List TInfo} {rest : List Nat} (h : FileAs nb ok file kv dir rest) : MetaOk kv := by
  obtain ⟨_, _, _, _, _, hk, he, _⟩ := h
  refine ⟨hk, fun p hp => ?_, fun p hp => ?_⟩
  · obtain ⟨u, hu⟩ := each_mem he hp
    exact hu.1
  · obtain ⟨u, _, v, hv, _⟩ := each_mem he hp
    generalize p.2 = x at hv
    cases hv with
    | u32 h => exact h
    | f64 h => exact h
    | no => trivial
    | yes _ => trivial
    | str h => exact h
    | other h => exact h

end Berts.FileFormat
