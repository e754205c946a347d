import Verif.Spec.Keys
import Verif.Spec.Defaults

/-!
# Properties of the keys of the converter
-/

namespace Berts.Props

open Berts.Keys
open Berts.Vocab (ascii)

variable {e : Keys.Env}

theorem takeWhile_all {p : Nat → Bool} {l : List Nat} {c : Nat} (h : c ∈ l.takeWhile p) : p c = true := by
  induction l with
  | nil => cases h
  | cons a l ih =>
    rw [List.takeWhile_cons] at h
    split at h
    · rename_i ha
      rcases List.mem_cons.1 h with rfl | h
      · exact ha
      · exact ih h
    · cases h

theorem takeWhile_append_stop {p : Nat → Bool} {l : List Nat} (h : ∀ c ∈ l, p c = true) {x : Nat} {r : List Nat}
    (hx : p x = false) : (l ++ x :: r).takeWhile p = l := by
  induction l with
  | nil => simp [List.takeWhile_cons, hx]
  | cons a l ih =>
    rw [List.cons_append, List.takeWhile_cons, h a (by simp), if_pos rfl, ih fun c hc => h c (by simp [hc])]

theorem dropWhile_append_stop {p : Nat → Bool} {l : List Nat} (h : ∀ c ∈ l, p c = true) {x : Nat} {r : List Nat}
    (hx : p x = false) : (l ++ x :: r).dropWhile p = x :: r := by
  induction l with
  | nil => simp [List.dropWhile_cons, hx]
  | cons a l ih =>
    rw [List.cons_append, List.dropWhile_cons, h a (by simp), if_pos rfl, ih fun c hc => h c (by simp [hc])]

theorem dropWhile_blank {l : List Nat} {p : Nat → Bool} (h : ∀ c ∈ l, p c = true) : l.dropWhile p = [] := by
  induction l with
  | nil => rfl
  | cons a l ih =>
    rw [List.dropWhile_cons, h a (by simp), if_pos rfl]
    exact ih fun c hc => h c (by simp [hc])

/-- Stripping: the line without blanks at its ends. -/
theorem strip_spec (l : List Nat) : ∃ a b, l = a ++ strip e l ++ b ∧ Blank e a ∧ Blank e b := by
  refine ⟨l.takeWhile e.ws, (((l.dropWhile e.ws).reverse).takeWhile e.ws).reverse, ?_, ?_, ?_⟩
  · unfold strip
    have h2 := List.takeWhile_append_dropWhile (p := e.ws) (l := (l.dropWhile e.ws).reverse)
    have h1 := List.takeWhile_append_dropWhile (p := e.ws) (l := l)
    have h3 := congrArg List.reverse h2
    rw [List.reverse_append, List.reverse_reverse] at h3
    rw [List.append_assoc, h3, h1]
  · intro c hc; exact takeWhile_all hc
  · intro c hc
    rw [List.mem_reverse] at hc
    exact takeWhile_all hc

/-- A line of blanks, a word between two characters that are no blanks, blanks. -/
theorem strip_of {a b m : List Nat} {x y : Nat} (ha : Blank e a) (hb : Blank e b) (hx : e.ws x = false)
    (hm : ∃ m', m = m' ++ [y]) (hy : e.ws y = false) : strip e (a ++ (x :: m) ++ b) = x :: m := by
  obtain ⟨m', rfl⟩ := hm
  unfold strip
  rw [List.append_assoc, List.cons_append, dropWhile_append_stop ha hx]
  have : (x :: (m' ++ [y] ++ b)).reverse = b.reverse ++ y :: (x :: m').reverse := by simp
  rw [this, dropWhile_append_stop (fun c hc => hb c (List.mem_reverse.1 hc)) hy]
  simp

theorem takeWhile_drop (p : Nat → Bool) (l : List Nat) : l = l.takeWhile p ++ l.drop (l.takeWhile p).length := by
  induction l with
  | nil => rfl
  | cons a l ih =>
    rw [List.takeWhile_cons]
    split
    · rw [List.cons_append, List.length_cons, List.drop_succ_cons, ← ih]
    · rfl

/-- A stripped line that is matched defines the name. -/
theorem matchLine_defines (hc : Classes e) {l k v : List Nat} (h : matchLine e (strip e l) = some (k, v)) :
    Defines e l k v := by
  obtain ⟨a, b, hl, ha, hb⟩ := strip_spec (e := e) l
  generalize strip e l = m at h hl
  unfold matchLine at h
  split at h
  · rename_i hp
    obtain ⟨r, rfl⟩ := List.isPrefixOf_iff_prefix.1 hp
    have hd : (ascii "#define" ++ r).drop 7 = r := rfl
    rw [hd] at h
    have e1 := takeWhile_drop e.ws r
    have w1 := fun c => takeWhile_all (p := e.ws) (l := r) (c := c)
    simp only at h
    generalize hs1 : r.takeWhile e.ws = s1 at h e1 w1
    generalize hr1 : r.drop s1.length = r1 at h e1
    have e2 := takeWhile_drop e.word r1
    have w2 := fun c => takeWhile_all (p := e.word) (l := r1) (c := c)
    generalize hk : r1.takeWhile e.word = k' at h e2 w2
    generalize hr2 : r1.drop k'.length = r2 at h e2
    have e3 := takeWhile_drop e.ws r2
    have w3 := fun c => takeWhile_all (p := e.ws) (l := r2) (c := c)
    generalize hs2 : r2.takeWhile e.ws = s2 at h e3 w3
    generalize hr3 : r2.drop s2.length = r3 at h e3
    split at h
    · cases h
    · rename_i hne
      split at h
      · rename_i r4
        have e4 := takeWhile_drop (· != 34) r4
        have w4 := fun c => takeWhile_all (p := (· != 34)) (l := r4) (c := c)
        generalize hv : r4.takeWhile (· != 34) = v' at h e4 w4
        generalize hr5 : r4.drop v'.length = r5 at h e4
        split at h
        · cases h
        · rename_i hv0
          split at h
          · rename_i h5
            cases h
            have hq : ∀ c ∈ v, c ≠ 34 := by
              intro c hc; simpa using w4 c hc
            rcases h5 with rfl | rfl
            · refine ⟨a, s1, s2, b, ?_, ha, w1, w3, hb, fun h => hne (.inl h), fun h => hne (.inr (.inr h)),
                fun h => hne (.inr (.inl h)), w2, hv0, hq⟩
              rw [hl, e1, e2, e3, e4]
              simp
            · refine ⟨a, s1, s2, 10 :: b, ?_, ha, w1, w3, ?_, fun h => hne (.inl h), fun h => hne (.inr (.inr h)),
                fun h => hne (.inr (.inl h)), w2, hv0, hq⟩
              · rw [hl, e1, e2, e3, e4]
                simp
              · intro c hc'
                rcases List.mem_cons.1 hc' with rfl | hc'
                · exact hc.feed
                · exact hb c hc'
          · cases h
      · cases h
  · cases h

/-- A line that defines a name is matched. -/
theorem defines_matchLine (hc : Classes e) {l k v : List Nat} (h : Defines e l k v) :
    (ascii "#define").isPrefixOf (strip e l) = true ∧ matchLine e (strip e l) = some (k, v) := by
  obtain ⟨a, s, t, b, rfl, ha, hs, ht, hb, hs0, ht0, hk0, hk, hv0, hv⟩ := h
  have h1 : strip e (a ++ ascii "#define" ++ s ++ k ++ t ++ [34] ++ v ++ [34] ++ b) =
      ascii "#define" ++ (s ++ k ++ t ++ [34] ++ v ++ [34]) := by
    have := strip_of (e := e) (m := (ascii "#define").tail ++ s ++ k ++ t ++ [34] ++ v ++ [34]) ha hb hc.hash ⟨_, rfl⟩ hc.quote.1
    have h0 : ascii "#define" = 35 :: (ascii "#define").tail := rfl
    have h2 : a ++ ascii "#define" ++ s ++ k ++ t ++ [34] ++ v ++ [34] ++ b =
        a ++ (35 :: ((ascii "#define").tail ++ s ++ k ++ t ++ [34] ++ v ++ [34])) ++ b := by
      rw [h0]; simp
    rw [h2, this]
    rw [h0]
    simp
  rw [h1]
  refine ⟨List.isPrefixOf_iff_prefix.2 ⟨_, rfl⟩, ?_⟩
  unfold matchLine
  rw [if_pos (List.isPrefixOf_iff_prefix.2 ⟨_, rfl⟩)]
  have hd : ∀ r, (ascii "#define" ++ r).drop 7 = r := fun r => rfl
  rw [hd]
  cases k with
  | nil => exact absurd rfl hk0
  | cons k0 k =>
  cases t with
  | nil => exact absurd rfl ht0
  | cons t0 t =>
  have n1 : e.ws k0 = false := by
    cases hw : e.ws k0 with
    | false => rfl
    | true => exact absurd (hk k0 (by simp)) (by simp [hc.disjoint _ hw])
  have n2 : e.word t0 = false := hc.disjoint _ (ht t0 (by simp))
  have t1 : (s ++ (k0 :: k) ++ (t0 :: t) ++ [34] ++ v ++ [34]).takeWhile e.ws = s := by
    have := takeWhile_append_stop (p := e.ws) hs n1 (r := k ++ (t0 :: t) ++ [34] ++ v ++ [34])
    simpa using this
  have t2 : ((k0 :: k) ++ (t0 :: t) ++ [34] ++ v ++ [34]).takeWhile e.word = k0 :: k := by
    have := takeWhile_append_stop (p := e.word) hk n2 (r := t ++ [34] ++ v ++ [34])
    simpa using this
  have t3 : ((t0 :: t) ++ [34] ++ v ++ [34]).takeWhile e.ws = t0 :: t := by
    have := takeWhile_append_stop (p := e.ws) ht hc.quote.1 (r := v ++ [34])
    simpa using this
  have t4 : (v ++ [34]).takeWhile (· != 34) = v :=
    takeWhile_append_stop (p := (· != 34)) (fun c hc => by simpa using hv c hc) (by simp)
  have d1 : (s ++ (k0 :: k) ++ (t0 :: t) ++ [34] ++ v ++ [34]).drop s.length = (k0 :: k) ++ (t0 :: t) ++ [34] ++ v ++ [34] := by
    simp
  have d2 : ((k0 :: k) ++ (t0 :: t) ++ [34] ++ v ++ [34]).drop (k0 :: k).length = (t0 :: t) ++ [34] ++ v ++ [34] := by
    simp
  have d3 : ((t0 :: t) ++ [34] ++ v ++ [34]).drop (t0 :: t).length = 34 :: (v ++ [34]) := by
    simp
  simp only [t1, d1, t2, d2, t3, d3]
  rw [if_neg (by simp [hs0])]
  simp only [t4, List.drop_left, if_neg hv0]
  simp

/-- Stripping does not touch the start of a directive. -/
theorem directive_iff (hc : Classes e) (l : List Nat) :
    (ascii "#define").isPrefixOf (strip e l) = true ↔ Directive e l := by
  constructor
  · intro h
    obtain ⟨a, b, hl, ha, _⟩ := strip_spec (e := e) l
    obtain ⟨r, hr⟩ := List.isPrefixOf_iff_prefix.1 h
    exact ⟨a, r ++ b, by rw [hl, ← hr]; simp, ha⟩
  · rintro ⟨a, r, rfl, ha⟩
    obtain ⟨m, b, hr, hm, hb⟩ : ∃ m b, r = m ++ b ∧ (m = [] ∨ ∃ m' y, m = m' ++ [y] ∧ e.ws y = false) ∧ Blank e b := by
      clear ha
      induction r with
      | nil => exact ⟨[], [], rfl, .inl rfl, by simp [Blank]⟩
      | cons x r ih =>
        obtain ⟨m, b, rfl, hm, hb⟩ := ih
        rcases hm with rfl | ⟨m', y, rfl, hy⟩
        · cases hx : e.ws x with
          | false => exact ⟨[x], b, rfl, .inr ⟨[], x, rfl, hx⟩, hb⟩
          | true =>
            refine ⟨[], x :: b, rfl, .inl rfl, ?_⟩
            intro c hc
            rcases List.mem_cons.1 hc with rfl | hc
            · exact hx
            · exact hb c hc
        · exact ⟨x :: (m' ++ [y]), b, rfl, .inr ⟨x :: m', y, rfl, hy⟩, hb⟩
    subst hr
    have h0 : ascii "#define" = 35 :: (ascii "#define").tail := rfl
    have h1 : (ascii "#define").tail = (ascii "#defin").tail ++ [101] := by decide
    have hs : strip e (a ++ ascii "#define" ++ (m ++ b)) = ascii "#define" ++ m := by
      have e1 : a ++ ascii "#define" ++ (m ++ b) = a ++ (35 :: ((ascii "#define").tail ++ m)) ++ b := by
        rw [h0]; simp
      rw [e1]
      rcases hm with rfl | ⟨m', y, rfl, hy⟩
      · rw [strip_of ha hb hc.hash ⟨(ascii "#defin").tail, by rw [List.append_nil, h1]⟩ hc.letter]
        rw [List.append_nil, List.append_nil, ← h0]
      · rw [strip_of ha hb hc.hash ⟨(ascii "#define").tail ++ m', by simp⟩ hy]
        conv => rhs; rw [h0]
        rfl
    rw [hs]
    exact List.isPrefixOf_iff_prefix.2 ⟨m, rfl⟩

theorem get_setKey (d : List (List Nat × List Nat)) (k v x : List Nat) :
    Keys.get (setKey d k v) x = if x = k then some v else Keys.get d x := by
  unfold setKey
  split
  · rename_i h
    induction d with
    | nil => simp at h
    | cons p d ih =>
      unfold Keys.get at ih ⊢
      rw [List.map_cons, List.find?_cons, List.find?_cons]
      by_cases hp : p.1 = k
      · by_cases hx : x = k
        · simp [hp, hx]
        · have h1 : (p.1 == k) = true := by simp [hp]
          have h2 : (k == x) = false := by simpa using fun e => hx e.symm
          have h3 : (p.1 == x) = false := by rw [hp]; exact h2
          simp only [h1, if_true, h2, h3, if_neg hx]
          by_cases hd : d.any (·.1 == k) = true
          · have := ih hd
            rw [if_neg hx] at this
            exact this
          · have : d.map (fun p => if p.1 == k then (k, v) else p) = d := by
              conv => rhs; rw [← List.map_id d]
              apply List.map_congr_left
              intro q hq
              have : (q.1 == k) = false := by
                cases hqk : q.1 == k with
                | false => rfl
                | true => exact absurd (List.any_eq_true.2 ⟨q, hq, hqk⟩) hd
              simp [this]
            rw [this]
      · have h1 : (p.1 == k) = false := by simpa using hp
        have hd : d.any (·.1 == k) = true := by simpa [h1] using h
        have ih := ih hd
        simp only [h1, Bool.false_eq_true, if_false]
        cases hpx : p.1 == x with
        | true =>
          have : p.1 = x := by simpa using hpx
          rw [if_neg (by rw [← this]; exact hp)]
        | false => exact ih
  · rename_i h
    unfold Keys.get
    rw [List.find?_append]
    by_cases hx : x = k
    · subst hx
      have : d.find? (·.1 == x) = none := by
        rw [List.find?_eq_none]
        intro q hq hqx
        exact h (List.any_eq_true.2 ⟨q, hq, hqx⟩)
      simp [this]
    · have h2 : (k == x) = false := by simpa using fun e => hx e.symm
      simp [h2, hx]

/-- A line defines at most one name, with one value. -/
theorem defines_unique (hc : Classes e) {l k v k' v' : List Nat} (h : Defines e l k v) (h' : Defines e l k' v') :
    k = k' ∧ v = v' := by
  have h1 := (defines_matchLine hc h).2
  rw [(defines_matchLine hc h').2] at h1
  cases h1
  exact ⟨rfl, rfl⟩

theorem loadKeys_get (hc : Classes e) (k : List Nat) : ∀ (lines : List (List Nat)) (d d' : List (List Nat × List Nat)),
    loadKeys e d lines = some d' →
    (∃ v, Value e lines k v ∧ Keys.get d' k = some v) ∨ ((∀ l ∈ lines, ∀ w, ¬ Defines e l k w) ∧ Keys.get d' k = Keys.get d k) := by
  intro lines
  induction lines with
  | nil =>
    intro d d' h
    cases h
    exact .inr ⟨by simp, rfl⟩
  | cons l lines ih =>
    intro d d' h
    unfold loadKeys at h
    simp only at h
    have lift : ∀ v, Value e lines k v → Value e (l :: lines) k v := by
      rintro v ⟨pre, line, post, rfl, h1, h2⟩
      exact ⟨l :: pre, line, post, rfl, h1, h2⟩
    split at h
    · rename_i hp
      rcases ih d d' h with ⟨v, h1, h2⟩ | ⟨h1, h2⟩
      · exact .inl ⟨v, lift v h1, h2⟩
      · refine .inr ⟨?_, h2⟩
        intro m hm w hd
        rcases List.mem_cons.1 hm with rfl | hm
        · rw [(defines_matchLine hc hd).1] at hp; cases hp
        · exact h1 m hm w hd
    · split at h
      · cases h
      · rename_i k' v' hm
        have hd := matchLine_defines hc hm
        rcases ih _ d' h with ⟨v, h1, h2⟩ | ⟨h1, h2⟩
        · exact .inl ⟨v, lift v h1, h2⟩
        · rw [get_setKey] at h2
          by_cases hk : k = k'
          · subst hk
            rw [if_pos rfl] at h2
            exact .inl ⟨v', ⟨[], l, lines, rfl, hd, h1⟩, h2⟩
          · rw [if_neg hk] at h2
            refine .inr ⟨?_, h2⟩
            intro m hm w hw
            rcases List.mem_cons.1 hm with rfl | hm
            · exact hk (defines_unique hc hw hd).1
            · exact h1 m hm w hw

/-- Only one value is the last. -/
theorem value_unique (hc : Classes e) {lines : List (List Nat)} {k v v' : List Nat} (h : Value e lines k v)
    (h' : Value e lines k v') : v = v' := by
  obtain ⟨p, l, q, e1, h1, h2⟩ := h
  obtain ⟨p', l', q', e2, h3, h4⟩ := h'
  rw [e1] at e2
  rcases List.append_eq_append_iff.1 e2 with ⟨r, hr1, hr2⟩ | ⟨r, hr1, hr2⟩
  · cases r with
    | nil =>
      cases hr2
      exact (defines_unique hc h1 h3).2
    | cons x r =>
      cases hr2
      exact absurd h3 (h2 l' (by simp) v')
  · cases r with
    | nil =>
      cases hr2
      exact (defines_unique hc h1 h3).2
    | cons x r =>
      cases hr2
      exact absurd h1 (h4 l (by simp) v)

/-- C92: the dictionary of the converter has exactly the names that the lines of the header define, each with
the value of its last definition. -/
theorem C92_values (hc : Classes e) (lines : List (List Nat)) (d : List (List Nat × List Nat))
    (h : loadKeys e [] lines = some d) (k v : List Nat) : Keys.get d k = some v ↔ Value e lines k v := by
  rcases loadKeys_get hc k lines [] d h with ⟨w, h1, h2⟩ | ⟨h1, h2⟩
  · constructor
    · intro h3
      rw [h2] at h3; cases h3; exact h1
    · intro h3
      rw [h2, value_unique hc h1 h3]
  · constructor
    · intro h3
      rw [h2] at h3; cases h3
    · rintro ⟨pre, l, post, rfl, h3, _⟩
      exact absurd h3 (h1 l (by simp) v)

theorem loadKeys_some (hc : Classes e) : ∀ (lines : List (List Nat)) (d : List (List Nat × List Nat)),
    (∃ d', loadKeys e d lines = some d') ↔ ∀ l ∈ lines, Directive e l → ∃ k v, Defines e l k v := by
  intro lines
  induction lines with
  | nil => intro d; exact ⟨fun _ => by simp, fun _ => ⟨d, rfl⟩⟩
  | cons l lines ih =>
    intro d
    unfold loadKeys
    simp only [List.forall_mem_cons]
    cases hp : (ascii "#define").isPrefixOf (strip e l) with
    | false =>
      have hn : ¬ Directive e l := fun h => by rw [(directive_iff hc l).2 h] at hp; cases hp
      simp only [Bool.not_false, if_true]
      rw [ih]
      exact ⟨fun h => ⟨fun h' => absurd h' hn, h⟩, fun h => h.2⟩
    | true =>
      simp only [Bool.not_true, Bool.false_eq_true, if_false]
      have hd := (directive_iff hc l).1 hp
      cases hm : matchLine e (strip e l) with
      | none =>
        constructor
        · rintro ⟨d', h⟩; cases h
        · rintro ⟨h, _⟩
          obtain ⟨k, v, h⟩ := h hd
          rw [(defines_matchLine hc h).2] at hm
          cases hm
      | some p =>
        obtain ⟨k, v⟩ := p
        simp only
        rw [ih]
        exact ⟨fun h => ⟨fun _ => ⟨k, v, matchLine_defines hc hm⟩, h⟩, fun h => h.2⟩

/-- C92: the header is accepted exactly if every line that starts with `#define` defines a name as a quoted
string and has nothing behind it. -/
theorem C92_accepted (hc : Classes e) (lines : List (List Nat)) :
    (∃ d, loadKeys e [] lines = some d) ↔ ∀ l ∈ lines, Directive e l → ∃ k v, Defines e l k v :=
  loadKeys_some hc lines []

/-- C92 (partial: a value without backslashes): a line that the converter takes for a definition is one for a C
compiler as well, with the same value. -/
theorem C92_same_partial {line k v : List Nat} (h : Defines e line k v) (hv : ∀ c ∈ v, c ≠ 92) :
    CDefines e line k v := by
  obtain ⟨a, s, t, b, rfl, ha, hs, ht, hb, hs0, ht0, hk0, hk, hv0, hq⟩ := h
  refine ⟨a, [], s, t, v, b, ?_, ha, by simp [Blank], hs, ht, hs0, ht0, hk0, hk, ?_, .inl hb⟩
  · rw [show ascii "#define" = [35] ++ [] ++ ascii "define" from rfl]
    simp only [List.append_assoc]
  · clear hv0
    induction v with
    | nil => exact .nil
    | cons c v ih =>
      exact .plain (hq c (by simp)) (hv c (by simp)) (ih (fun c h => hv c (by simp [h])) fun c h => hq c (by simp [h]))

theorem asciiEnv_classes : Classes asciiEnv := by
  refine ⟨?_, ⟨rfl, rfl⟩, rfl, rfl, rfl⟩
  intro c h
  simp only [asciiEnv, Bool.or_eq_true, Bool.and_eq_true, beq_iff_eq, decide_eq_true_eq] at h
  simp only [asciiEnv, Bool.or_eq_false_iff, Bool.and_eq_false_iff, beq_eq_false_iff_ne, decide_eq_false_iff_not]
  omega

/-- C92 for the header of the repository: it is accepted, and all keys that the loader looks up (but for the
general ones) are values of the converter's dictionary. -/
theorem C92_header : ∃ d, loadKeys asciiEnv [] (header.map ascii) = some d ∧ d.length = 26 ∧
    ∀ k ∈ Load.knownKeys, (ascii "general.").isPrefixOf (ascii k) = true ∨ ascii k ∈ d.map (·.2) := by
  have h : (match loadKeys asciiEnv [] (header.map ascii) with
    | some d => decide (d.length = 26 ∧
        ∀ k ∈ Load.knownKeys, (ascii "general.").isPrefixOf (ascii k) = true ∨ ascii k ∈ d.map (·.2))
    | none => false) = true := by decide +kernel
  split at h
  · rename_i d hd
    exact ⟨d, hd, by simpa using h⟩
  · cases h

/-- A line of the header meets the hypotheses. -/
example : Defines asciiEnv (ascii "#define BERTS_KEY_HPARAM_LN_EPS \"berts.layer_norm_eps\"")
    (ascii "BERTS_KEY_HPARAM_LN_EPS") (ascii "berts.layer_norm_eps") :=
  matchLine_defines asciiEnv_classes (by decide +kernel)

/-- C92: a comment behind the value, which means nothing to C, stops the converter. -/
theorem C92_comment_counterexample :
    loadKeys asciiEnv [] [ascii "#define A \"a\" // b"] = none ∧
    CDefines asciiEnv (ascii "#define A \"a\" // b") (ascii "A") (ascii "a") := by
  refine ⟨by decide +kernel, [], [], [32], [32], ascii "a", ascii " // b", by decide, by simp [Blank], by simp [Blank],
    by simp [Blank, asciiEnv], by simp [Blank, asciiEnv], by simp, by simp, by decide, by decide, ?_,
    .inr ⟨[32], ascii " b", by decide, by simp [Blank, asciiEnv]⟩⟩
  exact .plain (by decide) (by decide) .nil

/-- C92: a definition with a blank behind the `#` is overlooked without a complaint. -/
theorem C92_blank_counterexample :
    loadKeys asciiEnv [] [ascii "# define A \"a\""] = some [] ∧
    CDefines asciiEnv (ascii "# define A \"a\"") (ascii "A") (ascii "a") := by
  refine ⟨by decide +kernel, [], [32], [32], [32], ascii "a", [], by decide, by simp [Blank],
    by simp [Blank, asciiEnv], by simp [Blank, asciiEnv], by simp [Blank, asciiEnv], by simp, by simp, by decide,
    by decide, ?_, .inl (by simp [Blank])⟩
  exact .plain (by decide) (by decide) .nil

/-- C92: escape sequences are not interpreted. -/
theorem C92_escape_counterexample :
    loadKeys asciiEnv [] [ascii "#define A \"\\n\""] = some [(ascii "A", [92, 110])] ∧
    CDefines asciiEnv (ascii "#define A \"\\n\"") (ascii "A") [10] := by
  refine ⟨by decide +kernel, [], [], [32], [32], [92, 110], [], by decide, by simp [Blank], by simp [Blank],
    by simp [Blank, asciiEnv], by simp [Blank, asciiEnv], by simp, by simp, by decide,
    by decide, ?_, .inl (by simp [Blank])⟩
  exact .feed .nil

end Berts.Props
