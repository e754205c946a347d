import Verif.Model.BertLog
import Verif.Spec.BertLog
import Verif.Proofs.Bert

/-! # Lemmas about tokenizing with messages -/

namespace Berts.Bert

open Berts.Unicode Berts.Trie Berts.Vocab Berts.Log Berts.Format Berts.Spec

/-- Lines written one after the other. -/
def runLines : St → List (Int × List Nat) → Res St
  | s, [] => .ok s
  | s, l :: ls => (writeIf l.1 s l.2).bind fun s => runLines s ls

theorem bind_assoc' {α β γ : Type} (r : Res α) (f : α → Res β) (g : β → Res γ) :
    (r.bind f).bind g = r.bind fun a => (f a).bind g := by cases r <;> rfl

theorem ok_bind' {α β : Type} (a : α) (f : α → Res β) : (Res.ok a).bind f = f a := rfl

theorem runLines_append (a b : List (Int × List Nat)) (s : St) :
    runLines s (a ++ b) = (runLines s a).bind fun s => runLines s b := by
  induction a generalizing s with
  | nil => rfl
  | cons l a ih =>
    simp only [List.cons_append, runLines, bind_assoc']
    congr 1
    funext s
    exact ih s

theorem runLines_one (s : St) (l : Int × List Nat) : runLines s [l] = writeIf l.1 s l.2 := by
  simp only [runLines]
  cases writeIf l.1 s l.2 <;> rfl

theorem runLines_cons (s : St) (l : Int × List Nat) (ls : List (Int × List Nat)) :
    runLines s (l :: ls) = (writeIf l.1 s l.2).bind fun s => runLines s ls := rfl

/-- A good word object. -/
def Good (w : UImpl) (l : List Nat) : Prop := Rep w l ∧ w.e.success = true

theorem length_flatMap_skip (l : List (Option Nat)) :
    (l.flatMap (fun o => match o with | some c => [c] | none => if false then [] else [0xfffd])).length =
      (l.flatMap (fun o => match o with | some c => [c] | none => if true then [] else [0xfffd])).length ↔ none ∉ l := by
  have hle : ∀ l : List (Option Nat),
      (l.flatMap (fun o => match o with | some c => [c] | none => if true then [] else [0xfffd])).length ≤
      (l.flatMap (fun o => match o with | some c => [c] | none => if false then [] else [0xfffd])).length := by
    intro l
    induction l with
    | nil => simp
    | cons o l ih => cases o <;> simp at ih ⊢ <;> omega
  induction l with
  | nil => simp
  | cons o l ih =>
    have := hle l
    cases o <;> simp at ih this ⊢
    · omega
    · exact ih

theorem good_encode {w : UImpl} {l : List Nat} (h : Good w l) : ∃ w', w.encode = .ok (unitText l, w') := by
  obtain ⟨h, he⟩ := h
  unfold UImpl.encode
  rw [h.2]
  by_cases hl : l = []
  · subst hl
    exact ⟨w, rfl⟩
  · rw [if_neg hl]
    have key : (eachCp false l).length = (eachCp true l).length ↔ none ∉ decodeUnits l := by
      have h1 := congrArg List.length (eachCp_spec false l)
      have h2 := congrArg List.length (eachCp_spec true l)
      rw [List.length_map] at h1 h2
      rw [h1, h2]
      exact length_flatMap_skip _
    have ht : none ∉ decodeUnits l → toCodePoints l = (decodeUnits l).filterMap id := by
      intro hn
      unfold toCodePoints
      rw [eachCp_spec]
      generalize decodeUnits l = d at hn
      induction d with
      | nil => rfl
      | cons o d ih =>
        cases o with
        | none => simp at hn
        | some c =>
          simp only [List.flatMap_cons, List.filterMap_cons, id]
          rw [ih (by simpa using hn)]
          rfl
    have hu : w = ⟨some l, some l.length, w.e⟩ := by
      cases w
      simp only [Rep, hl, if_false] at h
      simp [h.1, h.2]
    rw [hu]
    have hrep : ∀ e, UImpl.readUnits ⟨some l, some l.length, e⟩ = .ok l := fun e =>
      readUnits_rep ⟨rfl, by rw [if_neg hl]⟩
    have : ∀ e, ∃ w' : UImpl, (if (eachCp false l).length = (eachCp true l).length then
          Res.ok (utf8Encode (toCodePoints l), (⟨some l, some l.length, .warn⟩ : UImpl))
        else .ok ([], ⟨some l, some l.length, e⟩)) = .ok (unitText l, w') := by
      intro e
      unfold unitText
      by_cases hn : none ∈ decodeUnits l
      · rw [if_neg (by rw [key]; simpa using hn), if_pos hn]
        exact ⟨_, rfl⟩
      · rw [if_pos (key.mpr hn), if_neg hn, ht hn]
        exact ⟨_, rfl⟩
    cases hwe : w.e with
    | zero => simp only [hrep, Res.bind_ok, Res.pure_eq]; exact this _
    | warn => simp only [hrep, Res.bind_ok, Res.pure_eq]; exact this _
    | overflow => rw [hwe] at he; cases he
    | fail => rw [hwe] at he; cases he

theorem good_ofUnits (l : List Nat) : Good (UImpl.ofUnits l) l := ⟨rep_ofUnits l, rfl⟩

theorem good_safeNorm (norm : List Nat → List Nat) {s : UImpl} {l : List Nat} (h : Rep s l) :
    ∃ r, safeNorm norm s = .ok r ∧ Good r (norm l) := by
  refine ⟨UImpl.default.allocFill (norm l), ?_, rep_allocFill _ _, rfl⟩
  unfold safeNorm UImpl.normalize
  rw [readSize_rep h, readUnits_rep h]
  simp only [Res.bind_ok]
  rw [if_neg]
  · rfl
  · rw [h.2]
    by_cases hl : l = [] <;> simp [hl]

theorem good_copy {w : UImpl} {l : List Nat} (h : Good w l) :
    ∃ r, UImpl.default.copyFrom w = .ok r ∧ Good r l := by
  unfold UImpl.copyFrom
  rw [h.1.2]
  by_cases hl : l = []
  · subst hl
    exact ⟨_, rfl, ⟨rfl, rfl⟩, h.2⟩
  · rw [if_neg hl]
    simp only [readUnits_rep h.1, Res.bind_ok]
    exact ⟨_, rfl, rep_e _ (rep_allocFill _ _), h.2⟩

theorem good_lowerStep (u : Icu) (cond : TokInfo) {w : UImpl} {l : List Nat} (h : Good w l) :
    ∃ r l', lowerStep u cond w = .ok r ∧ Good r l' := by
  unfold lowerStep
  split
  · unfold lowerWord UImpl.moveFrom UImpl.caseMap
    rw [readSize_rep h.1]
    have hr' : ∀ e, Rep ⟨w.str, some l.length, e⟩ l := fun e => ⟨rfl, h.1.2⟩
    simp only [Res.bind_ok, Res.pure_eq, h.2, Bool.not_true, Bool.false_eq_true, if_false, readUnits_rep (hr' _),
      readSize_rep (hr' _)]
    split
    · exact ⟨_, [], rfl, ⟨rfl, rfl⟩, rfl⟩
    by_cases hn : (u.lower l).length = 0
    · simp only [if_pos hn, UErr.success]
      exact ⟨_, u.lower l, rfl, rep_e .warn (rep_allocFill _ _), rfl⟩
    · simp only [if_neg hn, UErr.success]
      exact ⟨_, [], rfl, ⟨rfl, rfl⟩, rfl⟩
  · exact ⟨w, l, rfl, h⟩

theorem ofUtf32_units {cs : List Nat} {l : List Nat} (h : (UImpl.ofUtf32 cs).readUnits = .ok l) :
    Good (UImpl.ofUtf32 cs) l := by
  unfold UImpl.ofUtf32 at h ⊢
  split
  · rename_i hc
    rw [if_pos hc] at h
    have := readUnits_rep (rep_e .warn (rep_allocFill UImpl.default (utf16Encode cs)))
    rw [this] at h
    cases h
    exact ⟨rep_e _ (rep_allocFill _ _), rfl⟩
  · rename_i hc
    rw [if_neg hc] at h
    cases h

theorem good_stripStep (u : Icu) (cond : TokInfo) {w r : UImpl} {l : List Nat} (h : Good w l)
    (hr : stripStep u cond w = .ok r) : ∃ l', Good r l' := by
  unfold stripStep at hr
  split at hr
  · unfold stripAccents at hr
    obtain ⟨r1, h1, h1'⟩ := good_safeNorm u.nfd h.1
    rw [h1, Res.bind_ok, readUnits_rep h1'.1, Res.bind_ok] at hr
    generalize hx : UImpl.ofUtf32 (((eachCp true (u.nfd l)).map (·.c)).filter (fun c => !u.catMn c)) = x at hr
    have : ∃ l', Rep x l' := by
      unfold UImpl.ofUtf32 at hx
      split at hx
      · subst hx; exact ⟨_, rep_e _ (rep_allocFill _ _)⟩
      · subst hx; cases hr
    obtain ⟨l', hl'⟩ := this
    obtain ⟨r2, h2, h2'⟩ := good_safeNorm u.nfc hl'
    rw [h2] at hr
    cases hr
    exact ⟨_, h2'⟩
  · cases hr
    exact ⟨l, h⟩

/-- Objects and their units. -/
inductive GoodAll : List UImpl → List (List Nat) → Prop
  | nil : GoodAll [] []
  | cons {w l ws ls} : Good w l → GoodAll ws ls → GoodAll (w :: ws) (l :: ls)

theorem goodAll_append {a b : List UImpl} {c d : List (List Nat)} (h1 : GoodAll a c) (h2 : GoodAll b d) :
    GoodAll (a ++ b) (c ++ d) := by
  induction h1 with
  | nil => exact h2
  | cons hg _ ih => exact .cons hg ih

theorem readAll_good (ps : List (List Nat)) (ls : List (List Nat)) (h : readAll (ps.map UImpl.ofUtf32) = .ok ls) :
    GoodAll (ps.map UImpl.ofUtf32) ls := by
  induction ps generalizing ls with
  | nil => cases h; exact .nil
  | cons p ps ih =>
    simp only [List.map_cons, readAll] at h ⊢
    obtain ⟨l, h1, h⟩ := res_bind_ok h
    obtain ⟨ls', h2, h⟩ := res_bind_ok h
    cases h
    exact .cons (ofUtf32_units h1) (ih _ h2)

theorem basicWordU_eq (u : Icu) (cond : TokInfo) (keep : List (List Nat)) (w : List Nat) (ls : List (List Nat))
    (h : basicWord u cond keep w = .ok ls) : ∃ us, basicWordU u cond keep w = .ok us ∧ GoodAll us ls := by
  unfold basicWord at h
  unfold basicWordU
  split
  · rename_i hk
    rw [if_pos hk] at h
    cases h
    exact ⟨_, rfl, .cons (good_ofUnits w) .nil⟩
  · rename_i hk
    rw [if_neg hk] at h
    obtain ⟨r, l, h1, h1'⟩ := good_lowerStep u cond (good_ofUnits w)
    rw [h1] at h ⊢
    change (stripStep u cond r).bind _ = _ at h
    obtain ⟨r2, h2, h⟩ := res_bind_ok h
    obtain ⟨l2, h2'⟩ := good_stripStep u cond h1' h2
    obtain ⟨l3, h3, h⟩ := res_bind_ok h
    show ∃ us, (stripStep u cond r).bind _ = .ok us ∧ _
    rw [h2]
    have h3' := h3
    rw [readUnits_rep h2'.1] at h3'
    cases h3'
    simp only [Res.bind]
    split
    · rename_i hs
      rw [if_pos hs] at h
      rw [h3]
      exact ⟨_, rfl, readAll_good _ _ h⟩
    · rename_i hs
      rw [if_neg hs] at h
      cases h
      obtain ⟨r4, h4, h4'⟩ := good_copy h2'
      rw [h4]
      exact ⟨_, rfl, .cons h4' .nil⟩

theorem basicWordsU_eq (u : Icu) (cond : TokInfo) (keep : List (List Nat)) (ws ls : List (List Nat))
    (h : basicWords u cond keep ws = .ok ls) : ∃ us, basicWordsU u cond keep ws = .ok us ∧ GoodAll us ls := by
  induction ws generalizing ls with
  | nil => cases h; exact ⟨_, rfl, .nil⟩
  | cons w ws ih =>
    obtain ⟨a, h1, h⟩ := res_bind_ok h
    obtain ⟨b, h2, h⟩ := res_bind_ok h
    cases h
    obtain ⟨us, g1, g1'⟩ := basicWordU_eq u cond keep w a h1
    obtain ⟨us2, g2, g2'⟩ := ih b h2
    refine ⟨us ++ us2, ?_, ?_⟩
    · simp only [basicWordsU, g1, g2, Res.bind]
    · exact goodAll_append g1' g2'

/-! ## Messages -/

theorem plain_line (s : St) (v : Sev) (m : List Nat) : plain s v m = writeIf v.val s m := by
  cases v <;> rfl

theorem writeIf_off {n : Int} {s : St} (h : ¬ s.level ≤ n) (m : List Nat) : writeIf n s m = .ok s := by
  unfold writeIf
  rw [if_neg h]

theorem whenL_off {s : St} {n : Int} (h : ¬ s.level ≤ n) (f : St → Res St) : whenL s n f = .ok s := by
  unfold whenL isLogging
  simp [h]

theorem whenL_on {s : St} {n : Int} (h : s.level ≤ n) (f : St → Res St) : whenL s n f = f s := by
  unfold whenL isLogging
  simp [h]

theorem fmt_token (t : List Nat) (n : Nat) : fmt (bytes! "  token: {} ({})") [textArg t, numArg n] =
    .ok (bytes! "  token: " ++ t ++ bytes! " (" ++ decimal n ++ bytes! ")") := by
  simp [fmt, vformat, parse, fieldOf, render, textArg, numArg]

theorem fmt_unknown (t : List Nat) : fmt (bytes! "  unknown token: {}") [textArg t] =
    .ok (bytes! "  unknown token: " ++ t) := by
  simp [fmt, vformat, parse, fieldOf, render, textArg]

theorem fmt_special (i n : Nat) : fmt (bytes! "token id {} is not found (max={})") [numArg i, numArg n] =
    .ok (bytes! "token id " ++ decimal i ++ bytes! " is not found (max=" ++ decimal n ++ bytes! ")") := by
  simp [fmt, vformat, parse, fieldOf, render, numArg]

/-- A report, computed. -/
def trace (rootNode contNode : Node) : Nat → Node → List Nat →
    (List (List Nat × Nat) × Option (List Nat)) × Node
  | 0, root, _ => (([], none), root)
  | fuel + 1, root, rest =>
    if rest = [] then (([], none), root)
    else
      let r := searchSubstr root rest [] rest
      if r.1 ≠ INVALID then
        let t := trace rootNode contNode fuel (if r.2.2 = [] then rootNode else contNode) r.2.2
        (((r.2.1, r.1) :: t.1.1, t.1.2), t.2)
      else (([], some rest), root)

theorem wordLoop_trace (rootNode contNode : Node) (unk fuel : Nat) (root : Node) (rest : List Nat) :
    wordLoop rootNode contNode unk fuel root rest =
      (reportIds unk (trace rootNode contNode fuel root rest).1, (trace rootNode contNode fuel root rest).2) := by
  induction fuel generalizing root rest with
  | zero => rfl
  | succ fuel ih =>
    simp only [wordLoop, trace]
    split
    · rfl
    · split
      · rw [ih]; rfl
      · rfl

theorem good_empty {w : UImpl} {l : List Nat} (h : Good w l) : w.empty = decide (l = []) := by
  unfold UImpl.empty
  rw [h.1.2]
  by_cases hl : l = [] <;> simp [hl]

theorem wordLoopL_trace (rootNode contNode : Node) (unk fuel : Nat) (root : Node) (w : UImpl) (l : List Nat)
    (h : Good w l) (s : St) :
    wordLoopL rootNode contNode unk fuel root w s =
      (runLines s (reportLines (trace rootNode contNode fuel root l).1)).bind fun s =>
        .ok (wordLoop rootNode contNode unk fuel root l, s) := by
  rw [wordLoop_trace]
  induction fuel generalizing root w l s with
  | zero => rfl
  | succ fuel ih =>
    simp only [wordLoopL, trace, good_empty h, readUnits_rep h.1]
    by_cases hl : l = []
    · simp only [hl, decide_true, if_true]
      rfl
    · simp only [hl, decide_false, Bool.false_eq_true, if_false]
      simp only [ok_bind']
      by_cases hi : (searchSubstr root l [] l).1 ≠ INVALID
      · rw [if_pos hi, if_pos hi]
        obtain ⟨w', hw'⟩ := good_encode (good_ofUnits (searchSubstr root l [] l).2.1)
        have hm : (whenL s 0 fun s => (UImpl.ofUnits (searchSubstr root l [] l).2.1).encode.bind fun found =>
            formatted s .debug (fmt (bytes! "  token: {} ({})") [textArg found.1, numArg (searchSubstr root l [] l).1]))
            = writeIf 0 s (bytes! "  token: " ++ unitText (searchSubstr root l [] l).2.1 ++ bytes! " (" ++
                decimal (searchSubstr root l [] l).1 ++ bytes! ")") := by
          by_cases hs : s.level ≤ 0
          · rw [whenL_on hs, hw']
            simp only [ok_bind']
            rw [fmt_token]
            simp [formatted, isLogging, hs, Res.bind, plain]
          · rw [whenL_off hs, writeIf_off hs]
        simp only at hm ⊢
        rw [hm]
        simp only [reportLines, List.map_cons, List.cons_append, runLines_cons, bind_assoc']
        congr 1
        funext s
        rw [ih _ _ _ (good_ofUnits _)]
        rw [bind_assoc']
        rfl
      · rw [if_neg hi, if_neg hi]
        obtain ⟨w', hw'⟩ := good_encode h
        have hm : (whenL s 2 fun s => w.encode.bind fun e =>
            formatted s .warn (fmt (bytes! "  unknown token: {}") [textArg e.1])) =
            writeIf 2 s (bytes! "  unknown token: " ++ unitText l) := by
          by_cases hs : s.level ≤ 2
          · rw [whenL_on hs, hw']
            simp only [ok_bind']
            rw [fmt_unknown]
            simp [formatted, isLogging, hs, Res.bind, plain]
          · rw [whenL_off hs, writeIf_off hs]
        simp only at hm ⊢
        rw [hm]
        simp only [reportLines, List.map_nil, List.nil_append, runLines_one]
        rfl

/-- Reports of a list of words, computed. -/
def traces (rootNode contNode : Node) : Node → List (List Nat) → List (List (List Nat × Nat) × Option (List Nat))
  | _, [] => []
  | root, w :: ws =>
    (trace rootNode contNode w.length root w).1 ::
      traces rootNode contNode (trace rootNode contNode w.length root w).2 ws

theorem wordsLoop_traces (rootNode contNode : Node) (unk : Nat) (root : Node) (ws : List (List Nat)) :
    wordsLoop rootNode contNode unk root ws = (traces rootNode contNode root ws).flatMap (reportIds unk) := by
  induction ws generalizing root with
  | nil => rfl
  | cons w ws ih =>
    simp only [wordsLoop, traces, wordLoop_trace, List.flatMap_cons, ih]

theorem wordsLoopL_traces (rootNode contNode : Node) (unk : Nat) (root : Node) (us : List UImpl)
    (ws : List (List Nat)) (h : GoodAll us ws) (s : St) :
    wordsLoopL rootNode contNode unk root us s =
      (runLines s ((traces rootNode contNode root ws).flatMap reportLines)).bind fun s =>
        .ok (wordsLoop rootNode contNode unk root ws, s) := by
  induction h generalizing root s with
  | nil => rfl
  | cons hg _ ih =>
    obtain ⟨r, hr, hr'⟩ := good_copy hg
    simp only [wordsLoopL, hr, readSize_rep hr'.1, ok_bind']
    rw [wordLoopL_trace _ _ _ _ _ _ _ hr']
    simp only [traces, List.flatMap_cons, runLines_append, bind_assoc']
    congr 1
    funext s
    simp only [ok_bind', wordLoop_trace]
    rw [ih, bind_assoc']
    simp only [wordsLoop, wordLoop_trace]
    rfl

theorem trace_report (V : List (List Nat)) (hV : V.length ≤ INVALID) (cont : Node)
    (hc : walk (buildFrom Node.new 0 V) hashes = some cont) (fuel : Nat) (pfx rest : List Nat) (n : Node)
    (hn : walk (buildFrom Node.new 0 V) pfx = some n) (hf : rest.length ≤ fuel) :
    ∃ pfx', walk (buildFrom Node.new 0 V) pfx' = some (trace (buildFrom Node.new 0 V) cont fuel n rest).2 ∧
      Report V pfx rest (trace (buildFrom Node.new 0 V) cont fuel n rest).1.1
        (trace (buildFrom Node.new 0 V) cont fuel n rest).1.2 pfx' := by
  induction fuel generalizing pfx rest n with
  | zero =>
    have : rest = [] := List.length_eq_zero_iff.mp (by omega)
    subst this
    exact ⟨pfx, hn, .empty pfx⟩
  | succ fuel ih =>
    rw [trace]
    by_cases hr : rest = []
    · subst hr
      exact ⟨pfx, hn, .empty pfx⟩
    · rw [if_neg hr]
      rcases searchSubstr_spec n rest [] rest with ⟨h0, h⟩ | ⟨p, f, r, h1, h2, h3, h4, h5, h6, h7, h8⟩
      · rw [h]
        refine ⟨pfx, hn, .fail pfx rest hr ?_⟩
        intro p hp hne hm
        have := h0 p hp hne
        rw [idAt_sub hn] at this
        exact (idAt_build_iff V (pfx ++ p) hV (by simp [hne])).mpr hm this
      · rw [h8]
        simp only [ne_eq, h4, not_false_iff, if_true]
        have hf0 : f ≠ [] := by
          intro h; subst h; exact h3 (List.prefix_nil.mp h2)
        have hfl := List.length_pos_iff.mpr hf0
        have hlen : f.length + r.length = rest.length := by rw [← h1]; simp
        obtain ⟨pfx', g1, g2⟩ := ih (if r = [] then [] else marker) r
          (if r = [] then buildFrom Node.new 0 V else cont) (by split; rfl; exact hc) (by omega)
        refine ⟨pfx', g1, ?_⟩
        rw [idAt_sub hn] at h4 ⊢
        have hm := (idAt_build_iff V (pfx ++ p) hV (by simp [h3])).mp h4
        obtain ⟨i, hi⟩ := last_index_exists V _ hm
        rw [(idAt_build V (pfx ++ p) hV (by simp [h3])).1 i hi]
        rw [← h1]
        have hp0 : ∀ q, q ≠ [] → (HasPath n q ↔ ∃ v ∈ V, pfx ++ q <+: v) := fun q hq => by
          rw [hasPath_sub hn, hasPath_build V _ (by simp [hq])]
        refine Report.step pfx p f r i _ _ pfx' h3 h2 hi ?_ ((hp0 f hf0).mp h6) ?_ g2
        · intro q hq hne hmem
          refine h5 q (h1 ▸ hq) hne ?_
          rw [idAt_sub hn]
          exact (idAt_build_iff V (pfx ++ q) hV (by simp [hne])).mpr hmem
        · intro q hq hv
          by_cases hq0 : q = []
          · subst hq0; simp
          · exact h7 q (h1 ▸ hq) ((hp0 q hq0).mpr hv)

theorem traces_report (V : List (List Nat)) (hV : V.length ≤ INVALID) (cont : Node)
    (hc : walk (buildFrom Node.new 0 V) hashes = some cont) (ws : List (List Nat)) (pfx : List Nat) (n : Node)
    (hn : walk (buildFrom Node.new 0 V) pfx = some n) :
    ReportAll V pfx ws (traces (buildFrom Node.new 0 V) cont n ws) := by
  induction ws generalizing pfx n with
  | nil => exact .nil pfx
  | cons w ws ih =>
    obtain ⟨pfx', h1, h2⟩ := trace_report V hV cont hc w.length pfx w n hn (Nat.le_refl _)
    exact .cons pfx w ws _ _ pfx' _ h2 (ih pfx' _ h1)

theorem report_unique {V : List (List Nat)} {pfx w : List Nat} {parts : List (List Nat × Nat)}
    {left : Option (List Nat)} {pfx' : List Nat} (h : Report V pfx w parts left pfx') :
    ∀ parts₂ left₂ pfx₂, Report V pfx w parts₂ left₂ pfx₂ → parts₂ = parts ∧ left₂ = left ∧ pfx₂ = pfx' := by
  induction h with
  | empty pfx =>
    intro parts₂ left₂ pfx₂ h
    generalize hw : ([] : List Nat) = w at h
    cases h with
    | empty => exact ⟨rfl, rfl, rfl⟩
    | fail _ _ hne => exact absurd hw.symm hne
    | step _ p q r _ _ _ _ hp hpq =>
      have := (List.append_eq_nil_iff.mp hw.symm).1
      subst this
      exact absurd (List.prefix_nil.mp hpq) hp
  | fail pfx rest hne hno =>
    intro parts₂ left₂ pfx₂ h
    generalize hw : rest = w at h
    cases h with
    | empty => exact absurd hw hne
    | fail => exact ⟨rfl, by rw [← hw], rfl⟩
    | step _ p q r _ _ _ _ hp hpq hid =>
      exact absurd (List.mem_of_getElem? hid.1) (hno p (hw ▸ hpq.trans (List.prefix_append _ _)) hp)
  | step pfx p q r id parts left pfx' hp hpq hid hmax hv hqmax _ ih =>
    intro parts₂ left₂ pfx₂ h
    generalize hw : q ++ r = w at h
    cases h with
    | empty =>
      have := (List.append_eq_nil_iff.mp hw).1
      subst this
      exact absurd (List.prefix_nil.mp hpq) hp
    | fail _ _ _ hno =>
      exact absurd (List.mem_of_getElem? hid.1) (hno p (hw ▸ hpq.trans (List.prefix_append _ _)) hp)
    | step _ p₂ q₂ r₂ id₂ parts₂ left₂ _ hp₂ hpq₂ hid₂ hmax₂ hv₂ hqmax₂ hrec =>
      have k1 := hqmax q₂ (hw ▸ List.prefix_append _ _) hv₂
      have k2 := hqmax₂ q (hw ▸ List.prefix_append _ _) hv
      obtain ⟨rfl, rfl⟩ := List.append_inj hw (by omega)
      have m1 := hmax p₂ (hpq₂.trans (List.prefix_append _ _)) hp₂ (List.mem_of_getElem? hid₂.1)
      have m2 := hmax₂ p (hpq.trans (List.prefix_append _ _)) hp (List.mem_of_getElem? hid.1)
      have := prefix_eq hpq hpq₂ (by omega)
      subst this
      obtain ⟨e1, e2, e3⟩ := ih _ _ _ hrec
      exact ⟨by rw [e1, isLastIndex_unique hid hid₂], e2, e3⟩

theorem reportAll_unique {V : List (List Nat)} {pfx : List Nat} {ws : List (List Nat)}
    {rs : List (List (List Nat × Nat) × Option (List Nat))} (h : ReportAll V pfx ws rs) :
    ∀ rs₂, ReportAll V pfx ws rs₂ → rs₂ = rs := by
  induction h with
  | nil => intro rs₂ h; cases h; rfl
  | cons pfx w ws parts left pfx' rs h1 _ ih =>
    intro rs₂ h
    cases h with
    | cons _ _ _ parts₂ left₂ pfx₂ rs₂ g1 g2 =>
      obtain ⟨rfl, rfl, rfl⟩ := report_unique h1 _ _ _ g1
      rw [ih _ g2]

/-! ## The other steps -/

theorem keepL_eq (v : VocabT) (is : List Nat) (s : St) :
    keepL v is s = (runLines s (specialLines v.idToTok.length is)).bind fun s =>
      .ok (is.map fun i => unitsOfUtf8 (v.idToToken i), s) := by
  induction is generalizing s with
  | nil => rfl
  | cons i is ih =>
    simp only [keepL, idToTokenL]
    by_cases h : v.idToTok.length ≤ i
    · rw [if_pos h, fmt_special]
      have hm : formatted s .error (.ok (bytes! "token id " ++ decimal i ++ bytes! " is not found (max=" ++
          decimal v.idToTok.length ++ bytes! ")")) = writeIf 1 s (bytes! "token id " ++ decimal i ++
          bytes! " is not found (max=" ++ decimal v.idToTok.length ++ bytes! ")") := by
        by_cases hs : s.level ≤ 1
        · simp [formatted, isLogging, hs, Res.bind, plain, writeIf, show s.level ≤ 3 by omega]
        · rw [writeIf_off hs]
          simp [formatted, isLogging, hs]
      rw [hm]
      have : specialLines v.idToTok.length (i :: is) = line 1 (bytes! "token id " ++ decimal i ++
          bytes! " is not found (max=" ++ decimal v.idToTok.length ++ bytes! ")") ::
          specialLines v.idToTok.length is := by simp [specialLines, h]
      rw [this]
      simp only [runLines_cons, line, bind_assoc']
      congr 1
      funext s
      simp only [ok_bind']
      rw [ih, bind_assoc']
      simp [VocabT.idToToken, h, ok_bind']
    · rw [if_neg h]
      have : specialLines v.idToTok.length (i :: is) = specialLines v.idToTok.length is := by simp [specialLines, h]
      rw [this]
      simp only [ok_bind']
      rw [ih, bind_assoc']
      rfl

theorem cleanMsg_eq (cond : TokInfo) (c : Nat) (h : IsScalar c) (s : St) :
    cleanMsg cond s (cpOf c) = runLines s (removalLines cond [c]) := by
  unfold cleanMsg removalLines
  rw [cpOf_c]
  by_cases h0 : c = 0
  · subst h0
    cases hr : cond.removeNull <;> simp [runLines, line, plain] <;>
      (cases writeIf 1 s _ <;> rfl)
  · rw [if_neg h0]
    by_cases h1 : c = 0xfffd
    · subst h1
      have : (cpOf 0xfffd).isPair = false := by decide
      simp only [this, Bool.false_eq_true, if_false, if_true]
      cases hr : cond.removeRepl
      · simp [hr, runLines]
      · simp only [if_true]
        by_cases hs : s.level ≤ 1
        · rw [whenL_on hs]
          simp [hr, runLines, line, plain]
          cases writeIf 1 s _ <;> rfl
        · rw [whenL_off hs]
          simp [hr, runLines, line, writeIf_off hs, Res.bind]
    · rw [if_neg h1]
      simp [h0, h1, runLines]

theorem cleanMsgs_eq (cond : TokInfo) (cs : List Nat) (h : ∀ c ∈ cs, IsScalar c) (s : St) :
    cleanMsgs cond s (cs.map cpOf) = runLines s (removalLines cond cs) := by
  induction cs generalizing s with
  | nil => rfl
  | cons c cs ih =>
    have : removalLines cond (c :: cs) = removalLines cond [c] ++ removalLines cond cs := by
      simp only [removalLines, ← List.map_append, ← List.filter_append]
      rfl
    rw [this, runLines_append]
    simp only [List.map_cons, cleanMsgs]
    rw [cleanMsg_eq cond c (h c (by simp))]
    congr 1
    funext s
    exact ih (fun x hx => h x (by simp [hx])) s

/-- The special tokens as words. -/
def keepOf (v : VocabT) (sp : Special) : List (List Nat) :=
  [sp.cls, sp.mask, sp.pad, sp.sep, sp.unk].map (fun i => unitsOfUtf8 (v.idToToken i))

theorem tokenizeL_eq (u : Icu) (cond : TokInfo) (v : VocabT) (hV : v.idToTok.length ≤ INVALID) (sp : Special)
    (cs ds : List Nat) (hcs : ∀ c ∈ cs, IsScalar c) (hds : ∀ c ∈ ds, IsScalar c)
    (hn : u.nfc (utf16Encode cs) = utf16Encode ds) (words : List (List Nat))
    (hw : basicTokenize u cond (keepOf v sp) (utf8Encode cs) = .ok words)
    (rs : List (List (List Nat × Nat) × Option (List Nat)))
    (hr : (∃ x ∈ v.idToTok.map unitsOfUtf8, marker <+: x) → ReportAll (v.idToTok.map unitsOfUtf8) [] words rs)
    (s : St) :
    tokenizeL u cond v sp (utf8Encode cs) s =
      (runLines s (tokenizeLines (v.idToTok.map unitsOfUtf8) [sp.cls, sp.mask, sp.pad, sp.sep, sp.unk] cond ds rs)).bind
        fun s => .ok (if ∃ x ∈ v.idToTok.map unitsOfUtf8, marker <+: x then rs.flatMap (reportIds sp.unk) else [], s) := by
  have hlen : (v.idToTok.map unitsOfUtf8).length = v.idToTok.length := by simp
  obtain ⟨n, hn1, hn2⟩ := safeNorm_rep u.nfc (rep_ofUtf8 cs hcs)
  rw [hn] at hn2
  unfold basicTokenize at hw
  rw [hn1, Res.bind_ok, readUnits_rep hn2, Res.bind_ok] at hw
  obtain ⟨us, hu1, hu2⟩ := basicWordsU_eq u cond _ _ _ hw
  unfold tokenizeL tokenizeLines
  rw [keepL_eq, hlen]
  simp only [runLines_append, bind_assoc', ok_bind', runLines_cons, line, runLines]
  congr 1
  funext s
  congr 1
  funext s
  have hkeep : ([sp.cls, sp.mask, sp.pad, sp.sep, sp.unk].map fun i => unitsOfUtf8 (v.idToToken i)) = keepOf v sp := rfl
  rw [hkeep]
  unfold basicTokenizeL
  simp only [bind_assoc']
  show (writeIf 0 s _).bind _ = _
  congr 1
  funext s
  rw [hn1, ok_bind', readUnits_rep hn2, ok_bind', eachCp_encode false ds hds, cleanMsgs_eq cond ds hds]
  congr 1
  funext s
  rw [hu1, ok_bind']
  show (writeIf 0 s _).bind _ = _
  congr 1
  funext s
  rw [ok_bind']
  unfold wordpieceL
  simp only [bind_assoc']
  show (writeIf 0 s _).bind _ = _
  congr 1
  funext s
  unfold buildTrie
  rw [findNode_hashes]
  by_cases hh : ∃ x ∈ v.idToTok.map unitsOfUtf8, marker <+: x
  · obtain ⟨cont, hc⟩ := hashes_some _ hh
    have htr := traces_report _ (by rw [hlen]; exact hV) cont hc words [] _ rfl
    have := reportAll_unique (hr hh) _ htr
    rw [hc, if_pos hh]
    simp only
    rw [wordsLoopL_traces _ _ _ _ _ _ hu2, wordsLoop_traces, this]
    simp only [runLines_append, bind_assoc', ok_bind', runLines_cons, runLines, if_pos hh]
    congr 1
  · have : walk (buildFrom Node.new 0 (v.idToTok.map unitsOfUtf8)) hashes = none := by
      cases hx : walk (buildFrom Node.new 0 (v.idToTok.map unitsOfUtf8)) hashes with
      | none => rfl
      | some c => exact absurd ((hasPath_build _ hashes (by simp [hashes])).mp (by simp [HasPath, hx])) hh
    rw [this, if_neg hh]
    simp only [runLines_cons, runLines, bind_assoc', ok_bind', if_neg hh]
    rfl

end Berts.Bert
