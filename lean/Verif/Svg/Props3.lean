import Verif.Svg.Props2

/-!
# C69 – C71: relative commands, smooth shorthand, closing
-/

set_option linter.unusedSectionVars false

namespace Verif.Svg
open Verif PyFloat PyTrig Geom

section
variable {K : Type} [PyFloat K]

theorem init_rep : Rep (PS.init : PS K) Track.init none :=
  ⟨rfl, rfl, rfl, rfl, rfl, fun _ h => (by cases h), rfl, rfl⟩

/-- The parser on a text that spells a list of commands. -/
theorem parse_text (env : NumEnv K) {s : Str} {cs : List (Char × List K)} (h : Reads env none (tokenize s) cs)
    (hs : StartsM cs) : parsePath env s = (meaning codeRule Track.init cs, none) :=
  parse_meaning env h PS.init Track.init init_rep (fun _ => hs)

/-- Specification: a command with the right number of parameters. -/
def ValidCmd (x : Char × List K) : Prop := x.1 ∈ cmdLetters ∧ x.2.length = (paramKinds (upperC x.1)).length

theorem reads_valid {env : NumEnv K} {p : Option Char} {ts : List Tok} {cs : List (Char × List K)} (h : Reads env p ts cs) :
    ∀ x ∈ cs, ValidCmd x := by
  induction h with
  | nil p => simp
  | explicit p c args vals ts cs hc hargs _ ih =>
    intro x hx
    rcases List.mem_cons.1 hx with rfl | hx
    · exact ⟨hc, readArgs_len hargs⟩
    · exact ih x hx
  | implicit p args vals ts cs hp _ hargs _ ih =>
    intro x hx
    rcases List.mem_cons.1 hx with rfl | hx
    · refine ⟨?_, readArgs_len hargs⟩
      have h' : ∀ p ∈ cmdLetters, implied p ∈ cmdLetters := by decide +kernel
      exact h' p hp
    · exact ih x hx

theorem movePairs_len (d : P K) (l : List K) : (movePairs d l).length = l.length := by
  induction l using movePairs.induct with
  | case1 x y r ih => simp [movePairs, ih]
  | case2 l h =>
    unfold movePairs
    split
    · rename_i x y r; exact absurd rfl (h x y r)
    · rfl

theorem toAbs_len (pen : P K) (C : Char) (a : List K) : (toAbs pen C a).length = a.length := by
  unfold toAbs
  split <;> first | rfl | exact movePairs_len _ _

theorem absArgs_len (tr : Track K) (c : Char) (a : List K) : (absArgs tr c a).length = a.length := by
  unfold absArgs
  split
  · exact toAbs_len _ _ _
  · rfl

/-- Specification: the pen after a command with absolute parameters. -/
def penAfter (pen start : P K) (C : Char) (a : List K) : P K :=
  match C, a with
  | 'H', [x] => ⟨x, pen.y⟩
  | 'V', [y] => ⟨pen.x, y⟩
  | 'Z', _ => start
  | _, a => endPoint a

theorem canon_cases {tr : Track K} {C : Char} {a : List K} {o : Char × List K} (h : canon tr C a = some o) :
    endPoint o.2 = penAfter tr.pen tr.start C a := by
  unfold canon at h
  split at h <;> simp only [Option.some.injEq, reduceCtorEq] at h <;> subst h <;> rfl

theorem canon_some (tr : Track K) {C : Char} (hC : C ∈ cmdLetters) (hu : upperC C = C) {a : List K}
    (ha : a.length = (paramKinds C).length) : ∃ o, canon tr C a = some o := by
  have h' : ∀ C ∈ cmdLetters, upperC C = C → C = 'M' ∨ C = 'L' ∨ C = 'H' ∨ C = 'V' ∨ C = 'C' ∨ C = 'S' ∨ C = 'Q' ∨ C = 'T' ∨
    C = 'A' ∨ C = 'Z' := by decide +kernel
  rcases h' C hC hu with rfl | rfl | rfl | rfl | rfl | rfl | rfl | rfl | rfl | rfl <;> simp only [paramKinds, List.length_cons,
    List.length_nil] at ha
  · match a, ha with | [x, y], _ => exact ⟨_, rfl⟩
  · match a, ha with | [x, y], _ => exact ⟨_, rfl⟩
  · match a, ha with | [x], _ => exact ⟨_, rfl⟩
  · match a, ha with | [x], _ => exact ⟨_, rfl⟩
  · match a, ha with | [x1, x2, x3, x4, x5, x6], _ => exact ⟨_, rfl⟩
  · match a, ha with | [x1, x2, x3, x4], _ => exact ⟨_, rfl⟩
  · match a, ha with | [x1, x2, x3, x4], _ => exact ⟨_, rfl⟩
  · match a, ha with | [x1, x2], _ => exact ⟨_, rfl⟩
  · match a, ha with | [x1, x2, x3, x4, x5, x6, x7], _ => exact ⟨_, rfl⟩
  · match a, ha with | [], _ => exact ⟨_, rfl⟩

theorem upper_mem {c : Char} (h : c ∈ cmdLetters) : upperC c ∈ cmdLetters ∧ upperC (upperC c) = upperC c := by
  have h' : ∀ c ∈ cmdLetters, upperC c ∈ cmdLetters ∧ upperC (upperC c) = upperC c := by decide +kernel
  exact h' c h

theorem canon_valid (tr : Track K) {x : Char × List K} (h : ValidCmd x) :
    ∃ o, canon tr (upperC x.1) (absArgs tr x.1 x.2) = some o := by
  obtain ⟨h1, h2⟩ := upper_mem h.1
  exact canon_some tr h1 h2 (by rw [absArgs_len]; exact h.2)

/-! ## C70: smooth shorthand -/

/-- Specification: each `S` directly follows a `C` and each `T` directly follows a `Q`. -/
def SmoothAfterCurve : Option Char → List (Char × List K) → Prop
  | _, [] => True
  | prev, (c, _) :: cs =>
    (upperC c = 'S' → prev = some 'C') ∧ (upperC c = 'T' → prev = some 'Q') ∧ SmoothAfterCurve (some (upperC c)) cs

theorem meaning_rules (cs : List (Char × List K)) : ∀ (prev : Option Char) (t1 t2 : Track K), t1.pen = t2.pen → t1.start = t2.start →
    (prev = some 'C' → t1.ctlS = t2.ctlS) → (prev = some 'Q' → t1.ctlT = t2.ctlT) → SmoothAfterCurve prev cs →
    meaning codeRule t1 cs = meaning svgRule t2 cs := by
  induction cs with
  | nil => intros; rfl
  | cons x cs ih =>
    obtain ⟨c, a⟩ := x
    intro prev t1 t2 hp hs h1 h2 hsm
    obtain ⟨hS, hT, hsm⟩ := hsm
    have habs : absArgs t1 c a = absArgs t2 c a := by unfold absArgs; rw [hp]
    have hcan : canon t1 (upperC c) (absArgs t1 c a) = canon t2 (upperC c) (absArgs t2 c a) := by
      rw [habs]
      generalize absArgs t2 c a = b
      unfold canon
      split
      all_goals first
        | rfl
        | simp only [hp, hs]
        | skip
      · rename_i hC; simp only [Track.mirror, hp, h1 (hS hC)]
      · rename_i hC; simp only [Track.mirror, hp, h2 (hT hC)]
    unfold meaning
    rw [hcan]
    cases canon t2 (upperC c) (absArgs t2 c a) with
    | none => rfl
    | some o =>
      dsimp only
      congr 1
      refine ih (some (upperC c)) _ _ rfl ?_ ?_ ?_ hsm
      · unfold Track.next; simp only [hs]
      · intro h
        rw [Option.some.injEq] at h
        unfold Track.next codeRule svgRule
        simp only [h, true_or, if_true]
      · intro h
        rw [Option.some.injEq] at h
        unfold Track.next codeRule svgRule
        simp [h]

/-- **C70**, for every path in which each `S` directly follows a `C` and each `T` a `Q`: `parse_path` yields exactly the
canonical absolute commands the path means by SVG 1.1, with the reflected control points.  Missing: `S` and `T` after
anything else (`C70_refuted`). -/
theorem C70_smooth_partial (env : NumEnv K) {s : Str} {cs : List (Char × List K)} (h : Reads env none (tokenize s) cs)
    (hs : StartsM cs) (hsm : SmoothAfterCurve none cs) :
    parsePath env s = (meaning svgRule Track.init cs, none) := by
  rw [parse_text env h hs, meaning_rules cs none Track.init Track.init rfl rfl (fun _ => rfl) (fun _ => rfl) hsm]

/-- **C70** is refuted: an `S` after an `S`, a `T` after a `T` and an `S` after an `L` use a wrong control point. -/
theorem C70_refuted :
    parsePath exactQ "M0 0C1 1 2 1 3 0S5 2 6 0S8 1 9 0".toList ≠
      (meaning svgRule Track.init [('M', [0, 0]), ('C', [1, 1, 2, 1, 3, 0]), ('S', [5, 2, 6, 0]), ('S', [8, 1, 9, 0])], none) ∧
    parsePath exactQ "M0 0Q1 1 2 0T4 0T6 0".toList ≠
      (meaning svgRule Track.init [('M', [0, 0]), ('Q', [1, 1, 2, 0]), ('T', [4, 0]), ('T', [6, 0])], none) ∧
    parsePath exactQ "M0 0L1 0S2 1 3 0".toList ≠
      (meaning svgRule Track.init [('M', [0, 0]), ('L', [1, 0]), ('S', [2, 1, 3, 0])], none) := by
  decide +kernel

/-! ## C71: closing a subpath -/

/-- Specification: the parameters of the last `M` of a list of canonical commands. -/
def lastMove (out : List (Char × List K)) : Option (List K) := ((out.filter fun o => o.1 = 'M').getLast?).map Prod.snd

/-- Specification: the position after a list of commands. -/
def trackAfter (rule : CtlRule K) (tr : Track K) : List (Char × List K) → Track K
  | [] => tr
  | (c, a) :: cs =>
    match canon tr (upperC c) (absArgs tr c a) with
    | none => tr
    | some o => trackAfter rule (tr.next rule (upperC c) o.2) cs

theorem meaning_append (rule : CtlRule K) (cs1 cs2 : List (Char × List K)) : ∀ tr : Track K, (∀ x ∈ cs1, ValidCmd x) →
    meaning rule tr (cs1 ++ cs2) = meaning rule tr cs1 ++ meaning rule (trackAfter rule tr cs1) cs2 := by
  induction cs1 with
  | nil => intros; rfl
  | cons x cs ih =>
    intro tr hv
    obtain ⟨c, a⟩ := x
    obtain ⟨o, ho⟩ := canon_valid tr (hv (c, a) (by simp))
    have ho : canon tr (upperC c) (absArgs tr c a) = some o := ho
    simp only [List.cons_append, meaning, trackAfter, ho]
    rw [ih _ (fun x hx => hv x (by simp [hx]))]

theorem meaning_length (rule : CtlRule K) (cs : List (Char × List K)) : ∀ tr : Track K, (∀ x ∈ cs, ValidCmd x) →
    (meaning rule tr cs).length = cs.length := by
  induction cs with
  | nil => intros; rfl
  | cons x cs ih =>
    intro tr hv
    obtain ⟨c, a⟩ := x
    obtain ⟨o, ho⟩ := canon_valid tr (hv (c, a) (by simp))
    have ho : canon tr (upperC c) (absArgs tr c a) = some o := ho
    simp only [meaning, ho, List.length_cons]
    rw [ih _ (fun x hx => hv x (by simp [hx]))]

theorem canon_move {tr : Track K} {C : Char} {a : List K} {o : Char × List K} (h : canon tr C a = some o) :
    (C = 'M' ↔ o.1 = 'M') ∧ (C = 'M' → o.2 = [(endPoint o.2).x, (endPoint o.2).y]) := by
  unfold canon at h
  split at h <;> simp only [Option.some.injEq, reduceCtorEq] at h <;> subst h <;> simp [endPoint]

/-- The start of the subpath is the last `M` point. -/
theorem track_start (rule : CtlRule K) (cs : List (Char × List K)) : ∀ tr : Track K, (∀ x ∈ cs, ValidCmd x) →
    ((lastMove (meaning rule tr cs) = none → (trackAfter rule tr cs).start = tr.start) ∧
    (∀ m, lastMove (meaning rule tr cs) = some m →
      m = [(trackAfter rule tr cs).start.x, (trackAfter rule tr cs).start.y])) := by
  induction cs with
  | nil => intro tr _; simp [lastMove, meaning, trackAfter]
  | cons x cs ih =>
    intro tr hv
    obtain ⟨c, a⟩ := x
    obtain ⟨o, ho⟩ := canon_valid tr (hv (c, a) (by simp))
    have ho : canon tr (upperC c) (absArgs tr c a) = some o := ho
    obtain ⟨hM1, hM2⟩ := canon_move ho
    simp only [meaning, trackAfter, ho]
    obtain ⟨i1, i2⟩ := ih (tr.next rule (upperC c) o.2) (fun x hx => hv x (by simp [hx]))
    generalize meaning rule (tr.next rule (upperC c) o.2) cs = outs at i1 i2
    have hnext : (tr.next rule (upperC c) o.2).start = if upperC c = 'M' then endPoint o.2 else tr.start := rfl
    rw [hnext] at i1
    unfold lastMove at i1 i2 ⊢
    by_cases hM : upperC c = 'M'
    · have hoM := hM1.1 hM
      rw [if_pos hM] at i1
      simp only [List.filter_cons, hoM, decide_true, if_true]
      cases hl : outs.filter (fun o => decide (o.1 = 'M')) with
      | nil =>
        rw [hl] at i1
        have := i1 rfl
        refine ⟨fun h => by simp at h, fun m hm => ?_⟩
        have : o.2 = m := by simpa using hm
        rw [← this, i1 rfl]
        exact hM2 hM
      | cons y ys =>
        rw [hl] at i2
        refine ⟨fun h => by simp at h, fun m hm => i2 m ?_⟩
        rw [List.getLast?_cons_cons] at hm
        exact hm
    · have hoM : o.1 ≠ 'M' := fun h => hM (hM1.2 h)
      rw [if_neg hM] at i1
      simp only [List.filter_cons, hoM, decide_false, Bool.false_eq_true, if_false]
      exact ⟨i1, i2⟩

/-- Specification: the list does not begin with a smooth shorthand (whose control point depends on the command before). -/
def NotSmooth (cs : List (Char × List K)) : Prop := ∀ c a, cs.head? = some (c, a) → upperC c ≠ 'S' ∧ upperC c ≠ 'T'

theorem meaning_ctl (cs : List (Char × List K)) (h : NotSmooth cs) (t1 t2 : Track K) (hp : t1.pen = t2.pen) (hs : t1.start = t2.start) :
    meaning codeRule t1 cs = meaning codeRule t2 cs := by
  cases cs with
  | nil => rfl
  | cons x cs =>
    obtain ⟨c, a⟩ := x
    obtain ⟨hS, hT⟩ := h c a rfl
    have habs : absArgs t1 c a = absArgs t2 c a := by unfold absArgs; rw [hp]
    have hcan : canon t1 (upperC c) (absArgs t1 c a) = canon t2 (upperC c) (absArgs t2 c a) := by
      rw [habs]
      generalize absArgs t2 c a = b
      unfold canon
      split
      all_goals first
        | rfl
        | simp only [hp, hs]
        | skip
      · rename_i hC; exact absurd hC hS
      · rename_i hC; exact absurd hC hT
    have hnext : ∀ f, t1.next codeRule (upperC c) f = t2.next codeRule (upperC c) f := by
      intro f; unfold Track.next codeRule; simp only [hp, hs]
    unfold meaning
    rw [hcan]
    simp only [hnext]

/-- **C71**: for every path that contains a `Z` (or `z`), the `Z` yields a line to the point of the most recent `M` that was
yielded before, and the commands after it yield what they yield in a path that begins with an `M` at that point. -/
theorem C71_close (env : NumEnv K) {s : Str} {pre post : List (Char × List K)} {z : Char} (hz : z = 'Z' ∨ z = 'z')
    (h : Reads env none (tokenize s) (pre ++ (z, []) :: post)) (hs : StartsM (pre ++ (z, []) :: post)) :
    ∃ (outs rest : List (Char × List K)) (m : List K), parsePath env s = (outs ++ ('L', m) :: rest, none) ∧ outs.length = pre.length ∧
      lastMove outs = some m ∧
      (NotSmooth post → ∀ s', Reads env none (tokenize s') (('M', m) :: post) →
        parsePath env s' = (('M', m) :: rest, none)) := by
  have hv := reads_valid h
  have hvpre : ∀ x ∈ pre, ValidCmd x := fun x hx => hv x (by simp [hx])
  obtain ⟨hst1, hst2⟩ := track_start codeRule pre Track.init hvpre
  have huz : upperC z = 'Z' := by rcases hz with rfl | rfl <;> decide +kernel
  have hpre : pre ≠ [] := by
    rintro rfl
    have := hs z [] rfl
    rw [huz] at this; cases this
  set tr := trackAfter codeRule Track.init pre with htr
  have hcz : canon tr (upperC z) (absArgs tr z []) = some ('L', [tr.start.x, tr.start.y]) := by
    have : absArgs tr z [] = [] := by
      have := absArgs_len tr z []
      exact List.length_eq_zero_iff.1 this
    rw [this, huz]; rfl
  have hmean : parsePath env s = (meaning codeRule Track.init pre ++ ('L', [tr.start.x, tr.start.y]) ::
      meaning codeRule (tr.next codeRule 'Z' [tr.start.x, tr.start.y]) post, none) := by
    rw [parse_text env h hs, meaning_append _ _ _ _ hvpre, ← htr]
    congr 2
    rw [meaning, hcz, huz]
  obtain ⟨m, hm⟩ : ∃ m, lastMove (meaning codeRule Track.init pre) = some m := by
    cases pre with
    | nil => exact absurd rfl hpre
    | cons x pre =>
      obtain ⟨c, a⟩ := x
      have hM := hs c a rfl
      obtain ⟨o, ho⟩ := canon_valid (K := K) Track.init (hvpre (c, a) (by simp))
      have ho : canon Track.init (upperC c) (absArgs Track.init c a) = some o := ho
      have hoM := (canon_move ho).1.1 hM
      have h0 : ∀ l : List (Char × List K), l ≠ [] → ∃ m, (l.getLast?).map Prod.snd = some m := by
        intro l hl
        rw [List.getLast?_eq_some_getLast hl]
        exact ⟨_, rfl⟩
      simp only [meaning, ho, lastMove]
      apply h0
      simp [List.filter_cons, hoM]
  have hmeq := hst2 m hm
  refine ⟨_, meaning codeRule (tr.next codeRule 'Z' [tr.start.x, tr.start.y]) post, m, ?_, meaning_length _ _ _ hvpre, hm, ?_⟩
  · rw [hmean, hmeq]
  · intro hns s' hs'
    rw [parse_text env hs' (by intro c a h; simp only [List.head?_cons, Option.some.injEq, Prod.mk.injEq] at h; rw [← h.1]; decide +kernel)]
    rw [hmeq]
    have huM : upperC 'M' = 'M' := by decide +kernel
    have hrM : isRel 'M' = false := by decide +kernel
    have hc : canon (Track.init : Track K) (upperC 'M') (absArgs Track.init 'M' [tr.start.x, tr.start.y])
        = some ('M', [tr.start.x, tr.start.y]) := by
      unfold absArgs; rw [hrM, huM]; rfl
    rw [meaning, hc]
    dsimp only
    congr 2
    rw [huM]
    exact meaning_ctl post hns _ _ rfl rfl

end

/-! ## C69: relative commands -/

section
variable {K : Type} [Field K] [LinearOrder K] [IsStrictOrderedRing K] [PyFloat K] [ExactFloat K]

/-- Specification: coordinate pairs relative to `d`. -/
def subPairs (d : P K) : List K → List K
  | x :: y :: r => (x - d.x) :: (y - d.y) :: subPairs d r
  | l => l

/-- Specification: the parameters of the relative form of an absolute command, with the pen at `pen`. -/
def toRel (pen : P K) (C : Char) (a : List K) : List K :=
  match C, a with
  | 'H', [x] => [x - pen.x]
  | 'V', [y] => [y - pen.y]
  | 'A', [rx, ry, rot, large, sweep, x, y] => [rx, ry, rot, large, sweep, x - pen.x, y - pen.y]
  | _, a => subPairs pen a

/-- Specification: `cs'` is the list of absolute commands `cs` with some of them written in relative form; the pen is at
`pen` and the subpath began at `start`. -/
inductive RelForm : P K → P K → List (Char × List K) → List (Char × List K) → Prop
  | nil (pen start : P K) : RelForm pen start [] []
  | same (pen start : P K) (C : Char) (a : List K) (cs cs' : List (Char × List K)) : C ∈ "MLHVCSQTAZ".toList →
      RelForm (penAfter pen start C a) (if C = 'M' then penAfter pen start C a else start) cs cs' →
      RelForm pen start ((C, a) :: cs) ((C, a) :: cs')
  | rel (pen start : P K) (C : Char) (a : List K) (cs cs' : List (Char × List K)) : C ∈ "MLHVCSQTAZ".toList →
      RelForm (penAfter pen start C a) (if C = 'M' then penAfter pen start C a else start) cs cs' →
      RelForm pen start ((C, a) :: cs) ((lowerC C, toRel pen C a) :: cs')

theorem move_sub (d : P K) (a : List K) : movePairs d (subPairs d a) = a := by
  induction a using subPairs.induct with
  | case1 x y r ih => simp only [subPairs, movePairs, ih]; py; simp
  | case2 l h =>
    have : subPairs d l = l := by
      unfold subPairs
      split
      · rename_i x y r; exact absurd rfl (h x y r)
      · rfl
    rw [this]
    unfold movePairs
    split
    · rename_i x y r; exact absurd rfl (h x y r)
    · rfl

theorem toAbs_toRel (pen : P K) (C : Char) (a : List K) : toAbs pen C (toRel pen C a) = a := by
  unfold toRel
  split
  · unfold toAbs; py; simp
  · unfold toAbs; py; simp
  · unfold toAbs; py; simp
  · rename_i _ _ h1 h2 h3
    have hlen : ∀ d : P K, ∀ l : List K, (subPairs d l).length = l.length := by
      intro d l
      induction l using subPairs.induct with
      | case1 x y r ih => simp [subPairs, ih]
      | case2 l h =>
        unfold subPairs
        split
        · rename_i x y r; exact absurd rfl (h x y r)
        · rfl
    generalize hb : subPairs pen a = b
    have hl : b.length = a.length := by rw [← hb]; exact hlen pen a
    unfold toAbs
    split
    · exfalso
      match a, hl with | [x], _ => exact h1 x rfl rfl
    · exfalso
      match a, hl with | [x], _ => exact h2 x rfl rfl
    · exfalso
      match a, hl with | [x1, x2, x3, x4, x5, x6, x7], _ => exact h3 x1 x2 x3 x4 x5 x6 x7 rfl rfl
    · rw [← hb]; exact move_sub pen a

theorem lower_upper {C : Char} (h : C ∈ "MLHVCSQTAZ".toList) :
    upperC C = C ∧ isRel C = false ∧ upperC (lowerC C) = C ∧ isRel (lowerC C) = true := by
  have h' : ∀ C ∈ "MLHVCSQTAZ".toList, upperC C = C ∧ isRel C = false ∧ upperC (lowerC C) = C ∧ isRel (lowerC C) = true := by
    decide +kernel
  exact h' C h

theorem relForm_meaning (rule : CtlRule K) {pen start : P K} {cs cs' : List (Char × List K)} (h : RelForm pen start cs cs') :
    ∀ tr : Track K, tr.pen = pen → tr.start = start → meaning rule tr cs = meaning rule tr cs' := by
  induction h with
  | nil => intros; rfl
  | same pen start C a cs cs' hC _ ih =>
    rintro tr rfl rfl
    obtain ⟨h1, h2, -, -⟩ := lower_upper hC
    have habs : absArgs tr C a = a := by unfold absArgs; rw [h2]; rfl
    unfold meaning
    rw [habs, h1]
    cases hc : canon tr C a with
    | none => rfl
    | some o =>
      dsimp only
      congr 1
      have he := canon_cases hc
      exact ih _ he (by unfold Track.next; simp only [he])
  | rel pen start C a cs cs' hC _ ih =>
    rintro tr rfl rfl
    obtain ⟨h1, h2, h3, h4⟩ := lower_upper hC
    have habs : absArgs tr C a = a := by unfold absArgs; rw [h2]; rfl
    have habs' : absArgs tr (lowerC C) (toRel tr.pen C a) = a := by
      unfold absArgs; rw [h4, h3]; exact toAbs_toRel _ _ _
    unfold meaning
    rw [habs, habs', h1, h3]
    cases hc : canon tr C a with
    | none => rfl
    | some o =>
      dsimp only
      congr 1
      have he := canon_cases hc
      exact ih _ he (by unfold Track.next; simp only [he])

/-- **C69**, in exact arithmetic: for every path of absolute commands and every way of writing some of them in relative form,
`parse_path` yields the same commands. -/
theorem C69_relative (env : NumEnv K) {s s' : Str} {cs cs' : List (Char × List K)} (h : Reads env none (tokenize s) cs)
    (hr : RelForm ⟨0, 0⟩ ⟨0, 0⟩ cs cs') (h' : Reads env none (tokenize s') cs') (hs : StartsM cs) :
    parsePath env s = parsePath env s' := by
  have hs' : StartsM cs' := by
    intro c a hh
    cases hr with
    | nil => cases hh
    | same _ _ C a' cs cs' hC _ =>
      simp only [List.head?_cons, Option.some.injEq, Prod.mk.injEq] at hh
      rw [← hh.1]; exact hs C a' rfl
    | rel _ _ C a' cs cs' hC _ =>
      simp only [List.head?_cons, Option.some.injEq, Prod.mk.injEq] at hh
      obtain ⟨h1, -, h3, -⟩ := lower_upper hC
      rw [← hh.1, h3, ← hs C a' rfl, h1]
  rw [parse_text env h hs, parse_text env h' hs', relForm_meaning codeRule hr Track.init]
  · show P.mk _ _ = _; py
  · show P.mk _ _ = _; py

end

/-! ## Non-vacuity -/

/-- A helper for the examples: an explicit command with parameters. -/
theorem reads_cmd (p : Option Char) (c : Char) (args : List Str) (vals : List ℚ) (ts : List Tok) (cs : List (Char × List ℚ))
    (h1 : c ∈ cmdLetters) (h2 : ReadArgs exactQ (paramKinds (upperC c)) args vals) (h3 : Reads exactQ (some c) ts cs) :
    Reads exactQ p (([c], true) :: (args.map fun t => (t, false)) ++ ts) ((c, vals) :: cs) := Reads.explicit p c args vals ts cs h1 h2 h3

instance (env : NumEnv ℚ) (k : Bool) (t : Str) (v : ℚ) : Decidable (ReadAs env k t v) := by
  unfold ReadAs; infer_instance

instance decReadArgs (env : NumEnv ℚ) : ∀ ks ts vs, Decidable (ReadArgs env ks ts vs)
  | [], [], [] => isTrue trivial
  | k :: ks, t :: ts, v :: vs => by
    have := decReadArgs env ks ts vs
    unfold ReadArgs; infer_instance
  | [], [], _ :: _ => isFalse (by simp [ReadArgs])
  | [], _ :: _, _ => isFalse (by simp [ReadArgs])
  | _ :: _, [], _ => isFalse (by simp [ReadArgs])
  | _ :: _, _ :: _, [] => isFalse (by simp [ReadArgs])

/-- The commands of the example path. -/
def demoCs : List (Char × List ℚ) := [('M', [1, 2]), ('H', [5]), ('C', [5, 3, 6, 4, 7, 2]), ('S', [9, 0, 8, 1]), ('Z', []), ('L', [3, 3])]
/-- The same path partly in relative form. -/
def demoCs' : List (Char × List ℚ) := [('m', [1, 2]), ('h', [4]), ('C', [5, 3, 6, 4, 7, 2]), ('s', [2, -2, 1, -1]), ('z', []), ('l', [2, 1])]
/-- Text of the example path. -/
def demoS : Str := "M 1,2 H5C5 3 6 4 7 2S 9 0 8 1ZL3 3".toList
/-- Text of the relative form. -/
def demoS' : Str := "m 1,2 h4C5 3 6 4 7 2s2-2 1-1zl2 1".toList

theorem demo_reads : Reads exactQ none (tokenize demoS) demoCs := by
  refine reads_cmd none 'M' ["1".toList, "2".toList] [1, 2] _ _ (by decide +kernel) (by decide +kernel) ?_
  refine reads_cmd _ 'H' ["5".toList] [5] _ _ (by decide +kernel) (by decide +kernel) ?_
  refine reads_cmd _ 'C' ["5".toList, "3".toList, "6".toList, "4".toList, "7".toList, "2".toList] _ _ _ (by decide +kernel)
    (by decide +kernel) ?_
  refine reads_cmd _ 'S' ["9".toList, "0".toList, "8".toList, "1".toList] _ _ _ (by decide +kernel) (by decide +kernel) ?_
  refine reads_cmd _ 'Z' [] _ _ _ (by decide +kernel) (by decide +kernel) ?_
  refine reads_cmd _ 'L' ["3".toList, "3".toList] _ _ _ (by decide +kernel) (by decide +kernel) (Reads.nil _)

theorem demo_reads' : Reads exactQ none (tokenize demoS') demoCs' := by
  refine reads_cmd none 'm' ["1".toList, "2".toList] [1, 2] _ _ (by decide +kernel) (by decide +kernel) ?_
  refine reads_cmd _ 'h' ["4".toList] [4] _ _ (by decide +kernel) (by decide +kernel) ?_
  refine reads_cmd _ 'C' ["5".toList, "3".toList, "6".toList, "4".toList, "7".toList, "2".toList] _ _ _ (by decide +kernel)
    (by decide +kernel) ?_
  refine reads_cmd _ 's' ["2".toList, "-2".toList, "1".toList, "-1".toList] _ _ _ (by decide +kernel) (by decide +kernel) ?_
  refine reads_cmd _ 'z' [] _ _ _ (by decide +kernel) (by decide +kernel) ?_
  refine reads_cmd _ 'l' ["2".toList, "1".toList] _ _ _ (by decide +kernel) (by decide +kernel) (Reads.nil _)

theorem demo_startsM : StartsM demoCs := by
  intro c a h
  simp only [demoCs, List.head?_cons, Option.some.injEq, Prod.mk.injEq] at h
  rw [← h.1]; decide +kernel

/-- The hypotheses of **C69** are met. -/
example : parsePath exactQ demoS = parsePath exactQ demoS' := by
  refine C69_relative exactQ demo_reads ?_ demo_reads' demo_startsM
  have step : ∀ (pen start : P ℚ) (C c : Char) (a b : List ℚ) (cs cs' : List (Char × List ℚ)), C ∈ "MLHVCSQTAZ".toList →
      c = lowerC C → b = toRel pen C a → RelForm (penAfter pen start C a) (if C = 'M' then penAfter pen start C a else start) cs cs' →
      RelForm pen start ((C, a) :: cs) ((c, b) :: cs') := by
    rintro pen start C c a b cs cs' hC rfl rfl h
    exact RelForm.rel pen start C a cs cs' hC h
  refine step _ _ 'M' 'm' [1, 2] [1, 2] _ _ (by decide +kernel) (by decide +kernel) (by decide +kernel) ?_
  refine step _ _ 'H' 'h' [5] [4] _ _ (by decide +kernel) (by decide +kernel) (by decide +kernel) ?_
  refine RelForm.same _ _ 'C' _ _ _ (by decide +kernel) ?_
  refine step _ _ 'S' 's' [9, 0, 8, 1] _ _ _ (by decide +kernel) (by decide +kernel) (by decide +kernel) ?_
  refine step _ _ 'Z' 'z' [] _ _ _ (by decide +kernel) (by decide +kernel) (by decide +kernel) ?_
  exact step _ _ 'L' 'l' [3, 3] _ _ _ (by decide +kernel) (by decide +kernel) (by decide +kernel) (RelForm.nil _ _)

/-- The hypotheses of **C70** are met, by a path with an `S`. -/
example : SmoothAfterCurve none demoCs ∧ parsePath exactQ demoS = (meaning svgRule Track.init demoCs, none) ∧
    (parsePath exactQ demoS).1[3]? = some ('C', [8, 0, 9, 0, 8, 1]) := by
  have h : SmoothAfterCurve none demoCs := by
    simp only [SmoothAfterCurve, demoCs]; decide +kernel
  exact ⟨h, C70_smooth_partial exactQ demo_reads demo_startsM h, by decide +kernel⟩

/-- The hypotheses of **C71** are met. -/
example : ∃ outs rest m, parsePath exactQ demoS = (outs ++ ('L', m) :: rest, none) ∧ outs.length = 4 ∧ lastMove outs = some m := by
  obtain ⟨outs, rest, m, h1, h2, h3, -⟩ := C71_close (pre := [('M', [1, 2]), ('H', [5]), ('C', [5, 3, 6, 4, 7, 2]), ('S', [9, 0, 8, 1])])
    exactQ (Or.inl rfl) demo_reads demo_startsM
  exact ⟨outs, rest, m, h1, h2, h3⟩

end Verif.Svg
