import Verif.GCode.Props2

/-!
# Properties C05, C11, C13, C14, C15, C17, C20, C21 of the G-code generator
-/

set_option linter.unusedSectionVars false

namespace Verif.GCode
open Verif PyFloat

variable {K : Type} [PyFloat K]

/-! ## C05 Repeating a move emits nothing -/

/-- A tolerance that never reports a value as different from itself.  True of every non-negative IEEE tolerance
(`t < |v - v|` is `t < 0` or a comparison with NaN) and of every non-negative tolerance in exact arithmetic
(`reflexive_exact`). -/
def ReflTol (t : K) : Prop := ∀ v : K, (t <. abs (v -. v)) = false

theorem reflexive_exact [Field K] [LinearOrder K] [IsStrictOrderedRing K] [ExactFloat K] {t : K} (h : 0 ≤ t) :
    ReflTol t := by
  intro v
  rw [ExactFloat.lt_eq, ExactFloat.abs_eq, ExactFloat.sub_eq]
  simpa using h

theorem newVal_again (g : Gen K) (base : Str) (kw : Kw K) (hb : base ∉ nonmodalGroup) (hf : kw.force = [])
    (h1 : ReflTol g.cfg.tol) (h2 : ReflTol g.cfg.angleTol) (g' : Gen K) (hc : g'.cfg = g.cfg)
    (hl : g'.last = (g.afterLoop base kw).last) (k : Char) (hk : k ∈ posKeys) : g'.newVal base kw k = none := by
  unfold Gen.newVal
  cases hv : kw.args k with
  | none => rfl
  | some v0 =>
    dsimp only
    rw [if_neg]
    rw [hf, hc]
    simp only [List.not_mem_nil, hb, or_false, false_or, Bool.not_eq_true]
    unfold Gen.hasChanged
    rw [hl, hc]
    simp only [Gen.afterLoop, hk, if_true]
    cases hn : g.newVal base kw k with
    | some w =>
      have hw : w = g.cfg.effVal k v0 := by
        simp only [Gen.newVal, hv] at hn
        split at hn
        · cases hn; rfl
        · cases hn
      subst hw
      simp only [Option.some_or]
      by_cases hA : k = 'A'
      · simp only [hA, if_true]; exact h2 _
      · simp only [hA, if_false]; exact h1 _
    | none =>
      simp only [Option.none_or]
      simp only [Gen.newVal, hv] at hn
      split at hn
      · cases hn
      · rename_i h
        push Not at h
        have := h.2.1
        simp only [Gen.hasChanged] at this
        simpa using this

theorem core_again (g : Gen K) (cmd : Str) (kw : Kw K) (hb : baseCmd cmd ∉ nonmodalGroup) (hm : baseCmd cmd ∈ motionGroup)
    (hf : kw.force = []) (h1 : ReflTol g.cfg.tol) (h2 : ReflTol g.cfg.angleTol) :
    (g.gcodeCore cmd kw).gcodeCore cmd kw = g.gcodeCore cmd kw := by
  have hcfg : (g.gcodeCore cmd kw).cfg = g.cfg := by
    rw [gcodeCore_eq]; split
    · rfl
    · split <;> rfl
  have hlast : (g.gcodeCore cmd kw).last = (g.afterLoop (baseCmd cmd) kw).last := by
    rw [gcodeCore_eq]; split
    · rfl
    · split <;> rfl
  generalize g.gcodeCore cmd kw = g' at hcfg hlast ⊢
  have hn : ∀ k ∈ posKeys, g'.newVal (baseCmd cmd) kw k = none :=
    fun k hk => newVal_again g _ kw hb hf h1 h2 g' hcfg hlast k hk
  have hno : g'.noParams (baseCmd cmd) kw = true := by
    simp only [Gen.noParams, List.isEmpty_iff, List.filter_eq_nil_iff]
    intro k hk; simp [hn k hk]
  have hem : g'.emitsParams (baseCmd cmd) kw = false := by
    have : (posKeys.filter fun k => (g'.newVal (baseCmd cmd) kw k).isSome) = [] := by
      rw [List.filter_eq_nil_iff]; intro k hk; simp [hn k hk]
    simp [Gen.emitsParams, this]
  rw [gcodeCore_eq, hem]
  simp only [Bool.false_eq_true, if_false, hm, not_true, decide_false, Bool.and_false]
  exact afterLoop_of_noParams _ _ _ hno

theorem motion_base (cmd : Str) (h : canonicalCmd cmd ∈ motionGroup) :
    baseCmd (canonicalCmd cmd) ∈ motionGroup ∧ baseCmd (canonicalCmd cmd) ∉ nonmodalGroup := by
  generalize canonicalCmd cmd = d at h
  simp only [motionGroup, List.mem_cons, List.not_mem_nil, or_false] at h
  rcases h with rfl | rfl | rfl | rfl <;> decide

/-- **C05 (partial)**.  From any state: repeating `gcode_command` with a motion command (any spelling) and the same
arguments, or repeating `feed` with the same arguments, leaves the whole generator state — output included —
unchanged.  Missing: `rapid_move` and `feed_arc`, which force words (refuted below). -/
theorem C05_repeat_emits_nothing_partial (g : Gen K) (h1 : ReflTol g.cfg.tol) (h2 : ReflTol g.cfg.angleTol) :
    (∀ cmd ∈ motionSpellings, ∀ kw : Kw K, kw.force = [] →
      ((g.gcodeCommand cmd kw).1.gcodeCommand cmd kw).1 = (g.gcodeCommand cmd kw).1) ∧
    (∀ x y z a f com com', (g.feed x y z a f com).feed x y z a f com' = g.feed x y z a f com) := by
  constructor
  · intro cmd hcmd kw hf
    have hm : canonicalCmd cmd ∈ motionGroup := by
      simp only [motionSpellings, List.map_cons, List.map_nil, List.mem_cons, List.not_mem_nil, or_false] at hcmd
      rcases hcmd with rfl | rfl | rfl | rfl | rfl | rfl | rfl | rfl | rfl | rfl | rfl | rfl | rfl | rfl | rfl | rfl <;>
        decide
    unfold Gen.gcodeCommand
    dsimp only
    split
    · rfl
    · split
      · rfl
      · exact core_again g _ kw (motion_base cmd hm).2 (motion_base cmd hm).1 hf h1 h2
  · intro x y z a f com com'
    have hcom : ∀ (g : Gen K) args, (∀ k ∈ posKeys, g.newVal "G01".toList ⟨args, none, [], com'⟩ k = none) →
        g.gcodeCore "G01".toList ⟨args, none, [], com'⟩ = g := by
      intro g args hn
      have hb : baseCmd "G01".toList = "G01".toList := by decide
      have hno : g.noParams (baseCmd "G01".toList) ⟨args, none, [], com'⟩ = true := by
        simp only [Gen.noParams, List.isEmpty_iff, List.filter_eq_nil_iff]
        intro k hk; rw [hb, hn k hk]; simp
      have hem : g.emitsParams (baseCmd "G01".toList) ⟨args, none, [], com'⟩ = false := by
        have : (posKeys.filter fun k => (g.newVal (baseCmd "G01".toList) ⟨args, none, [], com'⟩ k).isSome) = [] := by
          rw [List.filter_eq_nil_iff]; intro k hk; rw [hb, hn k hk]; simp
        simp only [Gen.emitsParams, this]; rfl
      have hm : baseCmd "G01".toList ∈ motionGroup := by decide
      rw [gcodeCore_eq, hem]
      simp only [Bool.false_eq_true, if_false, hm, not_true, decide_false, Bool.and_false]
      exact afterLoop_of_noParams _ _ _ hno
    have hcfg : (g.feed x y z a f com).cfg = g.cfg := by
      unfold Gen.feed; split
      · rfl
      · exact command_cfg _ _ _
    generalize hg' : g.feed x y z a f com = g' at hcfg ⊢
    unfold Gen.feed at hg' ⊢
    rw [hcfg]
    cases hp : g.cfg.pickFeed x y z a f with
    | none => rfl
    | some ff =>
      rw [hp] at hg'
      dsimp only at hg' ⊢
      have hcan : canonicalCmd "G01".toList = "G01".toList := by decide
      have hb : baseCmd "G01".toList = "G01".toList := by decide
      have he : "G01".toList.isEmpty = false := rfl
      unfold Gen.command at hg' ⊢
      simp only [he, hcan, Bool.false_eq_true, if_false] at hg' ⊢
      apply hcom
      intro k hk
      have hlast : g'.last = (g.afterLoop "G01".toList
          ⟨kwOf [('X', x), ('Y', y), ('Z', z), ('A', a), ('F', some ff)], none, [], com⟩).last := by
        rw [← hg', gcodeCore_eq, hb]; split
        · rfl
        · split <;> rfl
      exact newVal_again g "G01".toList
        ⟨kwOf [('X', x), ('Y', y), ('Z', z), ('A', a), ('F', some ff)], none, [], com⟩ (by decide) rfl h1 h2 g' hcfg
        hlast k hk

/-- Non-vacuity: the demo tolerances are reflexive and the first `feed` does emit. -/
example : ReflTol demo.cfg.tol ∧ ReflTol demo.cfg.angleTol ∧
    blocksOf (demo.feed (some 1) none none none).out = [⟨"G01".toList, [⟨['X'], .num 6 1⟩, ⟨['F'], .num 6 10⟩]⟩] := by
  have h : (0 : ℚ) ≤ 1/1000000 := by norm_num
  refine ⟨reflexive_exact h, reflexive_exact h, ?_⟩
  decide +kernel

/-- **C05 refuted for `rapid_move`**: repeating it re-emits the retract. -/
theorem C05_refuted_rapid_move :
    blocksOf ((demo.rapidMove (some 1) none none none).rapidMove (some 1) none none none).out =
      blocksOf (demo.rapidMove (some 1) none none none).out ++ [⟨"G00".toList, [⟨['Z'], .num 6 1⟩]⟩] := by
  decide +kernel

/-! ## C11 Dwell -/

/-- **C11**.  From any state `dwell(ms)` writes exactly one line, `G04 P<ms/1000>`, when `ms > 0` and nothing
otherwise, and leaves the machine's axes and feed rate as they were. -/
theorem C11_dwell (g : Gen K) (ms : K) (com : Option Str) :
    blocksOf (g.dwell ms com).out = blocksOf g.out ++
      (if zero <. ms then [⟨"G04".toList, [⟨['P'], .num 4 (ms /. ofInt 1000)⟩]⟩] else [])
    ∧ ((zero <. ms) = false → g.dwell ms com = g)
    ∧ (g.dwell ms com).machine.pos = g.machine.pos ∧ (g.dwell ms com).machine.feed = g.machine.feed
    ∧ (g.dwell ms com).last = g.last := by
  have hadd := adds_dwell g ms com
  refine ⟨hadd, ?_, ?_, ?_, dwell_last _ _ _⟩
  · intro h; unfold Gen.dwell; simp [h]
  · rw [hadd.machine]; split
    · exact (exec_stationary g.machine ⟨"G04".toList, [⟨['P'], .num 4 (ms /. ofInt 1000)⟩]⟩ (by dsimp only; decide)).1
    · rfl
  · rw [hadd.machine]; split
    · exact (exec_stationary g.machine ⟨"G04".toList, [⟨['P'], .num 4 (ms /. ofInt 1000)⟩]⟩ (by dsimp only; decide)).2
    · rfl

/-- Test: half a second. -/
example : (demo.dwell 500 (some [])).text = "G04 P0.5000\n".toList := by decide +kernel

/-! ## C13 Arc radii -/

/-- **C13 refuted (general form)**.  In exact arithmetic, with a positive tolerance and a `hypot` that is symmetric
under negation, `feed_arc` from a known X/Y position never raises, whatever the end point is: the check compares the
start radius with itself. -/
theorem C13_refuted_never_raises [Field K] [LinearOrder K] [IsStrictOrderedRing K] [ExactFloat K]
    (hh : ∀ a b : K, hypot (-a) (-b) = hypot a b) (g : Gen K) (ht : 0 < g.cfg.tol)
    (px py : K) (hx : g.position ['X'] = .ok (some px)) (hy : g.position ['Y'] = .ok (some py))
    (cw : Bool) (x y i j : K) (a z feed : Option K) (com : Option Str) :
    (g.feedArc cw x y i j a z feed com).2 = none := by
  have e1 : upperS ['X'] = ['X'] ∧ 'X' ∈ orderedParams := by decide
  have e2 : upperS ['Y'] = ['Y'] ∧ 'Y' ∈ orderedParams := by decide
  simp only [Gen.position, e1.1, e1.2, if_true, Except.ok.injEq] at hx
  simp only [Gen.position, e2.1, e2.2, if_true, Except.ok.injEq] at hy
  unfold Gen.feedArc
  rw [hx, hy]
  dsimp only
  have hr : hypot (px -. (i +. px)) (py -. (j +. py)) = hypot i j := by
    simp only [ExactFloat.sub_eq, ExactFloat.add_eq]
    rw [← hh i j]; congr 1 <;> ring
  have : g.floatEq (hypot (px -. (i +. px)) (py -. (j +. py))) (hypot i j) = true := by
    rw [hr]; unfold Gen.floatEq
    rw [ExactFloat.lt_eq, ExactFloat.abs_eq, ExactFloat.sub_eq]; simpa using ht
  rw [this]; rfl

/-- **C13 refuted (witness)**: from (0, 0), an arc about (1, 0) "ending" at (9, 9) — eight units off its circle — is
emitted without complaint. -/
theorem C13_refuted :
    blocksOf (demo.run [.rapidMove (some 0) (some 0) none none none, .feedArc true 9 9 1 0 none none none none]).out =
      [⟨"G00".toList, [⟨['Z'], .num 6 1⟩]⟩, ⟨"G00".toList, [⟨['X'], .num 6 0⟩, ⟨['Y'], .num 6 0⟩]⟩,
       ⟨"G02".toList, [⟨['X'], .num 6 9⟩, ⟨['Y'], .num 6 9⟩, ⟨['I'], .num 6 1⟩, ⟨['J'], .num 6 0⟩, ⟨['F'], .num 6 10⟩]⟩] := by
  decide +kernel

/-- The image of an arc centre offset: scale, offset, unit scale. -/
def centreImage (c : Cfg K) (axis : Char) (v : K) : K :=
  (v *. (c.axisScale axis).getD one +. (c.axisOffset axis).getD zero) *. c.unitScale

/-- **C13 (partial)**.  What the emitted arc does guarantee: from any state, an accepted `feed_arc` adds exactly one
line, `G02` iff clockwise (else `G03`), which always carries both centre words with exactly the given offsets — so
the centre the controller uses is the requested one relative to its start point.  Missing: that the end
point lies on the circle (refuted above). -/
theorem C13_arc_centre_partial (g : Gen K) (hm : g.cfg.axisMap = fun _ => none) (cw : Bool) (x y i j : K)
    (a z feed : Option K) (com : Option Str) (hok : (g.feedArc cw x y i j a z feed com).2 = none) :
    ∃ b, blocksOf (g.feedArc cw x y i j a z feed com).1.out = blocksOf g.out ++ [b] ∧
      b.cmd = (if cw then "G02".toList else "G03".toList) ∧
      (⟨['I'], .num g.cfg.digits (centreImage g.cfg 'I' i)⟩ : Word K) ∈ b.words ∧
      (⟨['J'], .num g.cfg.digits (centreImage g.cfg 'J' j)⟩ : Word K) ∈ b.words := by
  unfold Gen.feedArc at hok ⊢
  split at hok
  · dsimp only at hok ⊢
    split at hok
    · cases hok
    · rename_i hne
      simp only [hne, if_false]
      generalize hkw : kwOf [('X', some x), ('Y', some y), ('Z', z), ('I', some i), ('J', some j), ('A', a),
            ('F', some (feed.getD g.cfg.xyfeed))] = args
      have hI : args 'I' = some i := by subst hkw; simp [kwOf]
      have hJ : args 'J' = some j := by subst hkw; simp [kwOf]
      unfold Gen.command
      have he : (if cw then "G02".toList else "G03".toList).isEmpty = false := by cases cw <;> rfl
      have hcan : canonicalCmd (if cw then "G02".toList else "G03".toList) =
        (if cw then "G02".toList else "G03".toList) := by cases cw <;> decide
      simp only [he, hcan, Bool.false_eq_true, if_false]
      generalize (if cw then "G02".toList else "G03".toList) = cmd
      have nI : g.newVal (baseCmd cmd) ⟨args, none, ['I', 'J'], com⟩ 'I' = some i := by
        simp [Gen.newVal, hI, Cfg.effVal]
      have nJ : g.newVal (baseCmd cmd) ⟨args, none, ['I', 'J'], com⟩ 'J' = some j := by
        simp [Gen.newVal, hJ, Cfg.effVal]
      have hem : g.emitsParams (baseCmd cmd) ⟨args, none, ['I', 'J'], com⟩ = true := by
        by_contra h
        have h := newVal_of_suppressed g _ _ (by simpa using h) 'I' (by decide) (by decide)
        rw [nI] at h; cases h
      rw [gcodeCore_eq, if_pos hem]
      refine ⟨_, adds_writeLine (g.afterLoop _ _) _ _, rfl, ?_, ?_⟩
      · rw [wordsOf_plain _ hm]
        simp only [List.mem_filterMap]
        refine ⟨'I', by decide, ?_⟩
        have : 'I' ∈ posKeys := by decide
        simp only [Gen.posParams, this, if_true, nI]
        simp [centreImage, Cfg.outVal]
      · rw [wordsOf_plain _ hm]
        simp only [List.mem_filterMap]
        refine ⟨'J', by decide, ?_⟩
        have : 'J' ∈ posKeys := by decide
        simp only [Gen.posParams, this, if_true, nJ]
        simp [centreImage, Cfg.outVal]
  · cases hok

/-- Non-vacuity: an accepted arc. -/
example : ((demo.run [.rapidMove (some 0) (some 0) none none none]).feedArc false 2 0 1 0).2 = none := by
  decide +kernel

/-! ## C14 feed_rate -/

/-- **C14 (partial)**.  When no feed rate is known yet, `feed_rate(f)` writes exactly the line `F<f>` and remembers
`f`, and the machine then has feed rate `f`.  Missing: once a feed rate is known it raises (refuted below). -/
theorem C14_first_feed_rate_partial (g : Gen K) (f : K) (h : g.position ['F'] = .ok none) :
    (g.feedRate f).2 = none ∧
    blocksOf (g.feedRate f).1.out = blocksOf g.out ++ [⟨[], [⟨['F'], .num g.cfg.digits f⟩]⟩] ∧
    (g.feedRate f).1.position ['F'] = .ok (some f) ∧ (g.feedRate f).1.machine.feed = some f := by
  have e1 : upperS ['F'] = ['F'] ∧ 'F' ∈ orderedParams := by decide
  simp only [Gen.position, e1.1, e1.2, if_true, Except.ok.injEq] at h ⊢
  unfold Gen.feedRate
  rw [h]
  dsimp only
  refine ⟨rfl, writeLine_blocks _ _ _, by rw [upd_same], ?_⟩
  show (g.writeLine _ _).machine.feed = _
  rw [writeLine_machine]
  rfl

/-- **C14 refuted**: whenever a feed rate is known, `feed_rate` raises `TypeError` and emits nothing, for every `f` —
so the default feed rate can be set only once, and a second `header()` fails. -/
theorem C14_refuted (g : Gen K) (f l : K) (h : g.position ['F'] = .ok (some l)) :
    g.feedRate f = (g, some .typeError) := by
  have e1 : upperS ['F'] = ['F'] ∧ 'F' ∈ orderedParams := by decide
  simp only [Gen.position, e1.1, e1.2, if_true, Except.ok.injEq] at h
  unfold Gen.feedRate
  rw [h]

example : (demo.run [.feedRate 5]).last 'F' = some 5 ∧ ((demo.run [.header [] .none]).header [] .none).2 = some .typeError := by
  decide +kernel

/-! ## C15 normalize_axis_angle -/

/-- **C15 (partial)**.  In exact arithmetic, from any state: `normalize_axis_angle(axis)` on a rotary axis with known
angle does nothing when `|angle| ≤ 2π`; otherwise it writes one line and leaves the axis at an angle that differs
from the old one by a whole number of turns.  Missing: that the new angle is in `[0, 2π)` (refuted below). -/
theorem C15_congruent_partial [Field K] [LinearOrder K] [IsStrictOrderedRing K] [ExactFloat K] (g : Gen K) (ax : Char)
    (hax : ax ∈ ['A', 'B', 'C']) (angle : K) (ha : g.position [ax] = .ok (some angle)) :
    (|angle| ≤ 2 * pi → g.normalizeAxisAngle [ax] = (g, none)) ∧
    (2 * pi < |angle| → ∃ (n : ℤ) (b : Block K), (g.normalizeAxisAngle [ax]).2 = none ∧
      (g.normalizeAxisAngle [ax]).1.position [ax] = .ok (some (angle - 2 * pi * n)) ∧
      blocksOf (g.normalizeAxisAngle [ax]).1.out = blocksOf g.out ++ [b]) := by
  have e1 : upperS [ax] = [ax] ∧ ax ∈ orderedParams ∧ inABC [ax] = true := by
    simp only [List.mem_cons, List.not_mem_nil, or_false] at hax
    rcases hax with rfl | rfl | rfl <;> decide
  simp only [Gen.position, e1.1, e1.2.1, if_true, Except.ok.injEq] at ha ⊢
  unfold Gen.normalizeAxisAngle
  simp only [e1.1, e1.2.2, ha, Bool.not_true, Bool.false_eq_true, if_false]
  have hlt : ((ofInt 2 *. pi : K) <. PyFloat.abs angle) = decide (2 * pi < |angle|) := by
    rw [ExactFloat.lt_eq, ExactFloat.mul_eq, ExactFloat.ofInt_eq, ExactFloat.abs_eq]; norm_num
  rw [hlt]
  constructor
  · intro h; simp [not_lt.mpr h]
  · intro h
    simp only [h, decide_true, if_true]
    obtain ⟨n, hn, _, _⟩ := ExactFloat.floor_spec (angle /. ofInt 2 *. pi : K)
    refine ⟨n, _, trivial, ?_, writeLine_blocks _ _ _⟩
    rw [upd_same]
    congr 2
    unfold normAngle
    rw [hn]
    simp only [ExactFloat.sub_eq, ExactFloat.mul_eq, ExactFloat.ofInt_eq]
    norm_num

/-- A rotary axis that has been fed to 7 radians. -/
def demoTurned : Gen ℚ := demo.feed none none none (some 7)

/-- Non-vacuity: 7 radians is more than a turn. -/
example : demoTurned.last 'A' = some 7 ∧ 2 * (pi : ℚ) < 7 := by decide +kernel

/-- **C15 refuted (range)**: normalising 7 radians leaves the axis below −55 radians instead of in `[0, 2π)`. -/
theorem C15_refuted_range :
    ∃ v, (demoTurned.normalizeAxisAngle ['A']).1.last 'A' = some v ∧ v < -55 := by
  refine ⟨7 - 2 * piRat * 10, ?_, ?_⟩
  · decide +kernel
  · norm_num [piRat]

/-- **C15 refuted (machine)**: the line written is `G92 A=…`, whose word is not a letter followed by a number, so the
reference controller no longer knows where the axis is. -/
theorem C15_refuted_word : demoTurned.machine.pos 'A' ≠ none ∧
    (demoTurned.normalizeAxisAngle ['A']).1.machine.pos 'A' = none := by
  decide +kernel

/-! ## C17 Units -/

/-- The unit text a call tries to set, if any. -/
def unitRequest : Call K → Option Str
  | .setUnitProp u => some u
  | .setUnits u _ => some u
  | _ => none

/-- **C17 (invariant)**.  Starting from a valid unit, after any history the unit is inches or millimetres. -/
theorem C17_unit_invariant (g : Gen K) (calls : List (Call K)) (h : g.cfg.gcUnit = "in".toList ∨ g.cfg.gcUnit = "mm".toList) :
    (g.run calls).cfg.gcUnit = "in".toList ∨ (g.run calls).cfg.gcUnit = "mm".toList := by
  induction calls generalizing g with
  | nil => exact h
  | cons c cs ih =>
    apply ih
    by_cases hcf : c.isConfig = true
    · cases c <;> simp only [Call.isConfig, Bool.false_eq_true] at hcf <;> dsimp only [Gen.step]
      all_goals try exact h
      · unfold Gen.setUnitProp; split
        · rename_i hu; simpa using hu
        · exact h
      · unfold Gen.setUnits; split
        · rename_i hu; simpa using hu
        · exact h
      · unfold Gen.setPathBlending; dsimp only; split <;> exact h
    · rw [step_cfg g c (by simpa using hcf)]; exact h

/-- **C17 (refusal)**.  A call that asks for any other unit raises `GCodeException` and changes nothing; asking for
`'in'` or `'mm'` succeeds. -/
theorem C17_bad_unit_refused (g : Gen K) (c : Call K) (u : Str) (hu : unitRequest c = some u) :
    (u ≠ "in".toList ∧ u ≠ "mm".toList → g.step c = (g, some .gcode)) ∧
    (u = "in".toList ∨ u = "mm".toList → (g.step c).2 = none ∧ (g.step c).1.cfg.gcUnit = u) := by
  cases c <;> simp only [unitRequest, Option.some.injEq, reduceCtorEq] at hu <;> subst hu <;> dsimp only [Gen.step]
  · constructor
    · intro h; unfold Gen.setUnitProp; rw [if_neg]; simp only [List.mem_cons, List.not_mem_nil, or_false, h.1, h.2, not_false_iff, or_self]
    · intro h; unfold Gen.setUnitProp
      rw [if_pos (by simpa using h)]; exact ⟨rfl, rfl⟩
  · constructor
    · intro h; unfold Gen.setUnits; rw [if_neg]; simp only [List.mem_cons, List.not_mem_nil, or_false, h.1, h.2, not_false_iff, or_self]
    · intro h; unfold Gen.setUnits
      rw [if_pos (by simpa using h)]; exact ⟨rfl, rfl⟩

/-! ## C20 Program framing -/

/-- The path-blending line of a header. -/
def blendBlocks (c : Cfg K) : List (Block K) :=
  if c.blendMode = some "blend".toList then
    match c.blendTol, c.blendQTol with
    | none, _ => [⟨"G64".toList, []⟩]
    | some p, none => [⟨"G64".toList, [⟨['P'], .num c.digits p⟩]⟩]
    | some p, some q => [⟨"G64".toList, [⟨['P'], .num c.digits p⟩, ⟨['Q'], .num c.digits q⟩]⟩]
  else if c.blendMode = some "exact".toList then [⟨"G61".toList, []⟩] else []

theorem adds_headerBlend (g : Gen K) : Adds g g.headerBlend (blendBlocks g.cfg) := by
  unfold Gen.headerBlend blendBlocks
  split
  · cases g.cfg.blendTol with
    | none => exact adds_writeLine _ _ _
    | some p =>
      cases g.cfg.blendQTol with
      | none => exact adds_writeLine _ _ _
      | some q => exact adds_writeLine _ _ _
  · split
    · exact adds_writeLine _ _ _
    · exact adds_refl _

theorem headerBlend_cfg (g : Gen K) : g.headerBlend.cfg = g.cfg := by
  unfold Gen.headerBlend; repeat' split
  all_goals rfl

theorem headerBlend_last (g : Gen K) : g.headerBlend.last = g.last := by
  unfold Gen.headerBlend; repeat' split
  all_goals rfl

/-- The set-up lines every header writes before anything else. -/
def setupBlocks (c : Cfg K) : List (Block K) :=
  [⟨"G17".toList, []⟩, ⟨if c.gcUnit = "mm".toList then "G21".toList else "G20".toList, []⟩, ⟨"G90".toList, []⟩,
   ⟨"G40".toList, []⟩, ⟨"G49".toList, []⟩] ++ blendBlocks c

theorem adds_headerModal (g : Gen K) : Adds g g.headerModal (setupBlocks g.cfg) ∧ g.headerModal.cfg = g.cfg
    ∧ g.headerModal.last = g.last := by
  unfold Gen.headerModal setupBlocks
  dsimp only [writeLine_cfg]
  by_cases hmm : g.cfg.gcUnit = "mm".toList
  · simp only [hmm, if_true]
    refine ⟨?_, by rw [headerBlend_cfg]; rfl, by rw [headerBlend_last]; rfl⟩
    have h := adds_headerBlend (((((g.writeLine ⟨"G17".toList, []⟩ (some "XY plane".toList)).writeLine ⟨"G21".toList, []⟩
      (some "Units are in millimeters".toList)).writeLine ⟨"G90".toList, []⟩ (some "Use absolute positioning".toList)).writeLine
      ⟨"G40".toList, []⟩ (some "Cancel tool diameter compensation".toList)).writeLine ⟨"G49".toList, []⟩
      (some "Cancel tool length compensation".toList))
    unfold Adds at h ⊢
    rw [h]
    simp
  · simp only [hmm, if_false]
    refine ⟨?_, by rw [headerBlend_cfg]; rfl, by rw [headerBlend_last]; rfl⟩
    have h := adds_headerBlend (((((g.writeLine ⟨"G17".toList, []⟩ (some "XY plane".toList)).writeLine ⟨"G20".toList, []⟩
      (some "Units are in inches".toList)).writeLine ⟨"G90".toList, []⟩ (some "Use absolute positioning".toList)).writeLine
      ⟨"G40".toList, []⟩ (some "Cancel tool diameter compensation".toList)).writeLine ⟨"G49".toList, []⟩
      (some "Cancel tool length compensation".toList))
    unfold Adds at h ⊢
    rw [h]
    simp

/-- **C20 (header)**.  From any state the lines `header()` writes are: plane selection `G17`, the unit command
(`G21` exactly for millimetres, else `G20`), `G90`, `G40`, `G49`, the configured path-blending line, and — if no feed
rate is known yet — the default feed rate.  In particular the header moves nothing, and (C17) for a generator
whose unit is inches or millimetres it declares `G20` exactly for inches. -/
theorem C20_header_lines (g : Gen K) (today : Str) (com : CommentArg) :
    blocksOf (g.header today com).1.out = blocksOf g.out ++
      [⟨"G17".toList, []⟩, ⟨if g.cfg.gcUnit = "mm".toList then "G21".toList else "G20".toList, []⟩, ⟨"G90".toList, []⟩,
       ⟨"G40".toList, []⟩, ⟨"G49".toList, []⟩] ++ blendBlocks g.cfg ++
      (match g.position ['F'] with
        | .ok none => [⟨[], [⟨['F'], .num g.cfg.digits g.cfg.xyfeed⟩]⟩]
        | _ => []) := by
  have e1 : upperS ['F'] = ['F'] ∧ 'F' ∈ orderedParams := by decide
  have hpos : g.position ['F'] = .ok (g.last 'F') := by simp only [Gen.position, e1.1, e1.2, if_true]
  rw [hpos, header_eq]
  dsimp only
  have hq := quiet_headerFront g today com
  have hm := adds_headerModal (g.headerFront today com)
  rw [hq.cfg, hq.last] at hm
  generalize (g.headerFront today com).headerModal = g1 at hm ⊢
  have h2 : Quiet g1 ((g1.writeRaw ['\n']).comment (.one "Default feed rate".toList)) :=
    (quiet_writeRaw _ _).trans (quiet_comment _ _ _)
  generalize (g1.writeRaw ['\n']).comment (.one "Default feed rate".toList) = g2 at h2 ⊢
  have hb : blocksOf g2.out = blocksOf g.out ++ setupBlocks g.cfg := by
    rw [h2.blocks, hm.1, hq.blocks]
  have hc2 : g2.cfg = g.cfg := h2.cfg.trans hm.2.1
  have hl2 : g2.last = g.last := h2.last.trans hm.2.2
  unfold Gen.feedRate
  rw [hl2, hc2]
  cases hf : g.last 'F' with
  | none =>
    dsimp only
    rw [writeRaw_blocks]
    show blocksOf (g2.writeLine _ _).out = _
    rw [writeLine_blocks, hb]
    simp [setupBlocks]
  | some l =>
    dsimp only
    rw [hb]
    simp [setupBlocks]

/-- **C20 (header text)**.  `header()` on an empty stream starts the program text with a percent line. -/
theorem C20_header_percent (g : Gen K) (h : g.out = []) (today : Str) (com : CommentArg) :
    "%\n".toList <+: (g.header today com).1.text := by
  -- the output only ever grows, and the percent line is written first
  have grow : ∀ (g1 g2 : Gen K), g1.out <+: g2.out → g1.text <+: g2.text := by
    rintro g1 g2 ⟨t, ht⟩
    unfold Gen.text
    rw [← ht, List.map_append, List.flatten_append]
    exact List.prefix_append _ _
  have h0 : ∀ g' : Gen K, (g.writeRaw ['%', '\n']).out <+: g'.out → "%\n".toList <+: g'.text := by
    intro g' hp
    refine List.IsPrefix.trans ?_ (grow _ _ hp)
    unfold Gen.text Gen.writeRaw
    rw [h]
    exact ⟨[], by simp [Out.render]⟩
  apply h0
  -- every later step preserves the prefix
  have hst : Stable g.cfg (fun g' : Gen K => (g.writeRaw ['%', '\n']).out <+: g'.out) := by
    refine ⟨?_, ?_, ?_⟩
    · intro g' s _ hp; exact hp.trans (List.prefix_append _ _)
    · intro g' b c _ _ hp; exact hp.trans (List.prefix_append _ _)
    · intro g' l up r _ hp; exact hp
  -- split off the first write
  have : ∀ g1 : Gen K, g1.cfg = g.cfg → (g.writeRaw ['%', '\n']).out <+: g1.out →
      ∀ f : Gen K → Gen K, Pres (fun g' : Gen K => (g.writeRaw ['%', '\n']).out <+: g'.out) g1 (f g1) →
        (g.writeRaw ['%', '\n']).out <+: (f g1).out := fun g1 _ hp f hf => hf.2 hp
  have hfront : (g.writeRaw ['%', '\n']).out <+: (g.headerFront today com).out := by
    unfold Gen.headerFront
    dsimp only
    have p0 : (g.writeRaw ['%', '\n']).out <+: (g.writeRaw ['%', '\n']).out := List.prefix_refl _
    have c0 : (g.writeRaw ['%', '\n']).cfg = g.cfg := rfl
    generalize hg0 : g.writeRaw ['%', '\n'] = g0 at *
    have p1 := pres_comment hst g0 (.one headerDashes) true c0
    have p2 := p1.trans (pres_comment hst _ (.one ("Creation date: ".toList ++ today)) true (p1.1.trans c0))
    have p3 := p2.trans (pres_comment hst _ (.one "Target machine: LinuxCNC, version 2.4+".toList) true (p2.1.trans c0))
    generalize ((g0.comment (.one headerDashes)).comment (.one ("Creation date: ".toList ++ today))).comment
      (.one "Target machine: LinuxCNC, version 2.4+".toList) = g3 at p3 ⊢
    have p4 := p3.trans (pres_foldl hst (fun g c => g.comment c) (fun g c hc => pres_comment hst g c true hc)
      g3.cfg.headerComments g3 (p3.1.trans c0))
    generalize g3.cfg.headerComments.foldl (fun g c => g.comment c) g3 = g4 at p4 ⊢
    have p5 : Pres (fun g' : Gen K => g0.out <+: g'.out) g0 (g4.headerComment com) := by
      unfold Gen.headerComment
      split
      · exact p4
      · exact p4.trans (pres_comment hst _ _ _ (p4.1.trans c0))
    have p6 := p5.trans (pres_comment hst _ (.one headerDashes) true (p5.1.trans c0))
    have p7 := p6.trans (pres_writeRaw hst _ ['\n'] (p6.1.trans c0))
    exact p7.2 p0
  have hcf : (g.headerFront today com).cfg = g.cfg := (quiet_headerFront g today com).cfg
  rw [header_eq]
  dsimp only
  have hm : (g.writeRaw ['%', '\n']).out <+: (g.headerFront today com).headerModal.out := by
    refine hfront.trans ?_
    unfold Gen.headerModal Gen.headerBlend
    dsimp only
    repeat' split
    all_goals
      simp only [Gen.writeLine, List.append_assoc]
      exact List.prefix_append _ _
  have hmc := adds_headerModal (g.headerFront today com)
  generalize (g.headerFront today com).headerModal = g5 at hm hmc ⊢
  have c5 : g5.cfg = g.cfg := hmc.2.1.trans hcf
  have p8 := pres_writeRaw hst g5 ['\n'] c5
  have p9 := p8.trans (pres_comment hst _ (.one "Default feed rate".toList) true (p8.1.trans c5))
  generalize (g5.writeRaw ['\n']).comment (.one "Default feed rate".toList) = g6 at p9 ⊢
  have p10 := p9.trans (pres_feedRate hst g6 g6.cfg.xyfeed (p9.1.trans c5))
  generalize g6.feedRate g6.cfg.xyfeed = r at p10 ⊢
  obtain ⟨g7, e⟩ := r
  cases e
  · dsimp only
    exact (p10.trans (pres_writeRaw hst g7 _ (p10.1.trans c5))).2 hm
  · exact p10.2 hm

/-- **C20 (footer)**.  From any state, `footer()` appends: `G92.1` exactly if an axis was renormalised, then `M2`, and the
program text ends with `M2`'s line followed by a percent line. -/
theorem C20_footer (g : Gen K) :
    blocksOf g.footer.out = blocksOf g.out ++
      (if g.offsetReset then [⟨"G92.1".toList, []⟩] else []) ++ [⟨"M2".toList, []⟩]
    ∧ (∃ n com, g.footer.out.drop (g.footer.out.length - 2) = [.line n ⟨"M2".toList, []⟩ com, .raw "%\n".toList])
    ∧ "%\n".toList <:+ g.footer.text := by
  have h92 : ∀ g1 : Gen K, g1.command "G92.1".toList { comment := some "Reset axis offsets to zero".toList } =
      g1.writeLine ⟨"G92.1".toList, []⟩ (some "Reset axis offsets to zero".toList) := by
    intro g1
    unfold Gen.command
    have he : "G92.1".toList.isEmpty = false := rfl
    have hcan : canonicalCmd "G92.1".toList = "G92.1".toList := by decide
    simp only [he, hcan, Bool.false_eq_true, if_false]
    rw [gcodeCore_eq]
    have hno : ∀ b, g1.noParams b ⟨fun _ => none, none, [], some "Reset axis offsets to zero".toList⟩ = true := by
      intro b; simp [Gen.noParams, Gen.newVal]
    have hem : ∀ b, g1.emitsParams b ⟨fun _ => none, none, [], some "Reset axis offsets to zero".toList⟩ = false := by
      intro b; simp [Gen.emitsParams, Gen.newVal]
    have hb : baseCmd "G92.1".toList ∉ motionGroup := by decide
    rw [hem, hno]
    simp only [Bool.false_eq_true, if_false, hb, not_false_iff, decide_true, Bool.and_true, if_true]
    rw [afterLoop_of_noParams _ _ _ (hno _)]
    rfl
  refine ⟨?_, ?_, ?_⟩
  · unfold Gen.footer
    dsimp only
    rw [writeRaw_blocks, writeLine_blocks]
    rw [writeRaw_offsetReset]
    cases g.offsetReset
    · simp
    · simp only [if_true, h92, writeLine_blocks, writeRaw_blocks]
  · unfold Gen.footer
    dsimp only
    generalize (if (g.writeRaw ['\n']).offsetReset = true then _ else _ : Gen K) = g1
    refine ⟨if g1.cfg.showLineNumbers then some g1.lineNumber else none,
      if g1.cfg.showComments then (some "End program.".toList).filter (fun c => !c.isEmpty) else none, ?_⟩
    have : ∀ a b : Out K, (g1.out ++ [a] ++ [b]).drop ((g1.out ++ [a] ++ [b]).length - 2) = [a, b] := by
      intro a b; simp
    exact this _ _
  · unfold Gen.footer
    dsimp only
    generalize Gen.writeLine _ _ _ = g1
    unfold Gen.text Gen.writeRaw
    rw [List.map_append, List.flatten_append]
    exact List.suffix_append_of_suffix (List.suffix_refl _)

/-- Test: a short program text. -/
example : (demo.run [.setShowComments false, .header [] .none, .footer]).text =
    "%\n\nG17\nG20\nG90\nG40\nG49\n\nF10.000000\n\n\n\nM2\n%\n".toList := by
  decide +kernel

/-! ## C21 Arc from an unknown position -/

/-- **C21**.  If X or Y has never been commanded, `feed_arc` raises and leaves the whole state (output included)
unchanged, whatever its arguments. -/
theorem C21_arc_needs_position (g : Gen K) (h : g.position ['X'] = .ok none ∨ g.position ['Y'] = .ok none)
    (cw : Bool) (x y i j : K) (a z feed : Option K) (com : Option Str) :
    g.feedArc cw x y i j a z feed com = (g, some .typeError) := by
  have e1 : upperS ['X'] = ['X'] ∧ 'X' ∈ orderedParams := by decide
  have e2 : upperS ['Y'] = ['Y'] ∧ 'Y' ∈ orderedParams := by decide
  simp only [Gen.position, e1.1, e1.2, e2.1, e2.2, if_true, Except.ok.injEq] at h
  unfold Gen.feedArc
  rcases h with h | h
  · rw [h]
  · rw [h]
    cases g.last 'X' <;> rfl

/-- Non-vacuity: X known, Y not. -/
example : (demo.run [.rapidMove (some 1) none none none none]).last 'X' = some 1 ∧
    (demo.run [.rapidMove (some 1) none none none none]).last 'Y' = none := by decide +kernel

end Verif.GCode
