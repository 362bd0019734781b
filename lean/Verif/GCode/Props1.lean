import Verif.GCode.Induct

/-!
# Properties C01, C02, C04, C07, C08, C09, C11, C17, C21 of the G-code generator

All theorems here are law-free: they hold for every `PyFloat K`, in particular IEEE doubles.
-/

set_option linter.unusedSectionVars false

namespace Verif.GCode
open Verif PyFloat

variable {K : Type} [PyFloat K]

/-! ## C01 Tracked position equals machine position -/

/-- Specification of the coordinate mapping: reported user value to machine word value. -/
def specImage (c : Cfg K) (axis : Char) (v : K) : K :=
  let w := v *. (c.axisScale axis).getD one +. (c.axisOffset axis).getD zero
  if axis = 'A' then degrees w else w *. c.unitScale

theorem specImage_eq (c : Cfg K) (k : Char) (hk : k ∈ trackedAxes) : specImage c k = c.outVal k := by
  funext v
  simp only [trackedAxes, List.mem_cons, List.not_mem_nil, or_false] at hk
  rcases hk with rfl | rfl | rfl | rfl <;> simp [specImage, Cfg.outVal]

/-- A generator that has not produced anything yet.  Any configuration is allowed, except axis renaming (treated in
C18) and opaque alternate tool commands (whose effect on the machine is unknown). -/
structure Fresh (g : Gen K) : Prop where
  out : g.out = []
  last : g.last = fun _ => none
  reset : g.offsetReset = false
  map : g.cfg.axisMap = fun _ => none
  altUp : g.cfg.altUp = none
  altDown : g.cfg.altDown = none

/-- The calls for which position tracking is claimed: all calls except
* changes of axis scale, axis offset, unit scale or axis names after the start (see `C01_refuted_rescale`),
* installing opaque alternate tool commands,
* `normalize_axis_angle('A')` (it writes the unreadable word `A=…`, see C15),
* `gcode_command` with something other than motion, `G92` or a command known not to move. -/
def Trackable : Call K → Prop
  | .setUnits .. => False
  | .setAxisOffset .. => False
  | .setAxisScale .. => False
  | .mapAxis .. => False
  | .setAlt d u => d = none ∧ u = none
  | .normalizeAxisAngle ax => upperS ax ≠ ['A']
  | .gcodeCommand cmd kw =>
      canonicalCmd cmd ∈ motionGroup ∨ (canonicalCmd cmd = "G92".toList ∧ kw.params = none)
      ∨ (isStationary (canonicalCmd cmd) = true ∧ ∀ k ∈ trackedAxes, kw.args k = none)
  | _ => True

/-- Invariant of tracked histories. -/
structure TrackInv (g : Gen K) : Prop where
  agree : Agree g
  map : g.cfg.axisMap = fun _ => none
  altUp : g.cfg.altUp = none
  altDown : g.cfg.altDown = none
  reset : g.offsetReset = false
  /-- rotary axes other than A are never commanded -/
  bc : g.last 'B' = none ∧ g.last 'C' = none

theorem TrackInv.of_keeps {g g' : Gen K} (h : TrackInv g) (hk : Keeps g g')
    (hbc : g'.last 'B' = none ∧ g'.last 'C' = none) : TrackInv g' := by
  refine ⟨hk.agree h.agree, ?_, ?_, ?_, ?_, hbc⟩
  · rw [hk.cfg]; exact h.map
  · rw [hk.cfg]; exact h.altUp
  · rw [hk.cfg]; exact h.altDown
  · rw [hk.reset]; exact h.reset

/-- B and C are never written by any method except `normalize_axis_angle` on a known B or C. -/
theorem core_bc (g : Gen K) (cmd kw) (k : Char) (hk : k ∉ posKeys) : (g.gcodeCore cmd kw).last k = g.last k := by
  rw [gcodeCore_eq]
  split
  · simp [Gen.afterLoop, hk]
  · split <;> simp [Gen.afterLoop, hk]

theorem step_bc (g : Gen K) (c : Call K) (k : Char) (hk : k = 'B' ∨ k = 'C') (h : g.last k = none) :
    (g.step c).1.last k = none := by
  have hkp : k ∉ posKeys := by rcases hk with rfl | rfl <;> decide
  have hkF : k ≠ 'F' := by rcases hk with rfl | rfl <;> decide
  have hcmd : ∀ (g : Gen K) cmd kw, (g.command cmd kw).last k = g.last k := by
    intro g cmd kw; unfold Gen.command; split
    · rfl
    · exact core_bc _ _ _ _ hkp
  have hdw : ∀ (g : Gen K) ms c, (g.dwell ms c).last = g.last := by
    intro g ms c; unfold Gen.dwell; split <;> rfl
  have hson : ∀ (g : Gen K) a b c d, (g.spindleOn a b c d).last = g.last := by
    intro g a b c d; unfold Gen.spindleOn; dsimp only; split
    · rw [hdw]; rfl
    · rfl
  have hsoff : ∀ (g : Gen K) a b, (g.spindleOff a b).last = g.last := by
    intro g a b; unfold Gen.spindleOff; dsimp only; split
    · rw [hdw]; rfl
    · rfl
  have hup : ∀ (g : Gen K) a b c, (g.toolUp a b c).last k = g.last k := by
    intro g a b c
    have h1 : (g.toolUpMove a c).last k = g.last k := by
      unfold Gen.toolUpMove; split <;> exact hcmd _ _ _
    unfold Gen.toolUp; dsimp only
    generalize g.toolUpMove a c = g1 at h1 ⊢
    have h2 : (if g1.cfg.spAuto then g1.spindleOff else g1).last = g1.last := by
      split
      · exact hsoff _ _ _
      · rfl
    generalize (if g1.cfg.spAuto then g1.spindleOff else g1) = g2 at h2 ⊢
    split
    · rw [hdw, h2, h1]
    · rw [h2, h1]
  have hfr : ∀ (g : Gen K) f, (g.feedRate f).1.last k = g.last k := by
    intro g f; unfold Gen.feedRate; split
    · exact upd_ne _ _ hkF
    · rfl
  by_cases hcfg : c.isConfig = true
  · obtain ⟨c', hc'⟩ := config_step g c hcfg
    rw [hc']; exact h
  cases c <;> simp only [Call.isConfig, not_true] at hcfg <;> dsimp only [Gen.step]
  · unfold Gen.rapidMove; dsimp only
    rw [hcmd]; split
    · rw [hup]; exact h
    · exact h
  · unfold Gen.feed; split
    · exact h
    · rw [hcmd]; exact h
  · unfold Gen.feedArc; split
    · dsimp only; split
      · exact h
      · rw [hcmd]; exact h
    · exact h
  · rw [hup]; exact h
  · unfold Gen.toolDown; dsimp only
    have h1 : (if g.cfg.spAuto then g.spindleOn else g).last = g.last := by
      split
      · exact hson _ _ _ _ _
      · rfl
    generalize (if g.cfg.spAuto then g.spindleOn else g) = g1 at h1 ⊢
    have h2 : ∀ z f c, (g1.toolDownMove z f c).last k = g1.last k := by
      intro z f c; unfold Gen.toolDownMove; split <;> exact hcmd _ _ _
    split
    · rw [hdw, h2, h1]; exact h
    · rw [h2, h1]; exact h
  · rw [hson]; exact h
  · rw [hsoff]; exact h
  · rw [hdw]; exact h
  · unfold Gen.pause; rw [hcmd]; exact h
  · rw [(quiet_comment g _ _).last]; exact h
  · rw [header_eq]; dsimp only
    have hq : ∀ today com, ((((g.headerFront today com).headerModal).writeRaw ['\n']).comment
        (.one "Default feed rate".toList)).last = g.last := by
      intro today com
      rw [(quiet_comment _ _ _).last, writeRaw_last]
      have : ∀ g : Gen K, g.headerModal.last = g.last := by
        intro g; unfold Gen.headerModal Gen.headerBlend; dsimp only
        repeat' split
        all_goals rfl
      rw [this, (quiet_headerFront g today com).last]
    rename_i today com
    have hq' := hq today com
    generalize (((g.headerFront today com).headerModal).writeRaw ['\n']).comment
        (.one "Default feed rate".toList) = g2 at hq' ⊢
    have h3 := hfr g2 g2.cfg.xyfeed
    generalize g2.feedRate g2.cfg.xyfeed = r at h3 ⊢
    obtain ⟨g5, e⟩ := r
    cases e
    · dsimp only; rw [writeRaw_last]; rw [h3, hq']; exact h
    · dsimp only; rw [h3, hq']; exact h
  · unfold Gen.footer; dsimp only
    rw [writeRaw_last, writeLine_last]; split
    · rw [hcmd]; exact h
    · exact h
  · rw [hfr]; exact h
  · rename_i ax
    unfold Gen.normalizeAxisAngle; dsimp only
    split
    · exact h
    · split
      · rename_i c heq
        split
        · exact h
        · rename_i angle ha
          split
          · dsimp only
            have : k ≠ c := by rintro rfl; rw [h] at ha; cases ha
            rw [upd_ne _ _ this]; exact h
          · exact h
      · exact h
  · unfold Gen.gcodeCommand; split
    · exact h
    · dsimp only; split
      · exact h
      · rw [core_bc _ _ _ _ hkp]; exact h

theorem trackInv_step (g : Gen K) (c : Call K) (h : TrackInv g) (hc : Trackable c) : TrackInv (g.step c).1 := by
  have hbc : (g.step c).1.last 'B' = none ∧ (g.step c).1.last 'C' = none :=
    ⟨step_bc g c 'B' (.inl rfl) h.bc.1, step_bc g c 'C' (.inr rfl) h.bc.2⟩
  cases c <;> dsimp only [Gen.step, Trackable] at *
  case rapidMove => exact h.of_keeps (keeps_rapidMove _ _ _ _ _ _ h.map h.altUp) hbc
  case feed => exact h.of_keeps (keeps_feed _ _ _ _ _ _ _ h.map) hbc
  case feedArc => exact h.of_keeps (keeps_feedArc _ _ _ _ _ _ _ _ _ _ h.map) hbc
  case toolUp => exact h.of_keeps (keeps_toolUp _ _ _ _ h.map h.altUp) hbc
  case toolDown => exact h.of_keeps (keeps_toolDown _ _ _ _ _ h.map h.altDown) hbc
  case spindleOn => exact h.of_keeps (keeps_spindleOn _ _ _ _ _) hbc
  case spindleOff => exact h.of_keeps (keeps_spindleOff _ _ _) hbc
  case dwell => exact h.of_keeps (keeps_dwell _ _ _) hbc
  case pause => exact h.of_keeps (keeps_pause _ _ _) hbc
  case comment => exact h.of_keeps (keeps_comment _ _ _) hbc
  case header => exact h.of_keeps (keeps_header _ _ _) hbc
  case footer => exact h.of_keeps (keeps_footer _ h.reset) hbc
  case feedRate => exact h.of_keeps (keeps_feedRate _ _) hbc
  case normalizeAxisAngle ax =>
    have : (g.normalizeAxisAngle ax).1 = g := by
      unfold Gen.normalizeAxisAngle; dsimp only
      split
      · rfl
      · rename_i hin
        split
        · rename_i k heq
          rw [heq] at hin
          have hk : g.last k = none := by
            simp [inABC] at hin
            by_cases hA : k = 'A'
            · exact absurd (by rw [heq, hA]) hc
            · by_cases hB : k = 'B'
              · rw [hB]; exact h.bc.1
              · rw [hin hA hB]; exact h.bc.2
          rw [hk]
        · rfl
    rw [this]; exact h
  case gcodeCommand cmd kw =>
    refine h.of_keeps ?_ hbc
    unfold Gen.gcodeCommand
    split
    · exact Keeps.refl _
    · dsimp only
      split
      · exact Keeps.refl _
      · rename_i hp
        rcases hc with hc | hc | hc
        · -- motion: opaque parameters are absent or empty
          have hp' : kw.hasParams = false := by
            by_contra hne; exact hp ⟨hc, by simpa using hne⟩
          have : g.gcodeCore (canonicalCmd cmd) kw = g.gcodeCore (canonicalCmd cmd) { kw with params := none } := by
            have e1 : ∀ k, g.newVal (baseCmd (canonicalCmd cmd)) { kw with params := none } k
                = g.newVal (baseCmd (canonicalCmd cmd)) kw k := fun _ => rfl
            rw [gcodeCore_eq, gcodeCore_eq]
            have : paramWords kw = [] := by
              unfold Kw.hasParams at hp'
              unfold paramWords
              cases hpar : kw.params with
              | none => rfl
              | some p => rw [hpar] at hp'; simp at hp'; simp [hp']
            rw [this]; rfl
          rw [this]
          exact keeps_core_motion _ _ _ h.map (.inl (canonical_motion cmd hc)) rfl
        · exact keeps_core_motion _ _ _ h.map (.inr hc.1) hc.2
        · exact keeps_core_stationary _ _ _ hc.1 hc.2
  case setAlt d u => exact ⟨h.agree, h.map, hc.2, hc.1, h.reset, h.bc⟩
  case setUnitProp u =>
    unfold Gen.setUnitProp; split
    · exact ⟨h.agree, h.map, h.altUp, h.altDown, h.reset, h.bc⟩
    · exact h
  case setPathBlending =>
    unfold Gen.setPathBlending; dsimp only; split
    · exact ⟨h.agree, h.map, h.altUp, h.altDown, h.reset, h.bc⟩
    · exact h
  all_goals exact ⟨h.agree, h.map, h.altUp, h.altDown, h.reset, h.bc⟩

theorem trackInv_run (calls : List (Call K)) (g : Gen K) (h : TrackInv g) (hc : ∀ c ∈ calls, Trackable c) :
    TrackInv (g.run calls) := by
  induction calls generalizing g with
  | nil => exact h
  | cons c cs ih =>
    exact ih _ (trackInv_step g c h (hc c (by simp))) (fun c' h' => hc c' (by simp [h']))

theorem trackInv_fresh (g : Gen K) (h : Fresh g) : TrackInv g := by
  refine ⟨?_, h.map, h.altUp, h.altDown, h.reset, ?_⟩
  · intro k _
    simp [Gen.machine, h.out, h.last, blocksOf, Machine.run, Machine.off]
  · simp [h.last]

/-- **C01 (partial)**.  For every history of trackable calls on a fresh generator, whatever the arguments and
whichever calls raised, the machine that executes the emitted program is on each of X, Y, Z, A exactly at the image
of `position(axis)` — and unknown exactly when `position(axis)` is `None`.

Missing from the full claim: histories that change scale/offset/unit scale between moves (refuted below), rename
axes (C18), use opaque alternate tool commands, or renormalise A (C15). -/
theorem C01_position_tracking_partial (g0 : Gen K) (h0 : Fresh g0) (calls : List (Call K))
    (hc : ∀ c ∈ calls, Trackable c) (axis : Char) (hax : axis ∈ ['X', 'Y', 'Z', 'A']) (p : Option K)
    (hp : (g0.run calls).position [axis] = .ok p) :
    (g0.run calls).machine.pos axis = p.map (specImage (g0.run calls).cfg axis) := by
  have h := (trackInv_run calls g0 (trackInv_fresh g0 h0) hc).agree axis hax
  rw [specImage_eq _ _ hax, h]
  have hu : upperS [axis] = [axis] ∧ axis ∈ orderedParams := by
    simp only [List.mem_cons, List.not_mem_nil, or_false] at hax
    rcases hax with rfl | rfl | rfl | rfl <;> decide
  simp only [Gen.position, hu.1, hu.2, if_true] at hp
  cases hp; rfl

/-- Default generator over ℚ used in examples: `xyfeed=10`, `zsafe=1`, tolerance `1e-6`. -/
def demo : Gen ℚ := Gen.init 10 1 none none (1/1000000)

theorem demo_fresh : Fresh demo := ⟨rfl, rfl, rfl, rfl, rfl, rfl⟩

/-- A non-trivial history used for non-vacuity. -/
def demoCalls : List (Call ℚ) :=
  [.rapidMove (some 1) (some 2) none none none, .toolDown (-1) none none none,
   .feed (some 3) none none none none none, .feedArc true 5 2 1 0 none none none none,
   .toolUp true none none, .rapidMove (some 0) (some 0) none none none]

/-- Non-vacuity: the hypotheses hold of a history that moves every linear axis, and the conclusion is informative. -/
example : Fresh demo ∧ (∀ c ∈ demoCalls, Trackable c) ∧
    (demo.run (demoCalls.take 4)).machine.pos 'X' = some 5 ∧
    (demo.run (demoCalls.take 4)).machine.pos 'Z' = some (-1) ∧ (demo.run demoCalls).machine.pos 'Z' = some 1 := by
  refine ⟨demo_fresh, ?_, ?_, ?_, ?_⟩
  · intro c hc
    simp only [demoCalls, List.mem_cons, List.not_mem_nil, or_false] at hc
    rcases hc with rfl | rfl | rfl | rfl | rfl | rfl <;> trivial
  all_goals decide +kernel

theorem position_X {g : Gen K} {v : K} (h : g.last 'X' = some v) : g.position ['X'] = .ok (some v) := by
  have : upperS ['X'] = ['X'] ∧ 'X' ∈ orderedParams := by decide
  simp only [Gen.position, this.1, this.2, if_true, h]

/-- A generator that is rescaled between two moves to the same user coordinate. -/
def demoRescale : Gen ℚ := demo.run [.rapidMove (some 1) (some 1) none none none, .setAxisScale 'x' 2,
      .feed (some 1) (some 1) none none none none]

/-- **C01 refuted in full generality**: after `rapid_move(x=1)`, changing the X scale to 2 and feeding to `x=1` again
emits nothing, so the machine stays at 1 while the reported position 1 now maps to 2. -/
theorem C01_refuted_rescale :
    demoRescale.position ['X'] = .ok (some 1) ∧ demoRescale.machine.pos 'X' = some 1 ∧
      specImage demoRescale.cfg 'X' 1 = 2 := by
  have h1 : demoRescale.last 'X' = some 1 := by decide +kernel
  have h2 : demoRescale.machine.pos 'X' = some 1 := by decide +kernel
  have h3 : specImage demoRescale.cfg 'X' 1 = 2 := by decide +kernel
  exact ⟨position_X h1, h2, h3⟩

/-! ## C02 No drift -/

/-- Specification: a rapid move never asks for a height below `zsafe`. -/
def atLeast (zsafe : K) (z : Option K) : K :=
  match z with
  | none => zsafe
  | some z => if zsafe <. z then z else zsafe

/-- Specification: the coordinate a call asks for on an axis (`zsafe` is the safe height). -/
def Call.request (zsafe : K) : Call K → Char → Option K
  | .rapidMove x y z a _, k =>
      if k = 'X' then x else if k = 'Y' then y
      else if k = 'Z' then some (atLeast zsafe z)
      else if k = 'A' then a else none
  | .feed x y z a _ _, k => if k = 'X' then x else if k = 'Y' then y else if k = 'Z' then z else if k = 'A' then a else none
  | .feedArc _ x y _ _ a z _ _, k =>
      if k = 'X' then some x else if k = 'Y' then some y else if k = 'Z' then z else if k = 'A' then a else none
  | .toolUp .., k => if k = 'Z' then some zsafe else none
  | .toolDown z _ _ _, k => if k = 'Z' then some z else none
  | _, _ => none

/-- Calls considered by C02: the motion methods plus everything that never moves. -/
def MotionOrIdle : Call K → Prop
  | .rapidMove .. | .feed .. | .feedArc .. | .toolUp .. | .toolDown .. | .spindleOn .. | .spindleOff .. | .dwell ..
  | .pause .. | .comment .. | .feedRate .. => True
  | _ => False

/-- The last coordinate requested for an axis in a history; a call that raises requests nothing. -/
def lastRequest (g : Gen K) : List (Call K) → Char → Option K → Option K
  | [], _, acc => acc
  | c :: cs, k, acc =>
    lastRequest (g.step c).1 cs k (if (g.step c).2 = none then (c.request g.cfg.zsafe k).or acc else acc)

/-- Reported value `l` is the requested value `v` or not farther from it than the tolerance (as the program compares). -/
def Near (c : Cfg K) (k : Char) (l v : K) : Prop :=
  l = v ∨ ((if k = 'A' then c.angleTol else c.tol) <. abs (v -. l)) = false

theorem near_core (g : Gen K) (cmd : Str) (kw : Kw K) (k : Char) (hk : k ∈ posKeys) (hw : g.cfg.wrapAngles = false)
    (v : K) (hv : kw.args k = some v) : ∃ l, (g.gcodeCore cmd kw).last k = some l ∧ Near g.cfg k l v := by
  have h1 : (g.gcodeCore cmd kw).last k = (g.afterLoop (baseCmd cmd) kw).last k := by
    rw [gcodeCore_eq]; split
    · rfl
    · split <;> rfl
  rw [h1]
  simp only [Gen.afterLoop, hk, if_true]
  cases hn : g.newVal (baseCmd cmd) kw k with
  | some w =>
    refine ⟨w, by simp, .inl ?_⟩
    simp only [Gen.newVal, hv] at hn
    split at hn
    · cases hn; simp [Cfg.effVal, hw]
    · cases hn
  | none =>
    simp only [Gen.newVal, hv] at hn
    split at hn
    · cases hn
    · rename_i h
      push Not at h
      have hch := h.2.1
      unfold Gen.hasChanged at hch
      simp only [Cfg.effVal, hw] at hch
      cases hl : g.last k with
      | none => rw [hl] at hch; simp at hch
      | some l =>
        rw [hl] at hch
        exact ⟨l, by simp, .inr (by simpa using hch)⟩

theorem keep_core (g : Gen K) (cmd : Str) (kw : Kw K) (k : Char) (hv : kw.args k = none) :
    (g.gcodeCore cmd kw).last k = g.last k := by
  have h1 : (g.gcodeCore cmd kw).last k = (g.afterLoop (baseCmd cmd) kw).last k := by
    rw [gcodeCore_eq]; split
    · rfl
    · split <;> rfl
  rw [h1]
  have : g.newVal (baseCmd cmd) kw k = none := by simp [Gen.newVal, hv]
  simp [Gen.afterLoop, this]

/-- Effect of one call on a tracked coordinate. -/
theorem near_command (g : Gen K) (cmd : Str) (hcmd : cmd ≠ []) (kw : Kw K) (k : Char) (hk : k ∈ trackedAxes)
    (hw : g.cfg.wrapAngles = false) :
    (∀ v, kw.args k = some v → ∃ l, (g.command cmd kw).last k = some l ∧ Near g.cfg k l v) ∧
    (kw.args k = none → (g.command cmd kw).last k = g.last k) := by
  have he : cmd.isEmpty = false := by simpa using hcmd
  unfold Gen.command
  simp only [he]
  constructor
  · intro v hv; exact near_core _ _ _ _ (trackedAxes_sub k hk).1 hw v hv
  · intro hv; exact keep_core _ _ _ _ hv

theorem dwell_last (g : Gen K) (ms c) : (g.dwell ms c).last = g.last := by unfold Gen.dwell; split <;> rfl
theorem spindleOn_last (g : Gen K) (a b c d) : (g.spindleOn a b c d).last = g.last := by
  unfold Gen.spindleOn; dsimp only; split
  · rw [dwell_last]; rfl
  · rfl
theorem spindleOff_last (g : Gen K) (a b) : (g.spindleOff a b).last = g.last := by
  unfold Gen.spindleOff; dsimp only; split
  · rw [dwell_last]; rfl
  · rfl

theorem toolUp_last (g : Gen K) (r w c) : (g.toolUp r w c).last = (g.toolUpMove r c).last := by
  unfold Gen.toolUp; dsimp only
  generalize g.toolUpMove r c = g1
  have h2 : (if g1.cfg.spAuto then g1.spindleOff else g1).last = g1.last := by
    split
    · exact spindleOff_last _ _ _
    · rfl
  generalize (if g1.cfg.spAuto then g1.spindleOff else g1) = g2 at h2 ⊢
  split
  · rw [dwell_last, h2]
  · rw [h2]

/-- `tool_up` without an alternate command: the tracked Z is exactly the safe height, other axes are untouched. -/
theorem toolUp_Z (g : Gen K) (r w c) (ha : g.cfg.altUp = none) :
    (g.toolUp r w c).last = upd g.last 'Z' (some g.cfg.zsafe) := by
  rw [toolUp_last]
  unfold Gen.toolUpMove
  rw [ha]
  have : ∀ cmd : Str, cmd = "G00".toList ∨ cmd = "G01".toList →
      (g.command cmd { args := kwOf [('Z', some g.cfg.zsafe)], force := ['Z'], comment := c }).last
        = upd g.last 'Z' (some g.cfg.zsafe) := by
    intro cmd hcmd
    unfold Gen.command
    have he : cmd.isEmpty = false := by rcases hcmd with rfl | rfl <;> rfl
    simp only [he]
    have hloop : ∀ base : Str, (g.afterLoop base { args := kwOf [('Z', some g.cfg.zsafe)], force := ['Z'], comment := c
        }).last = upd g.last 'Z' (some g.cfg.zsafe) := by
      intro base
      funext k
      by_cases hk : k = 'Z'
      · subst hk
        have : 'Z' ∈ posKeys := by decide
        simp [Gen.afterLoop, this, Gen.newVal, kwOf, Cfg.effVal]
      · rw [upd_ne _ _ hk]
        have hk' : ¬ 'Z' = k := fun h => hk h.symm
        simp [Gen.afterLoop, Gen.newVal, kwOf, hk']
    have h1 : ∀ kw, (g.gcodeCore (canonicalCmd cmd) kw).last = (g.afterLoop (baseCmd (canonicalCmd cmd)) kw).last := by
      intro kw
      rw [gcodeCore_eq]; split
      · rfl
      · split <;> rfl
    simp only [Bool.false_eq_true, if_false]
    rw [h1]
    exact hloop _
  cases r
  · exact this _ (.inr rfl)
  · exact this _ (.inl rfl)

/-- The one-step statement of C02. -/
theorem near_step (g : Gen K) (c : Call K) (hc : MotionOrIdle c) (hw : g.cfg.wrapAngles = false)
    (hau : g.cfg.altUp = none) (had : g.cfg.altDown = none) (k : Char) (hk : k ∈ trackedAxes)
    (hok : (g.step c).2 = none) :
    (∀ v, c.request g.cfg.zsafe k = some v → ∃ l, (g.step c).1.last k = some l ∧ Near g.cfg k l v) ∧
    (c.request g.cfg.zsafe k = none → (g.step c).1.last k = g.last k) := by
  have hI : Stable g.cfg (fun _ : Gen K => True) := ⟨fun _ _ _ _ => trivial, fun _ _ _ _ _ _ => trivial, fun _ _ _ _ _ _ => trivial⟩
  have hkc : k = 'X' ∨ k = 'Y' ∨ k = 'Z' ∨ k = 'A' := by simpa [trackedAxes] using hk
  cases c <;> dsimp only [MotionOrIdle] at hc <;> dsimp only [Gen.step, Call.request] at *
  case rapidMove x y z a com =>
    unfold Gen.rapidMove; dsimp only
    have hcfg : (if g.rapidLifts then g.toolUp else g).cfg = g.cfg := by
      split
      · exact (pres_toolUp hI g _ _ _ rfl).1
      · rfl
    have hl : k ≠ 'Z' → (if g.rapidLifts then g.toolUp else g).last k = g.last k := by
      intro hz
      split
      · rw [toolUp_Z _ _ _ _ hau, upd_ne _ _ hz]
      · rfl
    generalize (if g.rapidLifts then g.toolUp else g) = g1 at hcfg hl ⊢
    have hn := near_command g1 "G00".toList (by decide)
      { args := kwOf [('X', x), ('Y', y), ('Z', some (maxZ g1.cfg.zsafe z)), ('A', a)], comment := com } k hk
      (by rw [hcfg]; exact hw)
    rw [hcfg] at hn ⊢
    rcases hkc with rfl | rfl | rfl | rfl
    · simp [kwOf] at hn ⊢
      exact ⟨hn.1, fun h => (hn.2 h).trans (hl (by decide))⟩
    · simp [kwOf] at hn ⊢
      exact ⟨hn.1, fun h => (hn.2 h).trans (hl (by decide))⟩
    · have hm : maxZ g.cfg.zsafe z = atLeast g.cfg.zsafe z := by cases z <;> rfl
      rw [hm] at hn ⊢
      simp [kwOf] at hn ⊢
      exact hn
    · simp [kwOf] at hn ⊢
      exact ⟨hn.1, fun h => (hn.2 h).trans (hl (by decide))⟩
  case feed x y z a f com =>
    unfold Gen.feed
    cases hp : g.cfg.pickFeed x y z a f with
    | none =>
      have hnone : x = none ∧ y = none ∧ z = none ∧ a = none := by
        unfold Cfg.pickFeed at hp
        split at hp
        · cases hp
        · cases x <;> cases y <;> cases z <;> cases a <;> simp at hp ⊢
      obtain ⟨rfl, rfl, rfl, rfl⟩ := hnone
      simp
    | some ff =>
      have hn := near_command g "G01".toList (by decide)
        { args := kwOf [('X', x), ('Y', y), ('Z', z), ('A', a), ('F', some ff)], comment := com } k hk hw
      rcases hkc with rfl | rfl | rfl | rfl <;> simp [kwOf] at hn ⊢ <;> exact hn
  case feedArc cw x y i j a z f com =>
    unfold Gen.feedArc at hok ⊢
    split at hok
    · rename_i cx cy hx hy
      dsimp only at hok ⊢
      split at hok
      · cases hok
      · rename_i hne
        simp only [hne]
        have hn := near_command g (if cw then "G02".toList else "G03".toList) (by cases cw <;> decide)
          { args := kwOf [('X', some x), ('Y', some y), ('Z', z), ('I', some i), ('J', some j), ('A', a),
              ('F', some (f.getD g.cfg.xyfeed))], force := ['I', 'J'], comment := com } k hk hw
        rcases hkc with rfl | rfl | rfl | rfl <;> simp [kwOf] at hn ⊢ <;> exact hn
    · cases hok
  case toolUp r w com =>
    rw [toolUp_Z _ _ _ _ hau]
    constructor
    · intro v hv
      split at hv
      · rename_i hz
        subst hz
        cases hv
        exact ⟨_, upd_same _ _ _, .inl rfl⟩
      · cases hv
    · intro hv
      split at hv
      · cases hv
      · rename_i hz; exact upd_ne _ _ hz
  case toolDown z f w com =>
    unfold Gen.toolDown; dsimp only
    have hc1 : (if g.cfg.spAuto then g.spindleOn else g).cfg = g.cfg := by
      split
      · exact (pres_spindleOn hI g _ _ _ _ rfl).1
      · rfl
    have hl1 : (if g.cfg.spAuto then g.spindleOn else g).last = g.last := by
      split
      · exact spindleOn_last _ _ _ _ _
      · rfl
    generalize (if g.cfg.spAuto then g.spindleOn else g) = g1 at hc1 hl1 ⊢
    have hm : g1.toolDownMove z (f.getD g.cfg.zfeed) com = g1.command "G01".toList
        { args := kwOf [('Z', some z), ('F', some (f.getD g.cfg.zfeed))], comment := com } := by
      unfold Gen.toolDownMove; rw [hc1, had]
    rw [hm]
    have hn := near_command g1 "G01".toList (by decide)
        { args := kwOf [('Z', some z), ('F', some (f.getD g.cfg.zfeed))], comment := com } k hk (by rw [hc1]; exact hw)
    rw [hc1, hl1] at hn
    generalize g1.command "G01".toList
        { args := kwOf [('Z', some z), ('F', some (f.getD g.cfg.zfeed))], comment := com } = g2 at hn ⊢
    have hfin : (if zero <. w.getD g.cfg.waitDown then
        (({ g2 with isToolUp := false } : Gen K)).dwell (w.getD g.cfg.waitDown) else { g2 with isToolUp := false }).last
        = g2.last := by
      split
      · rw [dwell_last]
      · rfl
    rw [hfin]
    rcases hkc with rfl | rfl | rfl | rfl <;> simp [kwOf] at hn ⊢ <;> exact hn
  case spindleOn => simp [spindleOn_last]
  case spindleOff => simp [spindleOff_last]
  case dwell => simp [dwell_last]
  case pause b com =>
    refine ⟨by simp, fun _ => ?_⟩
    cases b
    · exact keep_core g "M00".toList { comment := com } k rfl
    · exact keep_core g "M01".toList { comment := com } k rfl
  case comment => simp [(quiet_comment g _ _).last]
  case feedRate f =>
    refine ⟨by simp, fun _ => ?_⟩
    unfold Gen.feedRate
    split
    · exact upd_ne _ _ (trackedAxes_sub k hk).2.2.2
    · rfl

/-- Configuration is unchanged by non-configuration calls. -/
theorem step_cfg (g : Gen K) (c : Call K) (hc : c.isConfig = false) : (g.step c).1.cfg = g.cfg :=
  (pres_step (c := g.cfg) (I := fun _ => True)
    ⟨fun _ _ _ _ => trivial, fun _ _ _ _ _ _ => trivial, fun _ _ _ _ _ _ => trivial⟩ g c rfl hc).1

/-- A raising motion call leaves the tracked values alone. -/
theorem raise_last (g : Gen K) (c : Call K) (hc : MotionOrIdle c) (h : (g.step c).2 ≠ none) : (g.step c).1 = g := by
  cases c <;> dsimp only [MotionOrIdle] at hc <;> dsimp only [Gen.step] at h ⊢ <;> try exact absurd rfl h
  · unfold Gen.feedArc at h ⊢
    split
    · rename_i hx hy
      rw [hx, hy] at h
      dsimp only at h ⊢
      split
      · rfl
      · rename_i hne; simp [hne] at h
    · rfl
  · unfold Gen.feedRate at h ⊢
    split
    · rename_i hl; rw [hl] at h; simp at h
    · rfl

/-- **C02**.  After any sequence of motion and idle calls — of any length, so no error accumulates — the reported
coordinate of an axis is the last coordinate requested for it or within the comparison tolerance of it
(`¬ tol < |requested - reported|`).  Calls that raise request nothing.  Requires fixed configuration without
alternate tool commands and (for A) without angle wrapping, which reduces requests modulo a turn (C19). -/
theorem C02_no_drift (g0 : Gen K) (h0 : Fresh g0) (hw : g0.cfg.wrapAngles = false) (calls : List (Call K))
    (hc : ∀ c ∈ calls, MotionOrIdle c) (axis : Char) (hax : axis ∈ ['X', 'Y', 'Z', 'A']) (v : K)
    (hv : lastRequest g0 calls axis none = some v) :
    ∃ l, (g0.run calls).position [axis] = .ok (some l) ∧
      (l = v ∨ ((if axis = 'A' then g0.cfg.angleTol else g0.cfg.tol) <. abs (v -. l)) = false) := by
  have key : ∀ (calls : List (Call K)) (g : Gen K) (acc : Option K), g.cfg = g0.cfg →
      (∀ c ∈ calls, MotionOrIdle c) →
      (∀ a, acc = some a → ∃ l, g.last axis = some l ∧ Near g0.cfg axis l a) →
      ∀ v, lastRequest g calls axis acc = some v → ∃ l, (g.run calls).last axis = some l ∧ Near g0.cfg axis l v := by
    intro calls
    induction calls with
    | nil => intro g acc _ _ hacc v hv; exact hacc v hv
    | cons c cs ih =>
      intro g acc hg hm hacc v hv
      have hmc := hm c (by simp)
      have hcfg : (g.step c).1.cfg = g0.cfg := by
        rw [step_cfg g c (by cases c <;> first | rfl | exact hmc.elim)]; exact hg
      refine ih (g.step c).1 _ hcfg (fun c' h' => hm c' (by simp [h'])) ?_ v hv
      intro a ha
      by_cases hok : (g.step c).2 = none
      · simp only [hok, if_true] at ha
        have hs := near_step g c hmc (by rw [hg]; exact hw) (by rw [hg]; exact h0.altUp) (by rw [hg]; exact h0.altDown)
          axis hax hok
        rw [hg] at hs ha
        cases hr : c.request g0.cfg.zsafe axis with
        | some w =>
          rw [hr] at ha
          simp at ha
          subst ha
          exact hs.1 w hr
        | none =>
          rw [hr] at ha
          simp at ha
          rw [hs.2 hr]
          exact hacc a ha
      · simp only [hok, if_false] at ha
        rw [raise_last g c hmc hok]
        exact hacc a ha
  obtain ⟨l, hl, hn⟩ := key calls g0 none rfl hc (by simp) v hv
  refine ⟨l, ?_, hn⟩
  have hu : upperS [axis] = [axis] ∧ axis ∈ orderedParams := by
    simp only [List.mem_cons, List.not_mem_nil, or_false] at hax
    rcases hax with rfl | rfl | rfl | rfl <;> decide
  simp only [Gen.position, hu.1, hu.2, if_true, hl]

/-- Non-vacuity: X is requested, and the last request is 0. -/
example : Fresh demo ∧ demo.cfg.wrapAngles = false ∧ (∀ c ∈ demoCalls, MotionOrIdle c) ∧
    lastRequest demo demoCalls 'X' none = some 0 := by
  refine ⟨demo_fresh, rfl, ?_, ?_⟩
  · intro c hc
    simp only [demoCalls, List.mem_cons, List.not_mem_nil, or_false] at hc
    rcases hc with rfl | rfl | rfl | rfl | rfl | rfl <;> trivial
  · decide +kernel

/-- **C01 (names)**: `position` answers for exactly the documented single letters, in either case, and raises `GCodeException` for every other text. -/
theorem C01_position_names (g : Gen K) (axis : Str) :
    (∃ v, g.position axis = .ok v) ↔ ∃ c, axis = [c] ∧ c ∈ "XYZUVWABCIJKRDHLPQSFxyzuvwabcijkrdhlpqsf".toList := by
  have hup : ∀ c : Char, (upperC c ∈ orderedParams) ↔ c ∈ "XYZUVWABCIJKRDHLPQSFxyzuvwabcijkrdhlpqsf".toList := by
    intro c
    by_cases h : c.toNat < 123
    · have hb : ∀ n < 123, (upperC (Char.ofNat n) ∈ orderedParams) ↔ Char.ofNat n ∈ "XYZUVWABCIJKRDHLPQSFxyzuvwabcijkrdhlpqsf".toList := by
        decide +kernel
      have := hb c.toNat h
      rwa [Char.ofNat_toNat] at this
    · push Not at h
      have h1 : upperC c = c := by
        unfold upperC
        rw [if_neg]
        rintro ⟨-, hc⟩
        have : c.toNat ≤ 'z'.toNat := hc
        have hz : 'z'.toNat = 122 := rfl
        omega
      rw [h1]
      constructor
      · intro hm
        exfalso
        have : ∀ d ∈ orderedParams, d.toNat < 123 := by decide +kernel
        have := this c hm
        omega
      · intro hm
        exfalso
        have : ∀ d ∈ "XYZUVWABCIJKRDHLPQSFxyzuvwabcijkrdhlpqsf".toList, d.toNat < 123 := by decide +kernel
        have := this c hm
        omega
  unfold Gen.position upperS
  constructor
  · rintro ⟨v, h⟩
    match axis, h with
    | [c], h =>
      simp only [List.map_cons, List.map_nil] at h
      split at h
      · rename_i hm; exact ⟨c, rfl, (hup c).1 hm⟩
      · cases h
  · rintro ⟨c, rfl, hm⟩
    refine ⟨g.last (upperC c), ?_⟩
    simp only [List.map_cons, List.map_nil]
    rw [if_pos ((hup c).2 hm)]

end Verif.GCode
