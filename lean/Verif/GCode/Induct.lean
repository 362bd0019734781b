import Verif.GCode.Track
import Mathlib.Tactic.Tauto

/-! # An induction principle for everything the generator can write -/

set_option linter.unusedSectionVars false

namespace Verif.GCode
open Verif PyFloat

variable {K : Type} [PyFloat K]

/-- The shapes of lines the generator can write under a given configuration. -/
inductive Written (c : Cfg K) : Block K → Prop
  /-- a `gcode_command` line with parameter words -/
  | params (cmd : Str) (hcmd : cmd ≠ []) (pp : Char → Option K)
      (h : ∀ k v, pp k = some v → k ∈ posKeys ∧ ∃ v0, v = c.outVal k (c.effVal k v0)) : Written c ⟨cmd, c.wordsOf pp⟩
  /-- a `gcode_command` line without words -/
  | bare (cmd : Str) (hcmd : cmd ≠ []) : Written c ⟨cmd, []⟩
  /-- a `gcode_command` line with opaque parameters -/
  | opaq (cmd : Str) (hcmd : cmd ≠ []) (p : Str) : Written c ⟨cmd, [⟨p, .none⟩]⟩
  | dwell (sec : K) : Written c ⟨"G04".toList, [⟨['P'], .num 4 sec⟩]⟩
  | spindle (cw : Bool) (n : Int) : Written c ⟨if cw then "M3".toList else "M4".toList, [⟨['S'], .int n⟩]⟩
  | blendP (p : K) : Written c ⟨"G64".toList, [⟨['P'], .num c.digits p⟩]⟩
  | blendPQ (p q : K) : Written c ⟨"G64".toList, [⟨['P'], .num c.digits p⟩, ⟨['Q'], .num c.digits q⟩]⟩
  | feed (f : K) : Written c ⟨[], [⟨['F'], .num c.digits f⟩]⟩
  | normalize (k : Char) (v : K) (h : k ∈ ['A', 'B', 'C']) : Written c ⟨"G92".toList, [⟨[k, '='], .num c.digits v⟩]⟩

/-- An invariant that survives raw text, written lines and silent bookkeeping, for a fixed configuration. -/
structure Stable (c : Cfg K) (I : Gen K → Prop) : Prop where
  raw : ∀ g s, g.cfg = c → I g → I (g.writeRaw s)
  line : ∀ g b com, g.cfg = c → Written c b → I g → I (g.writeLine b com)
  silent : ∀ g l up r, g.cfg = c → I g → I ⟨g.cfg, l, up, r, g.lineNumber, g.out⟩

/-- Configuration kept and invariant preserved. -/
def Pres (I : Gen K → Prop) (g g' : Gen K) : Prop := g'.cfg = g.cfg ∧ (I g → I g')

theorem Pres.refl (I : Gen K → Prop) (g : Gen K) : Pres I g g := ⟨rfl, id⟩
theorem Pres.trans {I : Gen K → Prop} {a b c : Gen K} (h1 : Pres I a b) (h2 : Pres I b c) : Pres I a c :=
  ⟨h2.1.trans h1.1, h2.2 ∘ h1.2⟩

section
variable {c : Cfg K} {I : Gen K → Prop} (hI : Stable c I)
include hI

theorem pres_writeRaw (g : Gen K) (s) (hg : g.cfg = c) : Pres I g (g.writeRaw s) := ⟨rfl, hI.raw g s hg⟩
theorem pres_writeLine (g : Gen K) (b com) (hg : g.cfg = c) (hb : Written c b) : Pres I g (g.writeLine b com) :=
  ⟨rfl, hI.line g b com hg hb⟩
theorem pres_silent (g : Gen K) (l up r) (hg : g.cfg = c) :
    Pres I g ⟨g.cfg, l, up, r, g.lineNumber, g.out⟩ := ⟨rfl, hI.silent g l up r hg⟩

theorem pres_writeComment (g : Gen K) (com s) (hg : g.cfg = c) : Pres I g (g.writeComment com s) := by
  unfold Gen.writeComment
  split
  · exact pres_writeRaw hI _ _ hg
  · split
    · exact pres_writeRaw hI _ _ hg
    · split <;> exact pres_writeRaw hI _ _ hg

theorem pres_foldl {α} (f : Gen K → α → Gen K) (hf : ∀ g a, g.cfg = c → Pres I g (f g a)) (l : List α) (g : Gen K)
    (hg : g.cfg = c) : Pres I g (l.foldl f g) := by
  induction l generalizing g with
  | nil => exact Pres.refl I g
  | cons a l ih =>
    have h := hf g a hg
    exact h.trans (ih _ (h.1.trans hg))

theorem pres_comment (g : Gen K) (com s) (hg : g.cfg = c) : Pres I g (g.comment com s) := by
  unfold Gen.comment
  split
  · cases com
    · exact pres_writeComment hI _ _ _ hg
    · exact pres_writeComment hI _ _ _ hg
    · exact pres_foldl hI _ (fun g s' hg => pres_writeComment hI g (some s') s hg) _ _ hg
  · exact Pres.refl I g

theorem pres_core (g : Gen K) (cmd : Str) (kw : Kw K) (hcmd : cmd ≠ []) (hg : g.cfg = c) :
    Pres I g (g.gcodeCore cmd kw) := by
  have h0 : Pres I g (g.afterLoop (baseCmd cmd) kw) := pres_silent hI g _ _ _ hg
  rw [gcodeCore_eq]
  split
  · refine h0.trans (pres_writeLine hI _ _ _ hg ?_)
    rw [hg]
    apply Written.params _ hcmd
    intro k v hk
    simp only [Gen.posParams] at hk
    split at hk
    · rename_i hkm
      refine ⟨hkm, ?_⟩
      simp only [Option.map_eq_some_iff] at hk
      obtain ⟨w, hw, rfl⟩ := hk
      simp only [Gen.newVal] at hw
      split at hw
      · cases hw
      · rename_i v0 _
        split at hw
        · cases hw
          exact ⟨v0, by rw [hg]⟩
        · cases hw
    · cases hk
  · split
    · refine h0.trans (pres_writeLine hI _ _ _ hg ?_)
      unfold paramWords
      split
      · split
        · exact Written.bare _ hcmd
        · exact Written.opaq _ hcmd _
      · exact Written.bare _ hcmd
    · exact h0

theorem canonicalCmd_ne (cmd : Str) (h : cmd ≠ []) : canonicalCmd cmd ≠ [] := by
  unfold canonicalCmd
  split
  · split <;> simp
  · simpa [upperS] using h

theorem pres_command (g : Gen K) (cmd : Str) (kw : Kw K) (hg : g.cfg = c) : Pres I g (g.command cmd kw) := by
  unfold Gen.command
  split
  · exact Pres.refl I g
  · rename_i h
    exact pres_core hI _ _ _ (canonicalCmd_ne hI _ (by simpa using h)) hg

theorem pres_dwell (g : Gen K) (ms com) (hg : g.cfg = c) : Pres I g (g.dwell ms com) := by
  unfold Gen.dwell
  split
  · exact pres_writeLine hI _ _ _ hg (Written.dwell _)
  · exact Pres.refl I g

theorem pres_spindleOn (g : Gen K) (s cw w com) (hg : g.cfg = c) : Pres I g (g.spindleOn s cw w com) := by
  unfold Gen.spindleOn
  have h := pres_writeLine hI g ⟨if cw.getD g.cfg.spCw then "M3".toList else "M4".toList,
      [⟨['S'], .int (trunc (s.getD g.cfg.spSpeed))⟩]⟩ com hg (Written.spindle _ _)
  dsimp only
  split
  · exact h.trans (pres_dwell hI _ _ _ hg)
  · exact h

theorem pres_spindleOff (g : Gen K) (w com) (hg : g.cfg = c) : Pres I g (g.spindleOff w com) := by
  unfold Gen.spindleOff
  have h := pres_writeLine hI g ⟨"M5".toList, []⟩ com hg (Written.bare _ (by decide))
  dsimp only
  split
  · exact h.trans (pres_dwell hI _ _ _ hg)
  · exact h

theorem pres_toolUp (g : Gen K) (r w com) (hg : g.cfg = c) : Pres I g (g.toolUp r w com) := by
  unfold Gen.toolUp
  dsimp only
  have h1 : Pres I g (g.toolUpMove r com) := by
    unfold Gen.toolUpMove
    split <;> exact pres_command hI _ _ _ hg
  generalize g.toolUpMove r com = g1 at h1 ⊢
  have hc1 : g1.cfg = c := h1.1.trans hg
  have h2 : Pres I g1 (if g1.cfg.spAuto then g1.spindleOff else g1) := by
    split
    · exact pres_spindleOff hI _ _ _ hc1
    · exact Pres.refl I _
  generalize (if g1.cfg.spAuto then g1.spindleOff else g1) = g2 at h2 ⊢
  have hc2 : g2.cfg = c := h2.1.trans hc1
  have h3 : Pres I g2 (if zero <. w.getD g2.cfg.waitUp then g2.dwell (w.getD g2.cfg.waitUp) else g2) := by
    split
    · exact pres_dwell hI _ _ _ hc2
    · exact Pres.refl I _
  exact ((h1.trans h2).trans h3).trans (pres_silent hI _ _ _ _ (h3.1.trans hc2))

theorem pres_toolDown (g : Gen K) (z f w com) (hg : g.cfg = c) : Pres I g (g.toolDown z f w com) := by
  unfold Gen.toolDown
  dsimp only
  have h2 : Pres I g (if g.cfg.spAuto then g.spindleOn else g) := by
    split
    · exact pres_spindleOn hI _ _ _ _ _ hg
    · exact Pres.refl I _
  generalize (if g.cfg.spAuto then g.spindleOn else g) = g2 at h2 ⊢
  have hc2 : g2.cfg = c := h2.1.trans hg
  have h3 : Pres I g2 (g2.toolDownMove z (f.getD g.cfg.zfeed) com) := by
    unfold Gen.toolDownMove
    split <;> exact pres_command hI _ _ _ hc2
  generalize g2.toolDownMove z (f.getD g.cfg.zfeed) com = g3 at h3 ⊢
  have h4 := pres_silent hI g3 g3.last false g3.offsetReset (h3.1.trans hc2)
  have h5 := (h2.trans h3).trans h4
  split
  · exact h5.trans (pres_dwell hI _ _ _ (h3.1.trans hc2))
  · exact h5

theorem pres_rapidMove (g : Gen K) (x y z a com) (hg : g.cfg = c) : Pres I g (g.rapidMove x y z a com) := by
  unfold Gen.rapidMove
  dsimp only
  have h2 : Pres I g (if g.rapidLifts then g.toolUp else g) := by
    split
    · exact pres_toolUp hI _ _ _ _ hg
    · exact Pres.refl I _
  generalize (if g.rapidLifts then g.toolUp else g) = g2 at h2 ⊢
  exact h2.trans (pres_command hI _ _ _ (h2.1.trans hg))

theorem pres_feed (g : Gen K) (x y z a f com) (hg : g.cfg = c) : Pres I g (g.feed x y z a f com) := by
  unfold Gen.feed
  split
  · exact Pres.refl I _
  · exact pres_command hI _ _ _ hg

theorem pres_feedArc (g : Gen K) (cw x y i j a z f com) (hg : g.cfg = c) :
    Pres I g (g.feedArc cw x y i j a z f com).1 := by
  unfold Gen.feedArc
  split
  · dsimp only
    split
    · exact Pres.refl I _
    · exact pres_command hI _ _ _ hg
  · exact Pres.refl I _

theorem pres_feedRate (g : Gen K) (f) (hg : g.cfg = c) : Pres I g (g.feedRate f).1 := by
  unfold Gen.feedRate
  split
  · have h := pres_writeLine hI g ⟨[], [⟨['F'], .num g.cfg.digits f⟩]⟩ none hg (by rw [hg]; exact Written.feed f)
    exact h.trans (pres_silent hI _ _ _ _ (h.1.trans hg))
  · exact Pres.refl I _

theorem pres_pause (g : Gen K) (b com) (hg : g.cfg = c) : Pres I g (g.pause b com) := pres_command hI _ _ _ hg

theorem pres_headerFront (g : Gen K) (today com) (hg : g.cfg = c) : Pres I g (g.headerFront today com) := by
  unfold Gen.headerFront
  dsimp only
  have h1 := pres_writeRaw hI g ['%', '\n'] hg
  generalize g.writeRaw ['%', '\n'] = g1 at h1 ⊢
  have h2 := h1.trans (pres_comment hI g1 (.one headerDashes) true (h1.1.trans hg))
  generalize g1.comment (.one headerDashes) = g2 at h2 ⊢
  have h3 := h2.trans (pres_comment hI g2 (.one ("Creation date: ".toList ++ today)) true (h2.1.trans hg))
  generalize g2.comment (.one ("Creation date: ".toList ++ today)) = g3 at h3 ⊢
  have h4 := h3.trans (pres_comment hI g3 (.one "Target machine: LinuxCNC, version 2.4+".toList) true (h3.1.trans hg))
  generalize g3.comment (.one "Target machine: LinuxCNC, version 2.4+".toList) = g4 at h4 ⊢
  have h5 := h4.trans (pres_foldl hI (fun (g : Gen K) c => g.comment c)
    (fun g c hg => pres_comment hI g c true hg) g4.cfg.headerComments g4 (h4.1.trans hg))
  generalize g4.cfg.headerComments.foldl (fun (g : Gen K) c => g.comment c) g4 = g5 at h5 ⊢
  have h6 : Pres I g5 (g5.headerComment com) := by
    unfold Gen.headerComment
    split
    · exact Pres.refl I _
    · exact pres_comment hI g5 _ true (h5.1.trans hg)
  generalize (g5.headerComment com) = g6 at h6 ⊢
  have h6 := h5.trans h6
  have h7 := h6.trans (pres_comment hI g6 (.one headerDashes) true (h6.1.trans hg))
  generalize g6.comment (.one headerDashes) = g7 at h7 ⊢
  exact h7.trans (pres_writeRaw hI _ _ (h7.1.trans hg))

theorem pres_headerBlend (g : Gen K) (hg : g.cfg = c) : Pres I g g.headerBlend := by
  unfold Gen.headerBlend
  split
  · split
    · exact pres_writeLine hI _ _ _ hg (Written.bare _ (by decide))
    · split
      · refine pres_writeLine hI _ _ _ hg ?_
        rw [hg]; exact Written.blendPQ _ _
      · refine pres_writeLine hI _ _ _ hg ?_
        rw [hg]; exact Written.blendP _
  · split
    · exact pres_writeLine hI _ _ _ hg (Written.bare _ (by decide))
    · exact Pres.refl I _

theorem pres_headerModal (g : Gen K) (hg : g.cfg = c) : Pres I g g.headerModal := by
  unfold Gen.headerModal
  dsimp only
  have h1 := pres_writeLine hI g ⟨"G17".toList, []⟩ (some "XY plane".toList) hg (Written.bare _ (by decide))
  generalize g.writeLine ⟨"G17".toList, []⟩ (some "XY plane".toList) = g1 at h1 ⊢
  have hc1 := h1.1.trans hg
  have h2 : Pres I g1 (if g1.cfg.gcUnit = "mm".toList then
      g1.writeLine ⟨"G21".toList, []⟩ (some "Units are in millimeters".toList)
    else g1.writeLine ⟨"G20".toList, []⟩ (some "Units are in inches".toList)) := by
    split <;> exact pres_writeLine hI _ _ _ hc1 (Written.bare _ (by decide))
  generalize (if g1.cfg.gcUnit = "mm".toList then
      g1.writeLine ⟨"G21".toList, []⟩ (some "Units are in millimeters".toList)
    else g1.writeLine ⟨"G20".toList, []⟩ (some "Units are in inches".toList)) = g2 at h2 ⊢
  have h2 := h1.trans h2
  have h3 := h2.trans (pres_writeLine hI g2 ⟨"G90".toList, []⟩ (some "Use absolute positioning".toList)
    (h2.1.trans hg) (Written.bare _ (by decide)))
  generalize g2.writeLine ⟨"G90".toList, []⟩ (some "Use absolute positioning".toList) = g3 at h3 ⊢
  have h4 := h3.trans (pres_writeLine hI g3 ⟨"G40".toList, []⟩ (some "Cancel tool diameter compensation".toList)
    (h3.1.trans hg) (Written.bare _ (by decide)))
  generalize g3.writeLine ⟨"G40".toList, []⟩ (some "Cancel tool diameter compensation".toList) = g4 at h4 ⊢
  have h5 := h4.trans (pres_writeLine hI g4 ⟨"G49".toList, []⟩ (some "Cancel tool length compensation".toList)
    (h4.1.trans hg) (Written.bare _ (by decide)))
  generalize g4.writeLine ⟨"G49".toList, []⟩ (some "Cancel tool length compensation".toList) = g5 at h5 ⊢
  exact h5.trans (pres_headerBlend hI _ (h5.1.trans hg))

theorem pres_header (g : Gen K) (today com) (hg : g.cfg = c) : Pres I g (g.header today com).1 := by
  rw [header_eq]
  dsimp only
  have h1 := pres_headerFront hI g today com hg
  generalize g.headerFront today com = g1 at h1 ⊢
  have h2 := h1.trans (pres_headerModal hI g1 (h1.1.trans hg))
  generalize g1.headerModal = g2 at h2 ⊢
  have h3 := h2.trans (pres_writeRaw hI g2 ['\n'] (h2.1.trans hg))
  generalize g2.writeRaw ['\n'] = g3 at h3 ⊢
  have h4 := h3.trans (pres_comment hI g3 (.one "Default feed rate".toList) true (h3.1.trans hg))
  generalize g3.comment (.one "Default feed rate".toList) = g4 at h4 ⊢
  have h5 := h4.trans (pres_feedRate hI g4 g4.cfg.xyfeed (h4.1.trans hg))
  generalize g4.feedRate g4.cfg.xyfeed = r at h5 ⊢
  obtain ⟨g5, e⟩ := r
  cases e
  · exact h5.trans (pres_writeRaw hI _ _ (h5.1.trans hg))
  · exact h5

theorem pres_footer (g : Gen K) (hg : g.cfg = c) : Pres I g g.footer := by
  unfold Gen.footer
  dsimp only
  have h1 := pres_writeRaw hI g ['\n'] hg
  generalize g.writeRaw ['\n'] = g1 at h1 ⊢
  have h2 : Pres I g1 (if g1.offsetReset then
      g1.command "G92.1".toList { comment := some "Reset axis offsets to zero".toList } else g1) := by
    split
    · exact pres_command hI _ _ _ (h1.1.trans hg)
    · exact Pres.refl I _
  generalize (if g1.offsetReset then
      g1.command "G92.1".toList { comment := some "Reset axis offsets to zero".toList } else g1) = g2 at h2 ⊢
  have h2 := h1.trans h2
  have h3 := h2.trans (pres_writeLine hI g2 ⟨"M2".toList, []⟩ (some "End program.".toList)
    (h2.1.trans hg) (Written.bare _ (by decide)))
  generalize g2.writeLine ⟨"M2".toList, []⟩ (some "End program.".toList) = g3 at h3 ⊢
  exact h3.trans (pres_writeRaw hI _ _ (h3.1.trans hg))

theorem pres_normalize (g : Gen K) (ax) (hg : g.cfg = c) : Pres I g (g.normalizeAxisAngle ax).1 := by
  unfold Gen.normalizeAxisAngle
  dsimp only
  split
  · exact Pres.refl I _
  · rename_i hin
    split
    · rename_i k heq
      rw [heq] at hin
      split
      · exact Pres.refl I _
      · rename_i angle _
        split
        · have h := pres_writeLine hI g ⟨"G92".toList, [⟨[k, '='], .num g.cfg.digits (degrees (normAngle angle))⟩]⟩
            (some "Normalize axis angle".toList) hg (by
              rw [hg]; apply Written.normalize
              simp [inABC] at hin; simp; tauto)
          exact h.trans (pres_silent hI _ _ _ _ (h.1.trans hg))
        · exact Pres.refl I _
    · exact Pres.refl I _

theorem pres_gcodeCommand (g : Gen K) (cmd kw) (hg : g.cfg = c) : Pres I g (g.gcodeCommand cmd kw).1 := by
  unfold Gen.gcodeCommand
  split
  · exact Pres.refl I _
  · rename_i h
    dsimp only
    split
    · exact Pres.refl I _
    · exact pres_core hI _ _ _ (canonicalCmd_ne hI _ (by simpa using h)) hg

end

/-- Calls that change configuration only. -/
def Call.isConfig : Call K → Bool
  | .setTolerance .. | .setOutputPrecision .. | .setUnitProp .. | .setUnits .. | .setSpindleDefaults ..
  | .setPathBlending .. | .setAxisOffset .. | .setAxisScale .. | .mapAxis .. | .addHeaderComment .. | .setZsafe ..
  | .setFeeds .. | .setWaits .. | .setAlt .. | .setWrapAngles .. | .setShowComments .. | .setShowLineNumbers .. => true
  | _ => false

/-- Every emitting call preserves a stable invariant and the configuration. -/
theorem pres_step {c : Cfg K} {I : Gen K → Prop} (hI : Stable c I) (g : Gen K) (call : Call K) (hg : g.cfg = c)
    (hc : call.isConfig = false) : Pres I g (g.step call).1 := by
  cases call <;> simp only [Call.isConfig, Bool.true_eq_false] at hc <;> dsimp only [Gen.step]
  · exact pres_rapidMove hI _ _ _ _ _ _ hg
  · exact pres_feed hI _ _ _ _ _ _ _ hg
  · exact pres_feedArc hI _ _ _ _ _ _ _ _ _ _ hg
  · exact pres_toolUp hI _ _ _ _ hg
  · exact pres_toolDown hI _ _ _ _ _ hg
  · exact pres_spindleOn hI _ _ _ _ _ hg
  · exact pres_spindleOff hI _ _ _ hg
  · exact pres_dwell hI _ _ _ hg
  · exact pres_pause hI _ _ _ hg
  · exact pres_comment hI _ _ _ hg
  · exact pres_header hI _ _ _ hg
  · exact pres_footer hI _ hg
  · exact pres_feedRate hI _ _ hg
  · exact pres_normalize hI _ _ hg
  · exact pres_gcodeCommand hI _ _ _ hg

/-- A configuration call changes neither output nor tracking. -/
theorem config_step (g : Gen K) (call : Call K) (hc : call.isConfig = true) :
    ∃ c', (g.step call).1 = { g with cfg := c' } := by
  cases call <;> simp only [Call.isConfig, Bool.false_eq_true] at hc <;> dsimp only [Gen.step]
  all_goals try exact ⟨_, rfl⟩
  · unfold Gen.setUnitProp; split <;> exact ⟨_, rfl⟩
  · unfold Gen.setUnits; split <;> exact ⟨_, rfl⟩
  · unfold Gen.setPathBlending; dsimp only; split <;> exact ⟨_, rfl⟩

end Verif.GCode
