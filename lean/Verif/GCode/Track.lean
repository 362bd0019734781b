import Verif.GCode.Lemmas

/-! # Position tracking: helper lemmas for C01-C04 -/

set_option linter.unusedSectionVars false

namespace Verif.GCode
open Verif PyFloat

variable {K : Type} [PyFloat K]

/-- The axes a motion call can command. -/
def trackedAxes : List Char := ['X', 'Y', 'Z', 'A']

/-- Tracked position and machine position agree: for each of X, Y, Z, A the controller is exactly at the image of
the reported position (and unknown exactly when the reported position is unknown). -/
def Agree (g : Gen K) : Prop :=
  ∀ k ∈ trackedAxes, g.machine.pos k = (g.last k).map (g.cfg.outVal k)

/-- What one step may do to a tracked generator. -/
structure Keeps (g g' : Gen K) : Prop where
  cfg : g'.cfg = g.cfg
  reset : g'.offsetReset = g.offsetReset
  agree : Agree g → Agree g'

theorem Keeps.refl (g : Gen K) : Keeps g g := ⟨rfl, rfl, id⟩
theorem Keeps.trans {a b c : Gen K} (h1 : Keeps a b) (h2 : Keeps b c) : Keeps a c :=
  ⟨h2.cfg.trans h1.cfg, h2.reset.trans h1.reset, h2.agree ∘ h1.agree⟩

theorem keeps_of_quiet {g g' : Gen K} (h : Quiet g g') : Keeps g g' := by
  refine ⟨h.cfg, h.reset, ?_⟩
  intro ha k hk
  rw [h.machine, h.last, h.cfg]
  exact ha k hk

theorem keeps_setUp (g : Gen K) (b : Bool) : Keeps g { g with isToolUp := b } := ⟨rfl, rfl, id⟩

theorem keeps_writeLine_stationary (g : Gen K) (b : Block K) (c) (h : isStationary b.cmd = true) :
    Keeps g (g.writeLine b c) := by
  refine ⟨rfl, rfl, ?_⟩
  intro ha k hk
  rw [writeLine_machine, (exec_stationary _ _ h).1]
  exact ha k hk

theorem trackedAxes_sub (k : Char) (hk : k ∈ trackedAxes) :
    k ∈ posKeys ∧ k ∈ orderedParams ∧ k ∈ axisLetters ∧ k ≠ 'F' := by
  simp only [trackedAxes, List.mem_cons, List.not_mem_nil, or_false] at hk
  rcases hk with rfl | rfl | rfl | rfl <;> decide

/-- The parameter loop followed by the line it emits keeps agreement, for motion commands. -/
theorem keeps_core_motion (g : Gen K) (c : Str) (kw : Kw K) (hmap : g.cfg.axisMap = fun _ => none)
    (hc : (isMotion c = true ∧ baseCmd c ∈ motionGroup) ∨ c = "G92".toList) (hp : kw.params = none) :
    Keeps g (g.gcodeCore c kw) := by
  rw [gcodeCore_eq]
  split
  · refine ⟨rfl, rfl, ?_⟩
    intro ha k hk
    obtain ⟨h1, h2, h3, h4⟩ := trackedAxes_sub k hk
    rw [writeLine_machine, wordsOf_plain _ hmap, exec_motion _ _ (by rcases hc with h | h; exact .inl h.1; exact .inr h)]
    have hm : (g.afterLoop (baseCmd c) kw).machine = g.machine := by simp [Gen.machine]
    rw [hm]
    simp only [h2, h3, and_self, if_true, writeLine_last, writeLine_cfg, afterLoop_cfg]
    simp only [Gen.posParams, Gen.afterLoop, h1, if_true]
    rw [ha k hk]
    cases g.newVal (baseCmd c) kw k <;> rfl
  · rename_i he
    have he : g.emitsParams (baseCmd c) kw = false := by simpa using he
    have hsame : ∀ k ∈ trackedAxes, (g.afterLoop (baseCmd c) kw).last k = g.last k := by
      intro k hk
      obtain ⟨h1, h2, h3, h4⟩ := trackedAxes_sub k hk
      simp only [Gen.afterLoop, h1, if_true, newVal_of_suppressed g _ _ he k h1 h4]
      rfl
    have hkeep : Keeps g (g.afterLoop (baseCmd c) kw) := by
      refine ⟨rfl, rfl, ?_⟩
      intro ha k hk
      have hm : (g.afterLoop (baseCmd c) kw).machine = g.machine := by simp [Gen.machine]
      rw [hm, hsame k hk]
      exact ha k hk
    split
    · rename_i h
      simp only [Bool.and_eq_true, decide_eq_true_eq] at h
      rcases hc with hc | hc
      · exact absurd hc.2 h.2
      · subst hc
        -- a bare `G92` line without words
        refine hkeep.trans ⟨rfl, rfl, ?_⟩
        intro ha k hk
        rw [writeLine_machine]
        have : ((g.afterLoop (baseCmd "G92".toList) kw).machine.exec ⟨"G92".toList, paramWords kw⟩).pos
            = (g.afterLoop (baseCmd "G92".toList) kw).machine.pos := by
          simp [paramWords, hp, Machine.exec]
        rw [this]
        exact ha k hk
    · exact hkeep

/-- A stationary command without axis arguments keeps agreement. -/
theorem keeps_core_stationary (g : Gen K) (c : Str) (kw : Kw K) (hc : isStationary c = true)
    (ha : ∀ k ∈ trackedAxes, kw.args k = none) : Keeps g (g.gcodeCore c kw) := by
  have hn : ∀ k ∈ trackedAxes, g.newVal (baseCmd c) kw k = none := by
    intro k hk; simp [Gen.newVal, ha k hk]
  have hkeep : Keeps g (g.afterLoop (baseCmd c) kw) := by
    refine ⟨rfl, rfl, ?_⟩
    intro hag k hk
    have hm : (g.afterLoop (baseCmd c) kw).machine = g.machine := by simp [Gen.machine]
    rw [hm]
    simp only [Gen.afterLoop, (trackedAxes_sub k hk).1, if_true, hn k hk]
    exact hag k hk
  rw [gcodeCore_eq]
  split
  · exact hkeep.trans (keeps_writeLine_stationary _ _ _ hc)
  · split
    · exact hkeep.trans (keeps_writeLine_stationary _ _ _ hc)
    · exact hkeep

theorem canonical_motion (c : Str) (h : canonicalCmd c ∈ motionGroup) :
    isMotion (canonicalCmd c) = true ∧ baseCmd (canonicalCmd c) ∈ motionGroup := by
  generalize canonicalCmd c = d at h
  simp only [motionGroup, List.mem_cons, List.not_mem_nil, or_false] at h
  rcases h with rfl | rfl | rfl | rfl <;> decide

theorem keeps_command_motion (g : Gen K) (c : Str) (kw : Kw K) (hmap : g.cfg.axisMap = fun _ => none)
    (hc : canonicalCmd c ∈ motionGroup) : Keeps g (g.command c kw) := by
  unfold Gen.command
  split
  · exact Keeps.refl g
  · exact keeps_core_motion _ _ _ hmap (.inl (canonical_motion c hc)) rfl

theorem keeps_dwell (g : Gen K) (ms c) : Keeps g (g.dwell ms c) := by
  unfold Gen.dwell
  split
  · exact keeps_writeLine_stationary _ _ _ (by dsimp only; decide)
  · exact Keeps.refl g

theorem keeps_spindleOn (g : Gen K) (s cw w c) : Keeps g (g.spindleOn s cw w c) := by
  unfold Gen.spindleOn
  have h : Keeps g (g.writeLine ⟨if cw.getD g.cfg.spCw then "M3".toList else "M4".toList,
      [⟨['S'], .int (trunc (s.getD g.cfg.spSpeed))⟩]⟩ c) := by
    apply keeps_writeLine_stationary
    dsimp only
    split <;> decide
  dsimp only
  split
  · exact h.trans (keeps_dwell _ _ _)
  · exact h

theorem keeps_spindleOff (g : Gen K) (w c) : Keeps g (g.spindleOff w c) := by
  unfold Gen.spindleOff
  have h : Keeps g (g.writeLine ⟨"M5".toList, []⟩ c) := by
    apply keeps_writeLine_stationary
    dsimp only; decide
  dsimp only
  split
  · exact h.trans (keeps_dwell _ _ _)
  · exact h

theorem keeps_toolUpMove (g : Gen K) (r c) (hmap : g.cfg.axisMap = fun _ => none) (ha : g.cfg.altUp = none) :
    Keeps g (g.toolUpMove r c) := by
  unfold Gen.toolUpMove
  rw [ha]
  cases r
  · exact keeps_command_motion g "G01".toList _ hmap (by decide)
  · exact keeps_command_motion g "G00".toList _ hmap (by decide)

theorem keeps_toolUp (g : Gen K) (r w c) (hmap : g.cfg.axisMap = fun _ => none) (ha : g.cfg.altUp = none) :
    Keeps g (g.toolUp r w c) := by
  unfold Gen.toolUp
  dsimp only
  have h1 := keeps_toolUpMove g r c hmap ha
  generalize g.toolUpMove r c = g1 at h1 ⊢
  have h2 : Keeps g1 (if g1.cfg.spAuto then g1.spindleOff else g1) := by
    split
    · exact keeps_spindleOff _ _ _
    · exact Keeps.refl _
  generalize (if g1.cfg.spAuto then g1.spindleOff else g1) = g2 at h2 ⊢
  have h3 : Keeps g2 (if zero <. w.getD g2.cfg.waitUp then g2.dwell (w.getD g2.cfg.waitUp) else g2) := by
    split
    · exact keeps_dwell _ _ _
    · exact Keeps.refl _
  exact ((h1.trans h2).trans h3).trans (keeps_setUp _ _)

theorem keeps_toolDown (g : Gen K) (z f w c) (hmap : g.cfg.axisMap = fun _ => none) (ha : g.cfg.altDown = none) :
    Keeps g (g.toolDown z f w c) := by
  unfold Gen.toolDown
  dsimp only
  have h2 : Keeps g (if g.cfg.spAuto then g.spindleOn else g) := by
    split
    · exact keeps_spindleOn _ _ _ _ _
    · exact Keeps.refl _
  generalize (if g.cfg.spAuto then g.spindleOn else g) = g2 at h2 ⊢
  have h2a : g2.cfg.altDown = none := by rw [h2.cfg]; exact ha
  have h3 : Keeps g2 (g2.toolDownMove z (f.getD g.cfg.zfeed) c) := by
    unfold Gen.toolDownMove
    rw [h2a]
    exact keeps_command_motion g2 "G01".toList _ (by rw [h2.cfg]; exact hmap) (by decide)
  generalize g2.toolDownMove z (f.getD g.cfg.zfeed) c = g3 at h3 ⊢
  have h4 := keeps_setUp g3 false
  split
  · exact ((h2.trans h3).trans h4).trans (keeps_dwell _ _ _)
  · exact (h2.trans h3).trans h4

theorem keeps_rapidMove (g : Gen K) (x y z a c) (hmap : g.cfg.axisMap = fun _ => none) (ha : g.cfg.altUp = none) :
    Keeps g (g.rapidMove x y z a c) := by
  unfold Gen.rapidMove
  dsimp only
  have h2 : Keeps g (if g.rapidLifts then g.toolUp else g) := by
    split
    · exact keeps_toolUp _ _ _ _ hmap ha
    · exact Keeps.refl _
  generalize (if g.rapidLifts then g.toolUp else g) = g2 at h2
  exact h2.trans (keeps_command_motion g2 "G00".toList _ (by rw [h2.cfg]; exact hmap) (by decide))

theorem keeps_feed (g : Gen K) (x y z a f c) (hmap : g.cfg.axisMap = fun _ => none) :
    Keeps g (g.feed x y z a f c) := by
  unfold Gen.feed
  split
  · exact Keeps.refl _
  · exact keeps_command_motion g "G01".toList _ hmap (by decide)

theorem keeps_feedArc (g : Gen K) (cw x y i j a z f c) (hmap : g.cfg.axisMap = fun _ => none) :
    Keeps g (g.feedArc cw x y i j a z f c).1 := by
  unfold Gen.feedArc
  split
  · dsimp only
    split
    · exact Keeps.refl _
    · exact keeps_command_motion g (if cw then "G02".toList else "G03".toList) _ hmap (by cases cw <;> decide)
  · exact Keeps.refl _

theorem keeps_feedRate (g : Gen K) (f) : Keeps g (g.feedRate f).1 := by
  unfold Gen.feedRate
  split
  · refine ⟨rfl, rfl, ?_⟩
    intro ha k hk
    have hk' := trackedAxes_sub k hk
    show (Gen.machine _).pos k = _
    have : ∀ (g' : Gen K) l, Gen.machine { g' with last := l } = g'.machine := fun _ _ => rfl
    dsimp only
    rw [this, writeLine_machine, upd_ne _ _ hk'.2.2.2]
    have hF : 'F' ∉ axisLetters := by decide
    simp only [Machine.exec, List.isEmpty_nil, Bool.or_true, if_true, List.foldl_cons, List.foldl_nil, Machine.word,
      Word.read, hF, if_false]
    exact ha k hk
  · exact Keeps.refl _

theorem keeps_pause (g : Gen K) (b c) : Keeps g (g.pause b c) := by
  cases b
  · exact keeps_core_stationary g "M00".toList { comment := c } (by decide) (fun k _ => rfl)
  · exact keeps_core_stationary g "M01".toList { comment := c } (by decide) (fun k _ => rfl)

theorem keeps_foldl {α} (f : Gen K → α → Gen K) (hf : ∀ g a, Keeps g (f g a)) (l : List α) (g : Gen K) :
    Keeps g (l.foldl f g) := by
  induction l generalizing g with
  | nil => exact Keeps.refl g
  | cons a l ih => exact (hf g a).trans (ih _)

theorem keeps_comment (g : Gen K) (c s) : Keeps g (g.comment c s) := keeps_of_quiet (quiet_comment g c s)
theorem keeps_writeRaw (g : Gen K) (s) : Keeps g (g.writeRaw s) := keeps_of_quiet (quiet_writeRaw g s)

theorem keeps_headerBlend (g : Gen K) : Keeps g g.headerBlend := by
  unfold Gen.headerBlend
  split
  · split
    · exact keeps_writeLine_stationary _ _ _ (by dsimp only; decide)
    · split <;> exact keeps_writeLine_stationary _ _ _ (by dsimp only; decide)
  · split
    · exact keeps_writeLine_stationary _ _ _ (by dsimp only; decide)
    · exact Keeps.refl _

/-- The part of `header` before the feed rate. -/
def Gen.headerFront (g : Gen K) (today : Str) (comment : CommentArg) : Gen K :=
  let g := g.writeRaw ['%', '\n']
  let g := g.comment (.one headerDashes)
  let g := g.comment (.one ("Creation date: ".toList ++ today))
  let g := g.comment (.one "Target machine: LinuxCNC, version 2.4+".toList)
  let g := g.cfg.headerComments.foldl (fun g c => g.comment c) g
  let g := g.headerComment comment
  let g := g.comment (.one headerDashes)
  g.writeRaw ['\n']

/-- The modal set-up lines of `header`. -/
def Gen.headerModal (g : Gen K) : Gen K :=
  let g := g.writeLine ⟨"G17".toList, []⟩ (some "XY plane".toList)
  let g := if g.cfg.gcUnit = "mm".toList then g.writeLine ⟨"G21".toList, []⟩ (some "Units are in millimeters".toList)
    else g.writeLine ⟨"G20".toList, []⟩ (some "Units are in inches".toList)
  let g := g.writeLine ⟨"G90".toList, []⟩ (some "Use absolute positioning".toList)
  let g := g.writeLine ⟨"G40".toList, []⟩ (some "Cancel tool diameter compensation".toList)
  let g := g.writeLine ⟨"G49".toList, []⟩ (some "Cancel tool length compensation".toList)
  g.headerBlend

theorem header_eq (g : Gen K) (today c) :
    g.header today c =
      (let g2 := (((g.headerFront today c).headerModal).writeRaw ['\n']).comment (.one "Default feed rate".toList)
       match g2.feedRate g2.cfg.xyfeed with
       | (g, some e) => (g, some e)
       | (g, none) => (g.writeRaw ['\n', '\n'], none)) := by
  rfl

theorem quiet_headerComment (g : Gen K) (c) : Quiet g (g.headerComment c) := by
  unfold Gen.headerComment
  split
  · exact Quiet.refl _
  · exact quiet_comment _ _ _

theorem quiet_headerFront (g : Gen K) (today c) : Quiet g (g.headerFront today c) := by
  unfold Gen.headerFront
  dsimp only
  apply Quiet.trans (quiet_writeRaw g ['%', '\n'])
  apply Quiet.trans (quiet_comment _ (.one headerDashes) true)
  apply Quiet.trans (quiet_comment _ _ true)
  apply Quiet.trans (quiet_comment _ _ true)
  apply Quiet.trans (quiet_foldl _ (fun g c => quiet_comment g c true) _ _)
  exact Quiet.trans (quiet_headerComment _ c)
    (Quiet.trans (quiet_comment _ (.one headerDashes) true) (quiet_writeRaw _ ['\n']))

/-- A stationary line given by its command text. -/
theorem keeps_line (g : Gen K) (cmd : Str) (ws c) (h : isStationary cmd = true) : Keeps g (g.writeLine ⟨cmd, ws⟩ c) :=
  keeps_writeLine_stationary _ _ _ h

theorem keeps_headerModal (g : Gen K) : Keeps g g.headerModal := by
  unfold Gen.headerModal
  dsimp only
  apply Keeps.trans (keeps_line g "G17".toList [] (some "XY plane".toList) (by decide))
  generalize g.writeLine _ _ = g1
  have h : Keeps g1 (if g1.cfg.gcUnit = "mm".toList then
      g1.writeLine ⟨"G21".toList, []⟩ (some "Units are in millimeters".toList)
    else g1.writeLine ⟨"G20".toList, []⟩ (some "Units are in inches".toList)) := by
    split
    · exact keeps_line _ "G21".toList _ _ (by decide)
    · exact keeps_line _ "G20".toList _ _ (by decide)
  apply h.trans
  apply Keeps.trans (keeps_line _ "G90".toList [] (some "Use absolute positioning".toList) (by decide))
  apply Keeps.trans (keeps_line _ "G40".toList [] (some "Cancel tool diameter compensation".toList) (by decide))
  apply Keeps.trans (keeps_line _ "G49".toList [] (some "Cancel tool length compensation".toList) (by decide))
  exact keeps_headerBlend _

theorem keeps_header (g : Gen K) (today c) : Keeps g (g.header today c).1 := by
  rw [header_eq]
  dsimp only
  have h1 : Keeps g ((((g.headerFront today c).headerModal).writeRaw ['\n']).comment
      (.one "Default feed rate".toList)) :=
    (((keeps_of_quiet (quiet_headerFront g today c)).trans (keeps_headerModal _)).trans (keeps_writeRaw _ _)).trans
      (keeps_comment _ _ _)
  generalize (((g.headerFront today c).headerModal).writeRaw ['\n']).comment
      (.one "Default feed rate".toList) = g2 at h1
  have h2 := keeps_feedRate g2 g2.cfg.xyfeed
  cases hf : g2.feedRate g2.cfg.xyfeed with
  | mk g3 e =>
    rw [hf] at h2
    cases e
    · exact (h1.trans h2).trans (keeps_writeRaw _ _)
    · exact h1.trans h2

theorem keeps_footer (g : Gen K) (h : g.offsetReset = false) : Keeps g g.footer := by
  unfold Gen.footer
  dsimp only
  have : (g.writeRaw ['\n']).offsetReset = false := h
  rw [this]
  simp only [Bool.false_eq_true, if_false]
  exact ((keeps_writeRaw g _).trans (keeps_writeLine_stationary _ _ _ (by dsimp only; decide))).trans (keeps_writeRaw _ _)

end Verif.GCode
