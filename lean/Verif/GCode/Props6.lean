import Verif.GCode.Props5

/-!
# Properties C10 and C18: comments and axis names

Both are simulations between two runs of the generator that differ only in comment settings and axis names.
-/

set_option linter.unusedSectionVars false

namespace Verif.GCode
open Verif PyFloat

variable {K : Type} [PyFloat K]

/-- The numbered code lines of an output stream: line number and block, no comments, no raw text. -/
def linesOf (out : List (Out K)) : List (Option Nat × Block K) :=
  out.filterMap fun o => match o with
    | .raw _ => none
    | .line n b _ => some (n, b)

theorem linesOf_append (a b : List (Out K)) : linesOf (a ++ b) = linesOf a ++ linesOf b := by
  simp [linesOf, List.filterMap_append]

theorem blocksOf_lines (out : List (Out K)) : blocksOf out = (linesOf out).map (·.2) := by
  induction out with
  | nil => rfl
  | cons o out ih =>
    cases o <;> simp_all [blocksOf, linesOf]

/-- Apply a word substitution to a block. -/
def Block.mapWords (r : Word K → Word K) (b : Block K) : Block K := ⟨b.cmd, b.words.map r⟩

/-- Same machine code up to the word substitution `r`; comment settings and axis names may differ. -/
structure Sim (r : Word K → Word K) (g1 g2 : Gen K) : Prop where
  cfg : g2.cfg = { g1.cfg with axisMap := g2.cfg.axisMap, showComments := g2.cfg.showComments,
                               headerComments := g2.cfg.headerComments }
  map : ∀ k ∈ posKeys, ∀ d v, r ⟨(g1.cfg.axisMap k).getD [k], .num d v⟩ = ⟨(g2.cfg.axisMap k).getD [k], .num d v⟩
  plainNum : ∀ k ∈ ['P', 'Q', 'F'], ∀ d v, r ⟨[k], .num d v⟩ = ⟨[k], .num d v⟩
  plainInt : ∀ n, r ⟨['S'], .int n⟩ = ⟨['S'], .int n⟩
  plainOpaque : ∀ p, r ⟨p, .none⟩ = ⟨p, .none⟩
  last : g2.last = g1.last
  up : g2.isToolUp = g1.isToolUp
  reset : g2.offsetReset = g1.offsetReset
  num : g2.lineNumber = g1.lineNumber
  out : linesOf g2.out = (linesOf g1.out).map fun p => (p.1, p.2.mapWords r)

theorem Sim.get {r : Word K → Word K} {g1 g2 : Gen K} (h : Sim r g1 g2) {α : Type} (p : Cfg K → α)
    (hp : ∀ c M s hc, p { c with axisMap := M, showComments := s, headerComments := hc } = p c := by intros; rfl) :
    p g2.cfg = p g1.cfg := by rw [h.cfg, hp]

variable {r : Word K → Word K}

theorem Sim.line {g1 g2 : Gen K} (h : Sim r g1 g2) (b1 b2 : Block K) (c1 c2) (hb : b2 = b1.mapWords r) :
    Sim r (g1.writeLine b1 c1) (g2.writeLine b2 c2) := by
  have hs := h.get (·.showLineNumbers)
  refine ⟨h.cfg, h.map, h.plainNum, h.plainInt, h.plainOpaque, h.last, h.up, h.reset, ?_, ?_⟩
  · simp only [Gen.writeLine, hs, h.num]
  · simp only [Gen.writeLine, linesOf_append, h.out, List.map_append, hs, h.num, hb]
    rfl

/-- A bare command line. -/
theorem Sim.bare {g1 g2 : Gen K} (h : Sim r g1 g2) (cmd : Str) (c1 c2) :
    Sim r (g1.writeLine ⟨cmd, []⟩ c1) (g2.writeLine ⟨cmd, []⟩ c2) := h.line _ _ _ _ rfl

theorem lines_raw (g : Gen K) (s) : linesOf (g.writeRaw s).out = linesOf g.out := by
  simp [Gen.writeRaw, linesOf_append]; simp [linesOf]

theorem lines_writeComment (g : Gen K) (c s) : linesOf (g.writeComment c s).out = linesOf g.out := by
  unfold Gen.writeComment; split <;> (try split) <;> (try split) <;> exact lines_raw _ _

theorem lines_comment (g : Gen K) (c s) : linesOf (g.comment c s).out = linesOf g.out := by
  unfold Gen.comment
  split
  · cases c with
    | none => exact lines_writeComment _ _ _
    | one => exact lines_writeComment _ _ _
    | many l =>
      dsimp only
      induction l generalizing g with
      | nil => rfl
      | cons a l ih =>
        rw [List.foldl_cons]
        rw [ih _ (by rw [writeComment_cfg]; assumption), lines_writeComment]
  · rfl

/-- Textual steps on either side keep the simulation. -/
theorem Sim.quiet {g1 g2 g1' g2' : Gen K} (h : Sim r g1 g2) (q1 : Quiet g1 g1') (q2 : Quiet g2 g2')
    (l1 : linesOf g1'.out = linesOf g1.out) (l2 : linesOf g2'.out = linesOf g2.out) : Sim r g1' g2' := by
  refine ⟨?_, ?_, h.plainNum, h.plainInt, h.plainOpaque, ?_, ?_, ?_, ?_, ?_⟩
  · rw [q1.cfg, q2.cfg]; exact h.cfg
  · rw [q1.cfg, q2.cfg]; exact h.map
  · rw [q1.last, q2.last]; exact h.last
  · rw [q1.up, q2.up]; exact h.up
  · rw [q1.reset, q2.reset]; exact h.reset
  · rw [q1.lineNumber, q2.lineNumber]; exact h.num
  · rw [l1, l2]; exact h.out

theorem Sim.raw {g1 g2 : Gen K} (h : Sim r g1 g2) (s1 s2) : Sim r (g1.writeRaw s1) (g2.writeRaw s2) :=
  h.quiet (quiet_writeRaw _ _) (quiet_writeRaw _ _) (lines_raw _ _) (lines_raw _ _)

theorem Sim.comment {g1 g2 : Gen K} (h : Sim r g1 g2) (c1 s1 c2 s2) : Sim r (g1.comment c1 s1) (g2.comment c2 s2) :=
  h.quiet (quiet_comment _ _ _) (quiet_comment _ _ _) (lines_comment _ _ _) (lines_comment _ _ _)

theorem Sim.setUp {g1 g2 : Gen K} (h : Sim r g1 g2) (b : Bool) :
    Sim r { g1 with isToolUp := b } { g2 with isToolUp := b } :=
  ⟨h.cfg, h.map, h.plainNum, h.plainInt, h.plainOpaque, h.last, rfl, h.reset, h.num, h.out⟩

theorem filterMap_congr_posKeys {c1 c2 : Cfg K} (hd : c2.digits = c1.digits)
    (hm : ∀ k ∈ posKeys, ∀ d v, r ⟨(c1.axisMap k).getD [k], .num d v⟩ = ⟨(c2.axisMap k).getD [k], .num d v⟩)
    (pp : Char → Option K) (hp : ∀ k, k ∉ posKeys → pp k = none) : c2.wordsOf pp = (c1.wordsOf pp).map r := by
  unfold Cfg.wordsOf
  rw [List.map_filterMap]
  apply List.filterMap_congr
  intro k _
  by_cases hk : k ∈ posKeys
  · cases pp k with
    | none => rfl
    | some v => simp only [Option.map_some, hd]; rw [hm k hk]
  · rw [hp k hk]; rfl

theorem Sim.core {g1 g2 : Gen K} (h : Sim r g1 g2) (cmd : Str) (kw : Kw K) (c2 : Option Str) :
    Sim r (g1.gcodeCore cmd kw) (g2.gcodeCore cmd { kw with comment := c2 }) := by
  have hnv : ∀ k, g2.newVal (baseCmd cmd) { kw with comment := c2 } k = g1.newVal (baseCmd cmd) kw k := by
    intro k
    unfold Gen.newVal Gen.hasChanged Cfg.effVal
    simp only [h.last, h.get (·.wrapAngles), h.get (·.angleTol), h.get (·.tol)]
  have hov : ∀ k v, g2.cfg.outVal k v = g1.cfg.outVal k v := by
    intro k v
    unfold Cfg.outVal
    simp only [h.get (·.axisScale), h.get (·.axisOffset), h.get (·.unitScale)]
  have hup : ∀ nv, g2.upAfter nv = g1.upAfter nv := by
    intro nv
    unfold Gen.upAfter Cfg.axisVal
    simp only [h.up, h.get (·.axisScale), h.get (·.axisOffset), h.get (·.zsafe)]
  have hpp : g2.posParams (baseCmd cmd) { kw with comment := c2 } = g1.posParams (baseCmd cmd) kw := by
    funext k
    have : g2.cfg.outVal k = g1.cfg.outVal k := funext (hov k)
    unfold Gen.posParams
    rw [hnv, this]
  have hem : g2.emitsParams (baseCmd cmd) { kw with comment := c2 } = g1.emitsParams (baseCmd cmd) kw := by
    unfold Gen.emitsParams; simp only [hnv]
  have hno : g2.noParams (baseCmd cmd) { kw with comment := c2 } = g1.noParams (baseCmd cmd) kw := by
    unfold Gen.noParams; simp only [hnv]
  have hal : Sim r (g1.afterLoop (baseCmd cmd) kw) (g2.afterLoop (baseCmd cmd) { kw with comment := c2 }) := by
    refine ⟨h.cfg, h.map, h.plainNum, h.plainInt, h.plainOpaque, ?_, ?_, h.reset, h.num, h.out⟩
    · funext k; simp only [Gen.afterLoop, hnv, h.last]
    · simp only [Gen.afterLoop, hnv, hup]
  have hw : g2.cfg.wordsOf (g1.posParams (baseCmd cmd) kw) = (g1.cfg.wordsOf (g1.posParams (baseCmd cmd) kw)).map r :=
    filterMap_congr_posKeys (h.get (·.digits)) h.map _ (by intro k hk; simp [Gen.posParams, hk])
  rw [gcodeCore_eq, gcodeCore_eq, hem, hno, hpp]
  split
  · exact hal.line _ _ _ _ (by simp only [Block.mapWords, hw])
  · split
    · refine hal.line _ _ _ _ ?_
      unfold Block.mapWords paramWords
      dsimp only
      cases kw.params with
      | none => rfl
      | some p =>
        dsimp only
        split
        · rfl
        · simp [h.plainOpaque]
    · exact hal

theorem Sim.command {g1 g2 : Gen K} (h : Sim r g1 g2) (cmd : Str) (args : Char → Option K) (p1 p2 : Option Str) (force : Str)
    (c1 c2 : Option Str) :
    Sim r (g1.command cmd ⟨args, p1, force, c1⟩) (g2.command cmd ⟨args, p2, force, c2⟩) := by
  unfold Gen.command
  split
  · exact h
  · exact h.core _ ⟨args, none, force, c1⟩ c2

theorem Sim.dwell {g1 g2 : Gen K} (h : Sim r g1 g2) (ms : K) (c1 c2) : Sim r (g1.dwell ms c1) (g2.dwell ms c2) := by
  unfold Gen.dwell
  split
  · refine h.line _ _ _ _ ?_
    simp only [Block.mapWords, List.map_cons, List.map_nil]
    rw [h.plainNum 'P' (by decide)]
  · exact h

theorem Sim.wait {g1 g2 : Gen K} (h : Sim r g1 g2) (ms : K) :
    Sim r (if zero <. ms then g1.dwell ms else g1) (if zero <. ms then g2.dwell ms else g2) := by
  split
  · exact h.dwell _ _ _
  · exact h

theorem Sim.spindleOn {g1 g2 : Gen K} (h : Sim r g1 g2) (s cw w c1 c2) :
    Sim r (g1.spindleOn s cw w c1) (g2.spindleOn s cw w c2) := by
  unfold Gen.spindleOn
  dsimp only
  rw [h.get (·.spSpeed), h.get (·.spCw), h.get (·.spWaitOn)]
  refine Sim.wait (h.line _ _ _ _ ?_) _
  simp only [Block.mapWords, List.map_cons, List.map_nil, h.plainInt]

theorem Sim.spindleOff {g1 g2 : Gen K} (h : Sim r g1 g2) (w c1 c2) : Sim r (g1.spindleOff w c1) (g2.spindleOff w c2) := by
  unfold Gen.spindleOff
  dsimp only
  have h1 : Sim r (g1.writeLine ⟨"M5".toList, []⟩ c1) (g2.writeLine ⟨"M5".toList, []⟩ c2) := h.bare _ _ _
  generalize g1.writeLine ⟨"M5".toList, []⟩ c1 = a1 at h1 ⊢
  generalize g2.writeLine ⟨"M5".toList, []⟩ c2 = a2 at h1 ⊢
  rw [h1.get (·.spWaitOff)]
  exact h1.wait _

theorem Sim.toolUp {g1 g2 : Gen K} (h : Sim r g1 g2) (rp w c1 c2) : Sim r (g1.toolUp rp w c1) (g2.toolUp rp w c2) := by
  have h1 : Sim r (g1.toolUpMove rp c1) (g2.toolUpMove rp c2) := by
    unfold Gen.toolUpMove
    rw [h.get (·.altUp), h.get (·.zsafe)]
    cases g1.cfg.altUp
    · exact h.command _ _ _ _ _ _ _
    · exact h.command _ _ _ _ _ _ _
  unfold Gen.toolUp
  dsimp only
  generalize g1.toolUpMove rp c1 = a1 at h1 ⊢
  generalize g2.toolUpMove rp c2 = a2 at h1 ⊢
  have h2 : Sim r (if a1.cfg.spAuto then a1.spindleOff else a1) (if a2.cfg.spAuto then a2.spindleOff else a2) := by
    rw [h1.get (·.spAuto)]
    split
    · exact h1.spindleOff _ _ _
    · exact h1
  generalize (if a1.cfg.spAuto then a1.spindleOff else a1) = b1 at h2 ⊢
  generalize (if a2.cfg.spAuto then a2.spindleOff else a2) = b2 at h2 ⊢
  rw [h2.get (·.waitUp)]
  exact (h2.wait _).setUp true

theorem Sim.toolDown {g1 g2 : Gen K} (h : Sim r g1 g2) (z f w c1 c2) : Sim r (g1.toolDown z f w c1) (g2.toolDown z f w c2) := by
  unfold Gen.toolDown
  dsimp only
  rw [h.get (·.zfeed), h.get (·.waitDown), h.get (·.spAuto)]
  have h1 : Sim r (if g1.cfg.spAuto then g1.spindleOn else g1) (if g1.cfg.spAuto then g2.spindleOn else g2) := by
    split
    · exact h.spindleOn _ _ _ _ _
    · exact h
  generalize (if g1.cfg.spAuto then g1.spindleOn else g1) = a1 at h1 ⊢
  generalize (if g1.cfg.spAuto then g2.spindleOn else g2) = a2 at h1 ⊢
  have h2 : Sim r (a1.toolDownMove z (f.getD g1.cfg.zfeed) c1) (a2.toolDownMove z (f.getD g1.cfg.zfeed) c2) := by
    unfold Gen.toolDownMove
    rw [h1.get (·.altDown)]
    cases a1.cfg.altDown
    · exact h1.command _ _ _ _ _ _ _
    · exact h1.command _ _ _ _ _ _ _
  exact (h2.setUp false).wait _

theorem Sim.rapidMove {g1 g2 : Gen K} (h : Sim r g1 g2) (x y z a c1 c2) :
    Sim r (g1.rapidMove x y z a c1) (g2.rapidMove x y z a c2) := by
  have hl : g2.rapidLifts = g1.rapidLifts := by
    unfold Gen.rapidLifts; rw [h.last, h.up, h.get (·.zsafe)]
  unfold Gen.rapidMove
  dsimp only
  rw [hl]
  have h1 : Sim r (if g1.rapidLifts then g1.toolUp else g1) (if g1.rapidLifts then g2.toolUp else g2) := by
    split
    · exact h.toolUp _ _ _ _
    · exact h
  generalize (if g1.rapidLifts then g1.toolUp else g1) = a1 at h1 ⊢
  generalize (if g1.rapidLifts then g2.toolUp else g2) = a2 at h1 ⊢
  rw [h1.get (·.zsafe)]
  exact h1.command _ _ _ _ _ _ _

theorem Sim.feed {g1 g2 : Gen K} (h : Sim r g1 g2) (x y z a f c1 c2) :
    Sim r (g1.feed x y z a f c1) (g2.feed x y z a f c2) := by
  have hp : g2.cfg.pickFeed x y z a f = g1.cfg.pickFeed x y z a f := by
    unfold Cfg.pickFeed
    rw [h.get (·.xyfeed), h.get (·.zfeed), h.get (·.afeed)]
  unfold Gen.feed
  rw [hp]
  cases g1.cfg.pickFeed x y z a f with
  | none => exact h
  | some f => exact h.command _ _ _ _ _ _ _

theorem Sim.feedArc {g1 g2 : Gen K} (h : Sim r g1 g2) (cw x y i j a z f c1 c2) :
    Sim r (g1.feedArc cw x y i j a z f c1).1 (g2.feedArc cw x y i j a z f c2).1 ∧
    (g2.feedArc cw x y i j a z f c2).2 = (g1.feedArc cw x y i j a z f c1).2 := by
  unfold Gen.feedArc Gen.floatEq
  dsimp only
  rw [h.last, h.get (·.tol), h.get (·.xyfeed)]
  cases g1.last 'X' with
  | none => exact ⟨h, rfl⟩
  | some cx =>
    cases g1.last 'Y' with
    | none => exact ⟨h, rfl⟩
    | some cy =>
      dsimp only
      split
      · exact ⟨h, rfl⟩
      · exact ⟨h.command _ _ _ _ _ _ _, rfl⟩

theorem Sim.feedRate {g1 g2 : Gen K} (h : Sim r g1 g2) (f) :
    Sim r (g1.feedRate f).1 (g2.feedRate f).1 ∧ (g2.feedRate f).2 = (g1.feedRate f).2 := by
  unfold Gen.feedRate
  rw [h.last]
  cases g1.last 'F' with
  | some _ => exact ⟨h, rfl⟩
  | none =>
    dsimp only
    have h1 : Sim r (g1.writeLine ⟨[], [⟨['F'], .num g1.cfg.digits f⟩]⟩ none) (g2.writeLine ⟨[], [⟨['F'], .num g2.cfg.digits f⟩]⟩ none) := by
      refine h.line _ _ _ _ ?_
      simp only [Block.mapWords, List.map_cons, List.map_nil, h.get (·.digits)]
      rw [h.plainNum 'F' (by decide)]
    refine ⟨⟨h1.cfg, h1.map, h1.plainNum, h1.plainInt, h1.plainOpaque, ?_, h1.up, h1.reset, h1.num, h1.out⟩, rfl⟩
    simp only [writeLine_last, h.last]

theorem Sim.normalize {g1 g2 : Gen K} (h : Sim r g1 g2)
    (hr : ∀ k ∈ ['A', 'B', 'C'], ∀ d v, r ⟨[k, '='], .num d v⟩ = ⟨[k, '='], .num d v⟩) (ax) :
    Sim r (g1.normalizeAxisAngle ax).1 (g2.normalizeAxisAngle ax).1 ∧
    (g2.normalizeAxisAngle ax).2 = (g1.normalizeAxisAngle ax).2 := by
  unfold Gen.normalizeAxisAngle
  dsimp only
  split
  · exact ⟨h, rfl⟩
  · rename_i hin
    split
    · rename_i k hk
      rw [h.last]
      cases g1.last k with
      | none => exact ⟨h, rfl⟩
      | some angle =>
        dsimp only
        split
        · have hkm : k ∈ ['A', 'B', 'C'] := by
            rw [hk] at hin
            revert hin
            simp [inABC]
            tauto
          have h1 : Sim r (g1.writeLine ⟨"G92".toList, [⟨[k, '='], .num g1.cfg.digits (degrees (normAngle angle))⟩]⟩
              (some "Normalize axis angle".toList)) (g2.writeLine ⟨"G92".toList, [⟨[k, '='], .num g2.cfg.digits
              (degrees (normAngle angle))⟩]⟩ (some "Normalize axis angle".toList)) := by
            refine h.line _ _ _ _ ?_
            simp only [Block.mapWords, List.map_cons, List.map_nil, h.get (·.digits)]
            rw [hr k hkm]
          refine ⟨⟨h1.cfg, h1.map, h1.plainNum, h1.plainInt, h1.plainOpaque, ?_, h1.up, rfl, h1.num, h1.out⟩, rfl⟩
          simp only [writeLine_last, h.last]
        · exact ⟨h, rfl⟩
    · exact ⟨h, rfl⟩

theorem lines_headerFront (g : Gen K) (today com) : linesOf (g.headerFront today com).out = linesOf g.out := by
  have hf : ∀ (l : List CommentArg) (g : Gen K), linesOf (l.foldl (fun g c => g.comment c) g).out = linesOf g.out := by
    intro l
    induction l with
    | nil => intro g; rfl
    | cons a l ih => intro g; rw [List.foldl_cons, ih, lines_comment]
  have hc : ∀ (g : Gen K), linesOf (g.headerComment com).out = linesOf g.out := by
    intro g; unfold Gen.headerComment; split
    · rfl
    · exact lines_comment _ _ _
  unfold Gen.headerFront
  dsimp only
  rw [lines_raw, lines_comment, hc, hf, lines_comment, lines_comment, lines_comment, lines_raw]

theorem Sim.headerBlend {g1 g2 : Gen K} (h : Sim r g1 g2) : Sim r g1.headerBlend g2.headerBlend := by
  have hd := h.get (·.digits)
  unfold Gen.headerBlend
  rw [h.get (·.blendMode), h.get (·.blendTol), h.get (·.blendQTol)]
  split
  · cases g1.cfg.blendTol with
    | none => exact h.bare _ _ _
    | some p =>
      cases g1.cfg.blendQTol with
      | none =>
        refine h.line _ _ _ _ ?_
        simp only [Block.mapWords, List.map_cons, List.map_nil, hd]
        rw [h.plainNum 'P' (by decide)]
      | some q =>
        refine h.line _ _ _ _ ?_
        simp only [Block.mapWords, List.map_cons, List.map_nil, hd]
        rw [h.plainNum 'P' (by decide), h.plainNum 'Q' (by decide)]
  · split
    · exact h.bare _ _ _
    · exact h

theorem Sim.headerModal {g1 g2 : Gen K} (h : Sim r g1 g2) : Sim r g1.headerModal g2.headerModal := by
  unfold Gen.headerModal
  dsimp only
  have h1 := h.bare "G17".toList (some "XY plane".toList) (some "XY plane".toList)
  generalize g1.writeLine ⟨"G17".toList, []⟩ (some "XY plane".toList) = a1 at h1 ⊢
  generalize g2.writeLine ⟨"G17".toList, []⟩ (some "XY plane".toList) = a2 at h1 ⊢
  rw [h1.get (·.gcUnit)]
  apply Sim.headerBlend
  apply Sim.bare
  apply Sim.bare
  apply Sim.bare
  split <;> exact h1.bare _ _ _

theorem Sim.header {g1 g2 : Gen K} (h : Sim r g1 g2) (today c1 c2) :
    Sim r (g1.header today c1).1 (g2.header today c2).1 ∧ (g2.header today c2).2 = (g1.header today c1).2 := by
  rw [header_eq, header_eq]
  dsimp only
  have h1 : Sim r (g1.headerFront today c1) (g2.headerFront today c2) :=
    h.quiet (quiet_headerFront _ _ _) (quiet_headerFront _ _ _) (lines_headerFront _ _ _) (lines_headerFront _ _ _)
  have h2 := (h1.headerModal.raw ['\n'] ['\n']).comment (.one "Default feed rate".toList) true
    (.one "Default feed rate".toList) true
  generalize ((g1.headerFront today c1).headerModal.writeRaw ['\n']).comment (.one "Default feed rate".toList) = a1 at h2 ⊢
  generalize ((g2.headerFront today c2).headerModal.writeRaw ['\n']).comment (.one "Default feed rate".toList) = a2 at h2 ⊢
  rw [h2.get (·.xyfeed)]
  have h3 := h2.feedRate a1.cfg.xyfeed
  generalize a1.feedRate a1.cfg.xyfeed = p1 at h3 ⊢
  generalize a2.feedRate a1.cfg.xyfeed = p2 at h3 ⊢
  obtain ⟨b1, e1⟩ := p1
  obtain ⟨b2, e2⟩ := p2
  obtain ⟨h3, he⟩ := h3
  dsimp only at he h3
  subst he
  cases e2
  · exact ⟨h3.raw _ _, rfl⟩
  · exact ⟨h3, rfl⟩

theorem Sim.footer {g1 g2 : Gen K} (h : Sim r g1 g2) : Sim r g1.footer g2.footer := by
  unfold Gen.footer
  dsimp only
  have h1 := h.raw ['\n'] ['\n']
  generalize g1.writeRaw ['\n'] = a1 at h1 ⊢
  generalize g2.writeRaw ['\n'] = a2 at h1 ⊢
  rw [h1.reset]
  have h2 : Sim r (if a1.offsetReset then a1.command "G92.1".toList { comment := some "Reset axis offsets to zero".toList } else a1)
      (if a1.offsetReset then a2.command "G92.1".toList { comment := some "Reset axis offsets to zero".toList } else a2) := by
    split
    · exact h1.command _ _ _ _ _ _ _
    · exact h1
  exact (h2.bare _ _ _).raw _ _

theorem Sim.gcodeCommand {g1 g2 : Gen K} (h : Sim r g1 g2) (cmd : Str) (kw : Kw K) (c2) :
    Sim r (g1.gcodeCommand cmd kw).1 (g2.gcodeCommand cmd { kw with comment := c2 }).1 ∧
    (g2.gcodeCommand cmd { kw with comment := c2 }).2 = (g1.gcodeCommand cmd kw).2 := by
  have hp : Kw.hasParams { kw with comment := c2 } = kw.hasParams := rfl
  unfold Gen.gcodeCommand
  dsimp only
  rw [hp]
  split
  · exact ⟨h, rfl⟩
  · split
    · exact ⟨h, rfl⟩
    · exact ⟨h.core _ _ _, rfl⟩

/-! ## Calls without their comments -/

/-- The code-relevant part of a call: `none` for calls that only concern comments, otherwise the same call with its comment
argument removed. -/
def Call.code : Call K → Option (Call K)
  | .comment .. | .addHeaderComment .. | .setShowComments .. => none
  | .rapidMove x y z a _ => some (.rapidMove x y z a none)
  | .feed x y z a f _ => some (.feed x y z a f none)
  | .feedArc cw x y i j a z f _ => some (.feedArc cw x y i j a z f none)
  | .toolUp r w _ => some (.toolUp r w none)
  | .toolDown z f w _ => some (.toolDown z f w none)
  | .spindleOn s cw w _ => some (.spindleOn s cw w none)
  | .spindleOff w _ => some (.spindleOff w none)
  | .dwell ms _ => some (.dwell ms none)
  | .pause b _ => some (.pause b none)
  | .header t _ => some (.header t .none)
  | .gcodeCommand cmd kw => some (.gcodeCommand cmd { kw with comment := none })
  | c => some c

/-- Calls `normalize_axis_angle`. -/
def Call.isNormalize : Call K → Bool
  | .normalizeAxisAngle _ => true
  | _ => false

/-- Calls `map_axis`. -/
def Call.isMapAxis : Call K → Bool
  | .mapAxis .. => true
  | _ => false

theorem Sim.step {g1 g2 : Gen K} (h : Sim r g1 g2) (c m : Call K) (hm : c.code = some m)
    (hn : c.isNormalize = true → ∀ k ∈ ['A', 'B', 'C'], ∀ d v, r ⟨[k, '='], .num d v⟩ = ⟨[k, '='], .num d v⟩)
    (ha : c.isMapAxis = true → (∀ w, r w = w) ∧ g1.cfg.axisMap = g2.cfg.axisMap) :
    Sim r (g1.step c).1 (g2.step m).1 ∧ (g2.step m).2 = (g1.step c).2 := by
  have hc := h.cfg
  cases c <;> simp only [Call.code, Option.some.injEq, reduceCtorEq] at hm <;> subst hm <;> dsimp only [Gen.step]
  case rapidMove => exact ⟨h.rapidMove _ _ _ _ _ _, rfl⟩
  case feed => exact ⟨h.feed _ _ _ _ _ _ _, rfl⟩
  case feedArc => exact h.feedArc _ _ _ _ _ _ _ _ _ _
  case toolUp => exact ⟨h.toolUp _ _ _ _, rfl⟩
  case toolDown => exact ⟨h.toolDown _ _ _ _ _, rfl⟩
  case spindleOn => exact ⟨h.spindleOn _ _ _ _ _, rfl⟩
  case spindleOff => exact ⟨h.spindleOff _ _ _, rfl⟩
  case dwell => exact ⟨h.dwell _ _ _, rfl⟩
  case pause => exact ⟨h.command _ _ _ _ _ _ _, rfl⟩
  case header => exact h.header _ _ _
  case footer => exact ⟨h.footer, rfl⟩
  case feedRate => exact h.feedRate _
  case normalizeAxisAngle => exact h.normalize (hn rfl) _
  case gcodeCommand => exact h.gcodeCommand _ _ _
  case mapAxis k name =>
    obtain ⟨hid, hmap⟩ := ha rfl
    refine ⟨⟨?_, ?_, h.plainNum, h.plainInt, h.plainOpaque, h.last, h.up, h.reset, h.num, h.out⟩, rfl⟩
    · simp only [Gen.mapAxis]; rw [hc]
    · intro k _ d v
      rw [hid]
      simp only [Gen.mapAxis, hmap]
  case setUnitProp =>
    unfold Gen.setUnitProp
    split
    · refine ⟨⟨?_, h.map, h.plainNum, h.plainInt, h.plainOpaque, h.last, h.up, h.reset, h.num, h.out⟩, rfl⟩
      dsimp only; rw [hc]
    · exact ⟨h, rfl⟩
  case setUnits =>
    unfold Gen.setUnits
    split
    · refine ⟨⟨?_, h.map, h.plainNum, h.plainInt, h.plainOpaque, h.last, h.up, h.reset, h.num, h.out⟩, rfl⟩
      dsimp only; rw [hc]
    · exact ⟨h, rfl⟩
  case setPathBlending =>
    unfold Gen.setPathBlending
    dsimp only
    split
    · refine ⟨⟨?_, h.map, h.plainNum, h.plainInt, h.plainOpaque, h.last, h.up, h.reset, h.num, h.out⟩, rfl⟩
      dsimp only; rw [hc]
    · exact ⟨h, rfl⟩
  case setAxisOffset =>
    refine ⟨⟨?_, h.map, h.plainNum, h.plainInt, h.plainOpaque, h.last, h.up, h.reset, h.num, h.out⟩, rfl⟩
    dsimp only [Gen.setAxisOffset]; rw [hc]
  case setAxisScale =>
    refine ⟨⟨?_, h.map, h.plainNum, h.plainInt, h.plainOpaque, h.last, h.up, h.reset, h.num, h.out⟩, rfl⟩
    dsimp only [Gen.setAxisScale]; rw [hc]
  all_goals
    refine ⟨⟨?_, h.map, h.plainNum, h.plainInt, h.plainOpaque, h.last, h.up, h.reset, h.num, h.out⟩, rfl⟩
    dsimp only [Gen.setTolerance, Gen.setOutputPrecision, Gen.setSpindleDefaults]
    rw [hc]

/-- A call that only concerns comments leaves the code alone. -/
theorem Sim.step_none {g1 g2 : Gen K} (h : Sim r g1 g2) (c : Call K) (hm : c.code = none) : Sim r (g1.step c).1 g2 := by
  have hc := h.cfg
  cases c <;> simp only [Call.code, reduceCtorEq] at hm <;> dsimp only [Gen.step]
  · exact h.quiet (quiet_comment _ _ _) (Quiet.refl _) (lines_comment _ _ _) rfl
  · exact ⟨hc, h.map, h.plainNum, h.plainInt, h.plainOpaque, h.last, h.up, h.reset, h.num, h.out⟩
  · exact ⟨hc, h.map, h.plainNum, h.plainInt, h.plainOpaque, h.last, h.up, h.reset, h.num, h.out⟩

theorem code_flags (c m : Call K) (h : c.code = some m) : m.isNormalize = c.isNormalize ∧ m.isMapAxis = c.isMapAxis := by
  cases c <;> simp only [Call.code, Option.some.injEq, reduceCtorEq] at h <;> subst h <;> exact ⟨rfl, rfl⟩

theorem Sim.refl (g : Gen K) : Sim id g g :=
  ⟨rfl, fun _ _ _ _ => rfl, fun _ _ _ _ => rfl, fun _ => rfl, fun _ => rfl, rfl, rfl, rfl, rfl, by
    show _ = List.map (fun p : Option Nat × Block K => (p.1, p.2.mapWords id)) _
    have : (fun p : Option Nat × Block K => (p.1, p.2.mapWords id)) = id := by
      funext p; simp [Block.mapWords]
    rw [this, List.map_id]⟩

/-- Axis names agree after a step if they agreed before. -/
theorem axisMap_step {g1 g2 : Gen K} (hm : g1.cfg.axisMap = g2.cfg.axisMap) (c m : Call K) (h : c.code = some m) :
    (g1.step c).1.cfg.axisMap = (g2.step m).1.cfg.axisMap := by
  by_cases hcf : c.isConfig = true
  · cases c <;> simp only [Call.isConfig, Bool.false_eq_true] at hcf <;>
      simp only [Call.code, Option.some.injEq, reduceCtorEq] at h <;> subst h <;> dsimp only [Gen.step]
    case setUnitProp => unfold Gen.setUnitProp; split <;> exact hm
    case setUnits => unfold Gen.setUnits; split <;> exact hm
    case setPathBlending => unfold Gen.setPathBlending; dsimp only; split <;> exact hm
    case mapAxis => simp only [Gen.mapAxis, hm]
    all_goals exact hm
  · have hcm : m.isConfig = c.isConfig := by
      cases c <;> simp only [Call.code, Option.some.injEq, reduceCtorEq] at h <;> subst h <;> rfl
    rw [step_cfg g1 c (by simpa using hcf), step_cfg g2 m (by rw [hcm]; simpa using hcf)]; exact hm

/-- Running a history and running only its code-relevant part produce the same code. -/
theorem sim_code (cs : List (Call K)) (g1 g2 : Gen K) (h : Sim id g1 g2) (hm : g1.cfg.axisMap = g2.cfg.axisMap) :
    Sim id (g1.run cs) (g2.run (cs.filterMap Call.code)) := by
  induction cs generalizing g1 g2 with
  | nil => exact h
  | cons c cs ih =>
    cases hc : c.code with
    | none =>
      rw [List.filterMap_cons_none hc]
      refine ih _ _ (h.step_none c hc) ?_
      cases c <;> simp only [Call.code, reduceCtorEq] at hc <;> dsimp only [Gen.step]
      · rw [(quiet_comment _ _ _).cfg]; exact hm
      · exact hm
      · exact hm
    | some m =>
      rw [List.filterMap_cons_some hc]
      refine ih _ _ (h.step c m hc (fun _ _ _ _ _ => rfl) (fun _ => ⟨fun _ => rfl, hm⟩)).1 ?_
      exact axisMap_step hm c m hc

theorem Sim.lines_id {g1 g2 : Gen K} (h : Sim id g1 g2) : linesOf g2.out = linesOf g1.out := by
  rw [h.out]
  have : (fun p : Option Nat × Block K => (p.1, p.2.mapWords id)) = id := by
    funext p; simp [Block.mapWords]
  rw [this, List.map_id]

/-- Same generator up to comment settings. -/
def SameButComments (g1 g2 : Gen K) : Prop :=
  g2 = { g1 with cfg := { g1.cfg with showComments := g2.cfg.showComments, headerComments := g2.cfg.headerComments } }

/-- **C10 (code level)**.  Take two generators that differ at most in whether comments are shown and in the header comments,
and two histories that make the same calls apart from comment arguments, `comment()`, `add_header_comment()` and switching
`show_comments`.  Then the numbered command lines written are the same, the controller ends in the same state, and the
reported positions are the same. -/
theorem C10_comments_inert_code (g1 g2 : Gen K) (hg : SameButComments g1 g2) (cs1 cs2 : List (Call K))
    (hcs : cs1.filterMap Call.code = cs2.filterMap Call.code) :
    linesOf (g1.run cs1).out = linesOf (g2.run cs2).out ∧
    (g1.run cs1).machine = (g2.run cs2).machine ∧
    (∀ ax, (g1.run cs1).position ax = (g2.run cs2).position ax) := by
  have hmap : g1.cfg.axisMap = g2.cfg.axisMap := by rw [hg]
  have h12 : Sim id g1 g2 := by
    have := Sim.refl g1
    rw [hg]
    exact ⟨rfl, fun _ _ _ _ => rfl, this.plainNum, this.plainInt, this.plainOpaque, rfl, rfl, rfl, rfl, this.out⟩
  have ha := sim_code cs1 g1 g2 h12 hmap
  have hb := sim_code cs2 g2 g2 (Sim.refl g2) rfl
  rw [hcs] at ha
  have hl : linesOf (g1.run cs1).out = linesOf (g2.run cs2).out := by rw [← ha.lines_id, ← hb.lines_id]
  refine ⟨hl, ?_, ?_⟩
  · unfold Gen.machine; rw [blocksOf_lines, blocksOf_lines, hl]
  · intro ax
    unfold Gen.position
    rw [← ha.last, ← hb.last]

/-- Non-vacuity: two histories with different comments. -/
example : ([.comment (.one "a".toList) true, .feed (some (1:ℚ)) none none none none (some "b".toList)] : List (Call ℚ)).filterMap Call.code
    = ([.feed (some 1) none none none none none, .setShowComments false] : List (Call ℚ)).filterMap Call.code := rfl

/-! ## C18 Axis renaming -/

/-- Substitute axis letters in a word that carries a number. -/
def Word.rename (M : Char → Option Str) (w : Word K) : Word K :=
  match w.val, w.name with
  | .num d v, k :: rest => ⟨(M k).getD [k] ++ rest, .num d v⟩
  | _, _ => w

/-- The axis letters a mapping may rename. -/
def AxisOnly (M : Char → Option Str) : Prop := ∀ k, k ∉ axisLetters → M k = none

theorem sim_map (M : Char → Option Str) (cs : List (Call K)) (g1 g2 : Gen K) (h : Sim (Word.rename M) g1 g2)
    (hc : ∀ c ∈ cs, c.isNormalize = false ∧ c.isMapAxis = false) :
    Sim (Word.rename M) (g1.run cs) (g2.run (cs.filterMap Call.code)) := by
  induction cs generalizing g1 g2 with
  | nil => exact h
  | cons c cs ih =>
    have hcc := hc c (by simp)
    cases hcode : c.code with
    | none =>
      rw [List.filterMap_cons_none hcode]
      exact ih _ _ (h.step_none c hcode) (fun c' h' => hc c' (by simp [h']))
    | some m =>
      rw [List.filterMap_cons_some hcode]
      refine ih _ _ (h.step c m hcode ?_ ?_).1 (fun c' h' => hc c' (by simp [h']))
      · intro hh; rw [hcc.1] at hh; cases hh
      · intro hh; rw [hcc.2] at hh; cases hh

/-- **C18 (partial)**.  Start from any unmapped generator with empty output; install any mapping of axis letters.  For
every history without `normalize_axis_angle` the mapped program is the unmapped program with those letters substituted in
the numeric words (same line numbers, commands, order and values), and every reported position is the same.

Missing: histories that call `normalize_axis_angle` (refuted below) and mappings of non-axis letters. -/
theorem C18_map_axis_partial (g : Gen K) (h0 : g.out = []) (hm : g.cfg.axisMap = fun _ => none) (M : Char → Option Str)
    (hM : AxisOnly M) (cs : List (Call K)) (hc : ∀ c ∈ cs, c.isNormalize = false ∧ c.isMapAxis = false) :
    linesOf (({ g with cfg := { g.cfg with axisMap := M } } : Gen K).run cs).out =
      (linesOf (g.run cs).out).map (fun p => (p.1, p.2.mapWords (Word.rename M))) ∧
    (∀ ax, (({ g with cfg := { g.cfg with axisMap := M } } : Gen K).run cs).position ax = (g.run cs).position ax) := by
  have h12 : Sim (Word.rename M) g { g with cfg := { g.cfg with axisMap := M } } := by
    refine ⟨rfl, ?_, ?_, fun _ => rfl, ?_, rfl, rfl, rfl, rfl, ?_⟩
    · intro k _ d v
      rw [hm]
      simp [Word.rename]
    · intro k hk d v
      have : M k = none := hM k (by revert hk; simp only [List.mem_cons, List.not_mem_nil, or_false]; rintro (rfl | rfl | rfl) <;> decide)
      simp [Word.rename, this]
    · intro p; cases p <;> rfl
    · dsimp only; rw [h0]; rfl
  have ha := sim_map M cs _ _ h12 hc
  have hb := sim_code cs ({ g with cfg := { g.cfg with axisMap := M } } : Gen K) _ (Sim.refl _) rfl
  refine ⟨by rw [← hb.lines_id, ha.out], ?_⟩
  intro ax
  unfold Gen.position
  rw [← ha.last, ← hb.last]

/-- Non-vacuity: mapping A to C turns `A` words into `C` words. -/
example : AxisOnly (fun k => if k = 'A' then some ['C'] else none) ∧
    (blocksOf ((demo.run [.mapAxis 'a' ['c'], .feed (some 1) none none (some 1) (some 9) none]).out)).map (·.words.map (·.name))
      = [[['X'], ['C'], ['F']]] := by
  refine ⟨?_, by decide +kernel⟩
  intro k hk
  dsimp only
  split
  · rename_i h; subst h; revert hk; decide
  · rfl

/-- Rotary axis A renamed to C, turned past a full circle, then normalised. -/
def demoMapped : Gen ℚ := demo.run [.mapAxis 'A' ['C'], .feed none none none (some 7) (some 9) none, .normalizeAxisAngle ['A']]

/-- **C18 refuted**: the `G92` line of `normalize_axis_angle` names the unmapped axis `A`. -/
theorem C18_refuted_normalize :
    (blocksOf demoMapped.out).map (fun b => (b.cmd, b.words.map (·.name))) =
      [("G01".toList, [['C'], ['F']]), ("G92".toList, [['A', '=']])] := by
  decide +kernel

end Verif.GCode
