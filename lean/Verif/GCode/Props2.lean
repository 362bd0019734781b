import Verif.GCode.Props1

/-!
# Properties C03, C04, C05, C06, C07, C08, C09, C11, C12 of the G-code generator
-/

set_option linter.unusedSectionVars false

namespace Verif.GCode
open Verif PyFloat

variable {K : Type} [PyFloat K]

/-! ## Helpers -/

/-- Blocks added by a step. -/
def Adds (g g' : Gen K) (l : List (Block K)) : Prop := blocksOf g'.out = blocksOf g.out ++ l

theorem Adds.machine {g g' : Gen K} {l} (h : Adds g g' l) : g'.machine = g.machine.run l := by
  unfold Adds at h
  unfold Gen.machine
  rw [h, run_append]

theorem Adds.trans {a b c : Gen K} {l m} (h1 : Adds a b l) (h2 : Adds b c m) : Adds a c (l ++ m) := by
  unfold Adds at *
  rw [h2, h1, List.append_assoc]

theorem adds_refl (g : Gen K) : Adds g g [] := by simp [Adds]
theorem adds_writeLine (g : Gen K) (b c) : Adds g (g.writeLine b c) [b] := by simp [Adds]

/-- `gcode_command` with a motion command adds at most one block, namely the command with its words. -/
theorem adds_command (g : Gen K) (cmd : Str) (kw : Kw K) :
    Adds g (g.command cmd kw) [] ∨ ∃ ws, Adds g (g.command cmd kw) [⟨canonicalCmd cmd, ws⟩] := by
  unfold Gen.command
  split
  · exact .inl (adds_refl g)
  · rw [gcodeCore_eq]
    split
    · exact .inr ⟨_, adds_writeLine (g.afterLoop _ _) _ _⟩
    · split
      · exact .inr ⟨_, adds_writeLine (g.afterLoop _ _) _ _⟩
      · exact .inl (by simp [Adds])

theorem adds_dwell (g : Gen K) (ms c) :
    Adds g (g.dwell ms c) (if zero <. ms then [⟨"G04".toList, [⟨['P'], .num 4 (ms /. ofInt 1000)⟩]⟩] else []) := by
  unfold Gen.dwell
  split
  · exact adds_writeLine _ _ _
  · exact adds_refl _

/-- The block a dwell of `ms` milliseconds consists of. -/
def dwellBlocks (ms : K) : List (Block K) :=
  if zero <. ms then [⟨"G04".toList, [⟨['P'], .num 4 (ms /. ofInt 1000)⟩]⟩] else []

theorem adds_wait (g : Gen K) (ms : K) : Adds g (if zero <. ms then g.dwell ms else g) (dwellBlocks ms) := by
  unfold dwellBlocks
  split
  · rename_i h
    have := adds_dwell g ms none
    rwa [if_pos h] at this
  · exact adds_refl _

theorem adds_spindleOff (g : Gen K) (w c) :
    Adds g (g.spindleOff w c) (⟨"M5".toList, []⟩ :: dwellBlocks (w.getD g.cfg.spWaitOff)) := by
  unfold Gen.spindleOff
  exact (adds_writeLine g _ _).trans (adds_wait _ _)

theorem adds_spindleOn (g : Gen K) (s cw w c) :
    Adds g (g.spindleOn s cw w c)
      (⟨if cw.getD g.cfg.spCw then "M3".toList else "M4".toList, [⟨['S'], .int (trunc (s.getD g.cfg.spSpeed))⟩]⟩
        :: dwellBlocks (w.getD g.cfg.spWaitOn)) := by
  unfold Gen.spindleOn
  exact (adds_writeLine g _ _).trans (adds_wait _ _)

theorem spindleOff_cfg (g : Gen K) (a b) : (g.spindleOff a b).cfg = g.cfg :=
  (pres_spindleOff (c := g.cfg) (I := fun _ => True)
    ⟨fun _ _ _ _ => trivial, fun _ _ _ _ _ _ => trivial, fun _ _ _ _ _ _ => trivial⟩ g _ _ rfl).1
theorem spindleOn_cfg (g : Gen K) (a b c d) : (g.spindleOn a b c d).cfg = g.cfg :=
  (pres_spindleOn (c := g.cfg) (I := fun _ => True)
    ⟨fun _ _ _ _ => trivial, fun _ _ _ _ _ _ => trivial, fun _ _ _ _ _ _ => trivial⟩ g _ _ _ _ rfl).1
theorem command_cfg (g : Gen K) (a b) : (g.command a b).cfg = g.cfg :=
  (pres_command (c := g.cfg) (I := fun _ => True)
    ⟨fun _ _ _ _ => trivial, fun _ _ _ _ _ _ => trivial, fun _ _ _ _ _ _ => trivial⟩ g _ _ rfl).1
theorem toolUp_cfg (g : Gen K) (a b c) : (g.toolUp a b c).cfg = g.cfg :=
  (pres_toolUp (c := g.cfg) (I := fun _ => True)
    ⟨fun _ _ _ _ => trivial, fun _ _ _ _ _ _ => trivial, fun _ _ _ _ _ _ => trivial⟩ g _ _ _ rfl).1

/-- The blocks that follow the retract move in `tool_up`. -/
def afterRetract (c : Cfg K) (wait : Option K) : List (Block K) :=
  (if c.spAuto then ⟨"M5".toList, []⟩ :: dwellBlocks c.spWaitOff else []) ++ dwellBlocks (wait.getD c.waitUp)

theorem adds_toolUp (g : Gen K) (r w c) : ∀ l, Adds g (g.toolUpMove r c) l →
    Adds g (g.toolUp r w c) (l ++ afterRetract g.cfg w) := by
  intro l hl
  unfold Gen.toolUp; dsimp only
  have hcfg : (g.toolUpMove r c).cfg = g.cfg := by
    unfold Gen.toolUpMove; split <;> exact command_cfg _ _ _
  generalize g.toolUpMove r c = g1 at hl hcfg ⊢
  have h2 : Adds g1 (if g1.cfg.spAuto then g1.spindleOff else g1)
      (if g1.cfg.spAuto then ⟨"M5".toList, []⟩ :: dwellBlocks g1.cfg.spWaitOff else []) := by
    split
    · exact adds_spindleOff _ _ _
    · exact adds_refl _
  have hc2 : (if g1.cfg.spAuto then g1.spindleOff else g1).cfg = g1.cfg := by
    split
    · exact spindleOff_cfg _ _ _
    · rfl
  generalize (if g1.cfg.spAuto then g1.spindleOff else g1) = g2 at h2 hc2 ⊢
  have h3 := adds_wait g2 (w.getD g2.cfg.waitUp)
  have := (hl.trans h2).trans h3
  rw [hc2, hcfg] at this
  rw [List.append_assoc] at this
  unfold afterRetract
  rw [← hcfg] at this ⊢
  rw [← hc2] at this ⊢
  exact this

/-- The retract move of `tool_up` is one block with the safe height. -/
theorem adds_toolUpMove (g : Gen K) (rapid : Bool) (com : Option Str) (h : g.cfg.altUp = none) :
    Adds g (g.toolUpMove rapid com) [⟨if rapid then "G00".toList else "G01".toList,
      [⟨(g.cfg.axisMap 'Z').getD ['Z'], .num g.cfg.digits (specImage g.cfg 'Z' g.cfg.zsafe)⟩]⟩] := by
  have key : ∀ cmd : Str, cmd = "G00".toList ∨ cmd = "G01".toList →
      Adds g (g.command cmd { args := kwOf [('Z', some g.cfg.zsafe)], force := ['Z'], comment := com })
        [⟨cmd, [⟨(g.cfg.axisMap 'Z').getD ['Z'], .num g.cfg.digits (specImage g.cfg 'Z' g.cfg.zsafe)⟩]⟩] := by
    intro cmd hcmd
    have hcan : canonicalCmd cmd = cmd := by rcases hcmd with rfl | rfl <;> decide
    have he : cmd.isEmpty = false := by rcases hcmd with rfl | rfl <;> rfl
    unfold Gen.command
    simp only [he, hcan, Bool.false_eq_true, if_false]
    generalize hkw : (Kw.mk (kwOf [('Z', some g.cfg.zsafe)]) none ['Z'] com : Kw K) = kw
    have hnv : ∀ base k, g.newVal base kw k = if k = 'Z' then some g.cfg.zsafe else none := by
      intro base k
      subst hkw
      by_cases hk : k = 'Z'
      · subst hk; simp [Gen.newVal, kwOf, Cfg.effVal]
      · have hk' : ¬ 'Z' = k := fun h => hk h.symm
        simp [Gen.newVal, kwOf, hk, hk']
    have hem : g.emitsParams (baseCmd cmd) kw = true := by
      have hf : (posKeys.filter fun k => (g.newVal (baseCmd cmd) kw k).isSome) = ['Z'] := by
        simp only [hnv]; rfl
      simp only [Gen.emitsParams, hf]
      decide
    rw [gcodeCore_eq, if_pos hem]
    have hw : g.cfg.wordsOf (g.posParams (baseCmd cmd) kw)
        = [⟨(g.cfg.axisMap 'Z').getD ['Z'], .num g.cfg.digits (specImage g.cfg 'Z' g.cfg.zsafe)⟩] := by
      have hp : g.posParams (baseCmd cmd) kw
          = fun k => if k = 'Z' then some (g.cfg.outVal 'Z' g.cfg.zsafe) else none := by
        funext k
        simp only [Gen.posParams, hnv]
        by_cases hk : k = 'Z'
        · subst hk
          have : 'Z' ∈ posKeys := by decide
          simp [this]
        · simp [hk]
      rw [hp, specImage_eq _ _ (by decide)]
      rfl
    rw [hw]
    simp [Adds]
  unfold Gen.toolUpMove
  rw [h]
  cases rapid
  · exact key _ (.inr rfl)
  · exact key _ (.inl rfl)

/-! ## C04 tool_up always commands the safe height -/

/-- **C04**.  From *any* generator state, reachable or not, `tool_up` without an alternate command first emits a
rapid (or feed) block whose only word is the Z word for the safe height, followed only by spindle-off and dwell
blocks; afterwards `position('Z')` is the safe height and the generator considers the tool raised. -/
theorem C04_tool_up_commands_safe_height (g : Gen K) (rapid : Bool) (wait : Option K) (com : Option Str)
    (h : g.cfg.altUp = none) :
    ∃ rest, blocksOf (g.toolUp rapid wait com).out = blocksOf g.out ++
        ⟨if rapid then "G00".toList else "G01".toList,
          [⟨(g.cfg.axisMap 'Z').getD ['Z'], .num g.cfg.digits (specImage g.cfg 'Z' g.cfg.zsafe)⟩]⟩ :: rest
      ∧ (∀ b ∈ rest, b.cmd = "M5".toList ∨ b.cmd = "G04".toList)
      ∧ (g.toolUp rapid wait com).position ['Z'] = .ok (some g.cfg.zsafe)
      ∧ (g.toolUp rapid wait com).isToolUp = true := by
  refine ⟨afterRetract g.cfg wait, ?_, ?_, ?_, ?_⟩
  · exact adds_toolUp g rapid wait com _ (adds_toolUpMove g rapid com h)
  · intro b hb
    simp only [afterRetract, dwellBlocks, List.mem_append] at hb
    rcases hb with hb | hb
    · split at hb
      · simp only [List.mem_cons] at hb
        rcases hb with rfl | hb
        · exact .inl rfl
        · split at hb
          · simp at hb; subst hb; exact .inr rfl
          · simp at hb
      · simp at hb
    · split at hb
      · simp at hb; subst hb; exact .inr rfl
      · simp at hb
  · have : upperS ['Z'] = ['Z'] ∧ 'Z' ∈ orderedParams := by decide
    simp only [Gen.position, this.1, this.2, if_true, toolUp_Z _ _ _ _ h, upd_same]
  · rfl

/-- Non-vacuity: a state whose tracked Z already equals the safe height still gets the Z word. -/
example : demo.cfg.altUp = none ∧
    blocksOf ((demo.toolUp).toolUp).out =
      [⟨"G00".toList, [⟨['Z'], .num 6 1⟩]⟩, ⟨"G00".toList, [⟨['Z'], .num 6 1⟩]⟩] := by
  refine ⟨rfl, ?_⟩
  decide +kernel

/-! ## C03 Rapid moves happen at a safe height -/

/-- The block commands X or Y. -/
def movesXY (b : Block K) : Prop := ∃ w ∈ b.words, w.name = ['X'] ∨ w.name = ['Y']

/-- `z` is at or above `zsafe` as the program compares: equal, above, or not below. -/
def AtSafe (zsafe z : K) : Prop := z = zsafe ∨ (zsafe <. z) = true ∨ (z <. zsafe) = false

theorem afterRetract_noXY (c : Cfg K) (w) : ∀ b ∈ afterRetract c w, ¬ movesXY b := by
  intro b hb
  simp only [afterRetract, dwellBlocks, List.mem_append] at hb
  have hP : ∀ sec : K, ¬ movesXY (⟨"G04".toList, [⟨['P'], .num 4 sec⟩]⟩ : Block K) := by
    rintro sec ⟨w, hw, h⟩
    simp at hw; subst hw; simp at h
  rcases hb with hb | hb
  · split at hb
    · simp only [List.mem_cons] at hb
      rcases hb with rfl | hb
      · rintro ⟨w, hw, _⟩; simp at hw
      · split at hb
        · simp at hb; subst hb; exact hP _
        · simp at hb
    · simp at hb
  · split at hb
    · simp at hb; subst hb; exact hP _
    · simp at hb

/-- **C03 (partial)**.  After every history of trackable calls on a fresh generator, in the blocks `rapid_move` emits,
each block that traverses X or Y starts and ends with the machine Z at the image of a height at or above the safe
height.  Missing: alternate tool commands (refuted below). -/
theorem C03_rapid_safe_height_partial (g0 : Gen K) (h0 : Fresh g0) (calls : List (Call K))
    (hc : ∀ c ∈ calls, Trackable c) (x y z a : Option K) (com : Option Str) :
    let g := g0.run calls
    ∃ new, blocksOf (g.rapidMove x y z a com).out = blocksOf g.out ++ new ∧
      ∀ pre b post, new = pre ++ b :: post → movesXY b →
        (∃ z1, (g.machine.run pre).pos 'Z' = some (specImage g.cfg 'Z' z1) ∧ AtSafe g.cfg.zsafe z1) ∧
        (∃ z2, (g.machine.run (pre ++ [b])).pos 'Z' = some (specImage g.cfg 'Z' z2) ∧ AtSafe g.cfg.zsafe z2) := by
  intro g
  have hinv : TrackInv g := trackInv_run calls g0 (trackInv_fresh g0 h0) hc
  -- state just before the traverse
  have hg1 : ∃ g1 l1, g1 = (if g.rapidLifts then g.toolUp else g) ∧ Adds g g1 l1 ∧ (∀ b ∈ l1, ¬ movesXY b) ∧ Keeps g g1 ∧
      ∃ z1, g1.last 'Z' = some z1 ∧ AtSafe g.cfg.zsafe z1 := by
    by_cases hl : g.rapidLifts = true
    · have hmv := adds_toolUpMove g true none hinv.altUp
      rw [hinv.map] at hmv
      refine ⟨_, _, rfl, by rw [if_pos hl]; exact adds_toolUp g true none none _ hmv, ?_, ?_, ?_⟩
      · intro b hb
        simp only [List.mem_append, List.mem_cons, List.not_mem_nil, or_false] at hb
        rcases hb with rfl | hb
        · rintro ⟨w, hw, h⟩
          simp at hw; subst hw; simp at h
        · exact afterRetract_noXY _ _ b hb
      · rw [if_pos hl]; exact keeps_toolUp _ _ _ _ hinv.map hinv.altUp
      · rw [if_pos hl, toolUp_Z _ _ _ _ hinv.altUp]
        exact ⟨_, upd_same _ _ _, .inl rfl⟩
    · refine ⟨_, [], rfl, ?_, by simp, ?_, ?_⟩
      · rw [if_neg hl]; exact adds_refl _
      · rw [if_neg hl]; exact Keeps.refl _
      · rw [if_neg hl]
        simp only [Gen.rapidLifts, Bool.or_eq_true, not_or] at hl
        cases hz : g.last 'Z' with
        | none => rw [hz] at hl; simp at hl
        | some zp =>
          rw [hz] at hl
          exact ⟨zp, rfl, .inr (.inr (by simpa using hl.1))⟩
  obtain ⟨g1, l1, hg1, ha1, hno, hk1, z1, hz1, hs1⟩ := hg1
  have hcfg1 : g1.cfg = g.cfg := hk1.cfg
  have hag1 := hk1.agree hinv.agree
  have hfin : g.rapidMove x y z a com = g1.command "G00".toList
      { args := kwOf [('X', x), ('Y', y), ('Z', some (maxZ g1.cfg.zsafe z)), ('A', a)], comment := com } := by
    unfold Gen.rapidMove; dsimp only; rw [← hg1]
  have hk2 : Keeps g1 (g.rapidMove x y z a com) := by
    rw [hfin]
    exact keeps_command_motion g1 "G00".toList _ (by rw [hcfg1]; exact hinv.map) (by decide)
  have hag2 := hk2.agree hag1
  -- tracked height after the traverse
  have hz2 : ∃ z2, (g.rapidMove x y z a com).last 'Z' = some z2 ∧ AtSafe g.cfg.zsafe z2 := by
    rw [hfin]
    unfold Gen.command
    have he : "G00".toList.isEmpty = false := rfl
    simp only [he, Bool.false_eq_true, if_false]
    generalize hkw : (Kw.mk (kwOf [('X', x), ('Y', y), ('Z', some (maxZ g1.cfg.zsafe z)), ('A', a)]) none
      [] com : Kw K) = kw
    have h1 : (g1.gcodeCore (canonicalCmd "G00".toList) kw).last 'Z'
        = (g1.newVal (baseCmd (canonicalCmd "G00".toList)) kw 'Z').or (g1.last 'Z') := by
      rw [gcodeCore_eq]
      have : 'Z' ∈ posKeys := by decide
      split
      · simp [Gen.afterLoop, this]
      · split <;> simp [Gen.afterLoop, this]
    rw [h1]
    cases hn : g1.newVal (baseCmd (canonicalCmd "G00".toList)) kw 'Z' with
    | none => exact ⟨z1, hz1, hs1⟩
    | some w =>
      refine ⟨w, rfl, ?_⟩
      have hw : w = maxZ g1.cfg.zsafe z := by
        subst hkw
        simp [Gen.newVal, kwOf, Cfg.effVal] at hn
        exact hn.2.symm
      rw [hw, hcfg1]
      unfold maxZ
      cases z with
      | none => exact .inl rfl
      | some z =>
        by_cases h : (g.cfg.zsafe <. z) = true
        · simp only [h, if_true]; exact .inr (.inl h)
        · simp only [h]; exact .inl rfl
  have hZ : 'Z' ∈ trackedAxes := by decide
  have hm1 : g1.machine.pos 'Z' = some (specImage g.cfg 'Z' z1) := by
    rw [hag1 'Z' hZ, hz1, specImage_eq _ _ hZ, hcfg1]; rfl
  have hm2 : ∃ z2, (g.rapidMove x y z a com).machine.pos 'Z' = some (specImage g.cfg 'Z' z2) ∧ AtSafe g.cfg.zsafe z2 := by
    obtain ⟨z2, h1, h2⟩ := hz2
    refine ⟨z2, ?_, h2⟩
    rw [hag2 'Z' hZ, h1, specImage_eq _ _ hZ, hk2.cfg, hcfg1]; rfl
  have hadd2 := adds_command g1 "G00".toList
      { args := kwOf [('X', x), ('Y', y), ('Z', some (maxZ g1.cfg.zsafe z)), ('A', a)], comment := com }
  rw [← hfin] at hadd2
  rcases hadd2 with h2 | ⟨ws, h2⟩
  · refine ⟨l1, by have := ha1.trans h2; rwa [List.append_nil] at this, ?_⟩
    intro pre b post hsplit hb
    exact absurd hb (hno b (by rw [hsplit]; simp))
  · refine ⟨l1 ++ [⟨canonicalCmd "G00".toList, ws⟩], ha1.trans h2, ?_⟩
    intro pre b post hsplit hb
    -- the only traversing block is the last one
    have hpost : post = [] := by
      by_contra hne
      obtain ⟨p', q, rfl⟩ := List.eq_nil_or_concat post |>.resolve_left hne
      have : l1 = pre ++ b :: p' := by
        have h3 : l1 ++ [⟨canonicalCmd "G00".toList, ws⟩] = (pre ++ b :: p') ++ [q] := by
          rw [hsplit]; simp
        exact (List.append_inj' h3 rfl).1
      exact hno b (by rw [this]; simp) hb
    subst hpost
    have hpre : l1 = pre := by
      have h3 : l1 ++ [⟨canonicalCmd "G00".toList, ws⟩] = pre ++ [b] := by rw [hsplit]
      exact (List.append_inj' h3 rfl).1
    subst hpre
    constructor
    · exact ⟨z1, by rw [← ha1.machine]; exact hm1, hs1⟩
    · obtain ⟨z2, h4, h5⟩ := hm2
      refine ⟨z2, ?_, h5⟩
      rw [← hsplit, ← (ha1.trans h2).machine]; exact h4

/-- In exact arithmetic "at the safe height as the program compares" is `zsafe ≤ z`. -/
theorem AtSafe.le [Field K] [LinearOrder K] [IsStrictOrderedRing K] [ExactFloat K] {zsafe z : K}
    (h : AtSafe zsafe z) : zsafe ≤ z := by
  rcases h with h | h | h
  · exact h.ge
  · rw [ExactFloat.lt_eq] at h; simp at h; exact h.le
  · rw [ExactFloat.lt_eq] at h; simpa using h

/-- Non-vacuity: `rapid_move` after a cut emits a retract and then a traverse. -/
example : Fresh demo ∧ (∀ c ∈ demoCalls.take 4, Trackable c) ∧
    blocksOf ((demo.run (demoCalls.take 4)).rapidMove (some 0) (some 0) none none none).out =
      blocksOf (demo.run (demoCalls.take 4)).out ++
        [⟨"G00".toList, [⟨['Z'], .num 6 1⟩]⟩, ⟨"G00".toList, [⟨['X'], .num 6 0⟩, ⟨['Y'], .num 6 0⟩]⟩] := by
  refine ⟨demo_fresh, ?_, ?_⟩
  · intro c hc
    simp only [demoCalls, List.take, List.mem_cons, List.not_mem_nil, or_false] at hc
    rcases hc with rfl | rfl | rfl | rfl <;> trivial
  · decide +kernel

/-- A machine whose tool is raised by an alternate command (`M9`) and has been fed to Z = -1. -/
def demoAltUp : Gen ℚ := demo.run [.setAlt none (some "M9".toList), .rapidMove (some 0) (some 0) none none none,
  .feed none none (some (-1)) none none none]

/-- **C03 refuted with `alt_tool_up`**: `rapid_move(x=5, y=5)` emits the alternate command and then one block that
traverses X and Y while Z rises from -1: the traverse starts below the safe height 1. -/
theorem C03_refuted_alt_tool_up :
    blocksOf (demoAltUp.rapidMove (some 5) (some 5) none none none).out = blocksOf demoAltUp.out ++
      [⟨"M09".toList, []⟩, ⟨"G00".toList, [⟨['X'], .num 6 5⟩, ⟨['Y'], .num 6 5⟩, ⟨['Z'], .num 6 1⟩]⟩]
    ∧ demoAltUp.machine.pos 'Z' = some (-1) ∧ demoAltUp.cfg.zsafe = 1 := by
  refine ⟨?_, ?_, ?_⟩ <;> decide +kernel

/-- A machine whose tool is lowered by `M7` and raised by `M9`, with the tool lowered at the safe Z. -/
def demoAltDown : Gen ℚ := demo.run [.setAlt (some "M7".toList) (some "M9".toList),
  .rapidMove (some 0) (some 0) none none none, .toolDown (-1) none none none]

/-- **C03 refuted with `alt_tool_down`**: the next `rapid_move` does not raise the tool (no `M9` is emitted): it traverses with
the tool down. -/
theorem C03_refuted_alt_tool_down :
    blocksOf (demoAltDown.rapidMove (some 5) (some 5) none none none).out = blocksOf demoAltDown.out ++
      [⟨"G00".toList, [⟨['X'], .num 6 5⟩, ⟨['Y'], .num 6 5⟩]⟩]
    ∧ (blocksOf demoAltDown.out).getLast? = some ⟨"M07".toList, []⟩ := by
  refine ⟨?_, ?_⟩ <;> decide +kernel

/-! ## C07 Canonical word order -/

/-- The letter of a readable word. -/
def Word.letter (w : Word K) : Option Char :=
  match w.name, w.val with
  | [c], .num _ _ => some c
  | [c], .int _ => some c
  | _, _ => none

theorem wordsOf_letters (c : Cfg K) (hm : c.axisMap = fun _ => none) (pp : Char → Option K) :
    (c.wordsOf pp).filterMap Word.letter = orderedParams.filter fun k => (pp k).isSome := by
  rw [wordsOf_plain c hm, List.filterMap_filterMap]
  induction orderedParams with
  | nil => rfl
  | cons k l ih =>
    cases h : pp k with
    | none => rw [List.filterMap_cons_none (by simp [h]), List.filter_cons_of_neg (by simp [h]), ih]
    | some v =>
      rw [List.filterMap_cons_some (b := k) (by simp [h, Word.letter]), List.filter_cons_of_pos (by simp [h]), ih]

/-- Calls other than `map_axis`. -/
def NoMap : Call K → Prop
  | .mapAxis .. => False
  | _ => True

theorem config_map (g : Gen K) (call : Call K) (hc : call.isConfig = true) (hn : NoMap call) :
    (g.step call).1.cfg.axisMap = g.cfg.axisMap ∧ (g.step call).1.out = g.out := by
  cases call <;> simp only [Call.isConfig, Bool.false_eq_true] at hc <;> dsimp only [Gen.step]
  all_goals try exact ⟨rfl, rfl⟩
  · unfold Gen.setUnitProp; split <;> exact ⟨rfl, rfl⟩
  · unfold Gen.setUnits; split <;> exact ⟨rfl, rfl⟩
  · unfold Gen.setPathBlending; dsimp only; split <;> exact ⟨rfl, rfl⟩
  · exact hn.elim

/-- Invariants of the set of written blocks lift to all histories. -/
theorem blocks_invariant (P : Block K → Prop) (Q : Cfg K → Prop) (ok : Call K → Prop)
    (hQ : ∀ (g : Gen K) c, Q g.cfg → c.isConfig = true → ok c → Q (g.step c).1.cfg)
    (hP : ∀ c b, Q c → Written c b → P b)
    (calls : List (Call K)) (hok : ∀ c ∈ calls, ok c) (g : Gen K) (hg : Q g.cfg) (h0 : ∀ b ∈ blocksOf g.out, P b) :
    ∀ b ∈ blocksOf (g.run calls).out, P b := by
  induction calls generalizing g with
  | nil => exact h0
  | cons c cs ih =>
    have hokc := hok c (by simp)
    refine ih (fun c' h' => hok c' (by simp [h'])) (g.step c).1 ?_ ?_
    · by_cases hcf : c.isConfig = true
      · exact hQ g c hg hcf hokc
      · rw [step_cfg g c (by simpa using hcf)]; exact hg
    · by_cases hcf : c.isConfig = true
      · obtain ⟨c', hc'⟩ := config_step g c hcf
        rw [hc']; exact h0
      · have hst : Stable g.cfg (fun g' : Gen K => ∀ b ∈ blocksOf g'.out, P b) := by
          refine ⟨?_, ?_, ?_⟩
          · intro g' s _ h b hb; rw [writeRaw_blocks] at hb; exact h b hb
          · intro g' b' com hcfg hw h b hb
            rw [writeLine_blocks, List.mem_append] at hb
            rcases hb with hb | hb
            · exact h b hb
            · simp at hb; subst hb; exact hP _ _ hg hw
          · intro g' l up r _ h b hb; exact h b hb
        exact (pres_step hst g c rfl (by simpa using hcf)).2 h0

/-- **C07**.  In every history without axis renaming, each block written lists its parameter letters in the order
`XYZUVWABCIJKRDHLPQSF`, hence without repetition. -/
theorem C07_word_order (g0 : Gen K) (h0 : g0.out = []) (hm : g0.cfg.axisMap = fun _ => none) (calls : List (Call K))
    (hc : ∀ c ∈ calls, NoMap c) (b : Block K) (hb : b ∈ blocksOf (g0.run calls).out) :
    (b.words.filterMap Word.letter).Sublist "XYZUVWABCIJKRDHLPQSF".toList ∧ (b.words.filterMap Word.letter).Nodup := by
  have key : ∀ b ∈ blocksOf (g0.run calls).out, (b.words.filterMap Word.letter).Sublist orderedParams := by
    refine blocks_invariant _ (fun c => c.axisMap = fun _ => none) NoMap ?_ ?_ calls hc g0 hm ?_
    · intro g c hg hcf hn
      rw [(config_map g c hcf hn).1]; exact hg
    · intro c b hq hw
      cases hw with
      | params cmd hcmd pp h => rw [wordsOf_letters c hq]; exact List.filter_sublist
      | bare => exact List.nil_sublist _
      | opaq cmd hcmd p =>
        have : ([⟨p, .none⟩] : List (Word K)).filterMap Word.letter = [] := by
          rcases p with _ | ⟨a, _ | ⟨b, p⟩⟩ <;> rfl
        rw [this]; exact List.nil_sublist _
      | dwell sec => exact (by decide : List.Sublist ['P'] orderedParams)
      | spindle cw n => exact (by decide : List.Sublist ['S'] orderedParams)
      | blendP p => exact (by decide : List.Sublist ['P'] orderedParams)
      | blendPQ p q => exact (by decide : List.Sublist ['P', 'Q'] orderedParams)
      | feed f => exact (by decide : List.Sublist ['F'] orderedParams)
      | normalize k v h => exact List.nil_sublist _
    · simp [h0, blocksOf]
  have := key b hb
  exact ⟨this, this.nodup orderedParams_nodup⟩

/-- Non-vacuity: an arc with a rotary word lists `X Y Z A I J F`. -/
example : demo.out = [] ∧ demo.cfg.axisMap = (fun _ => none) ∧
    (blocksOf (demo.run [.rapidMove (some 0) (some 0) none none none,
        .feedArc true 2 2 1 1 (some 1) (some (-1)) none none]).out).getLast?.map
          (fun b => b.words.filterMap Word.letter) = some "XYZAIJF".toList := by
  refine ⟨rfl, rfl, ?_⟩
  decide +kernel

/-! ## C08 Line numbers -/

/-- The numbers of the numbered-line items of an output stream, in order (`none` = a line without number). -/
def lineNums (out : List (Out K)) : List (Option Nat) :=
  out.filterMap fun o => match o with
    | .raw _ => none
    | .line n _ _ => some n

/-- Calls other than switching line numbering. -/
def KeepNumbering : Call K → Prop
  | .setShowLineNumbers .. => False
  | _ => True

/-- **C08**.  With numbering on from the start, after any history the command lines written are numbered exactly
`0, 1, 2, …, n-1` in order (`raw` items — blank lines, percent lines, comments — carry no number). -/
theorem C08_line_numbers (g0 : Gen K) (h0 : g0.out = []) (hn : g0.lineNumber = 0) (hs : g0.cfg.showLineNumbers = true)
    (calls : List (Call K)) (hc : ∀ c ∈ calls, KeepNumbering c) :
    lineNums (g0.run calls).out = (List.range (g0.run calls).lineNumber).map some
      ∧ (g0.run calls).lineNumber = (blocksOf (g0.run calls).out).length := by
  have key : ∀ (calls : List (Call K)) (g : Gen K), g.cfg.showLineNumbers = true → (∀ c ∈ calls, KeepNumbering c) →
      (lineNums g.out = (List.range g.lineNumber).map some ∧ g.lineNumber = (blocksOf g.out).length) →
      (lineNums (g.run calls).out = (List.range (g.run calls).lineNumber).map some
        ∧ (g.run calls).lineNumber = (blocksOf (g.run calls).out).length) := by
    intro calls
    induction calls with
    | nil => intro g _ _ h; exact h
    | cons c cs ih =>
      intro g hg hok h
      have hokc := hok c (by simp)
      refine ih (g.step c).1 ?_ (fun c' h' => hok c' (by simp [h'])) ?_
      · by_cases hcf : c.isConfig = true
        · cases c <;> simp only [Call.isConfig, Bool.false_eq_true] at hcf <;> dsimp only [Gen.step]
          all_goals try exact hg
          · unfold Gen.setUnitProp; split <;> exact hg
          · unfold Gen.setUnits; split <;> exact hg
          · unfold Gen.setPathBlending; dsimp only; split <;> exact hg
          · exact hokc.elim
        · rw [step_cfg g c (by simpa using hcf)]; exact hg
      · by_cases hcf : c.isConfig = true
        · obtain ⟨c', hc'⟩ := config_step g c hcf
          rw [hc']; exact h
        · have hst : Stable g.cfg (fun g' : Gen K => lineNums g'.out = (List.range g'.lineNumber).map some
              ∧ g'.lineNumber = (blocksOf g'.out).length) := by
            refine ⟨?_, ?_, ?_⟩
            · intro g' s _ h
              refine ⟨?_, by rw [writeRaw_blocks]; exact h.2⟩
              simp only [Gen.writeRaw, lineNums, List.filterMap_append]
              simpa [lineNums] using h.1
            · intro g' b com hcfg hw h
              have hs' : g'.cfg.showLineNumbers = true := by rw [hcfg]; exact hg
              refine ⟨?_, ?_⟩
              · simp only [Gen.writeLine, hs', if_true, lineNums, List.filterMap_append, List.range_succ,
                  List.map_append]
                have := h.1
                simp only [lineNums] at this
                rw [this]; rfl
              · rw [writeLine_blocks]
                simp only [Gen.writeLine, hs', if_true, List.length_append, List.length_singleton]
                rw [h.2]
            · intro g' l up r _ h; exact h
          exact (pres_step hst g c rfl (by simpa using hcf)).2 h
  exact key calls g0 hs hc ⟨by simp [h0, hn, lineNums], by simp [h0, hn, blocksOf]⟩

/-- Non-vacuity: a numbered history of four lines. -/
example : let g : Gen ℚ := { demo with cfg.showLineNumbers := true }
    (∀ c ∈ demoCalls.take 2, KeepNumbering c) ∧
    lineNums (g.run (demoCalls.take 2)).out = [some 0, some 1, some 2] := by
  refine ⟨?_, ?_⟩
  · intro c hc
    simp only [demoCalls, List.take, List.mem_cons, List.not_mem_nil, or_false] at hc
    rcases hc with rfl | rfl <;> trivial
  · decide +kernel

/-! ## C09 Opaque motion is refused -/

/-- A spelling of a motion command: `G0`…`G3` or `G00`…`G03` in either case. -/
def motionSpellings : List Str :=
  ["G0", "G1", "G2", "G3", "g0", "g1", "g2", "g3", "G00", "G01", "G02", "G03", "g00", "g01", "g02", "g03"].map
    String.toList

/-- **C09**.  From any state, a motion command in any spelling with a non-empty opaque parameter string raises
`GCodeException` and leaves the whole generator state (output, tracked values, flags) unchanged; and these
spellings are exactly the ones the generator treats as motion. -/
theorem C09_opaque_motion_refused (g : Gen K) (cmd : Str) (kw : Kw K) (p : Str) (hp : kw.params = some p) (hne : p ≠ []) :
    (cmd ∈ motionSpellings → g.gcodeCommand cmd kw = (g, some .gcode)) ∧
    (cmd ∉ motionSpellings → (g.gcodeCommand cmd kw).2 = none) := by
  have hpar : kw.hasParams = true := by
    unfold Kw.hasParams; rw [hp]; simpa using hne
  constructor
  · intro hm
    have : canonicalCmd cmd ∈ motionGroup ∧ cmd.isEmpty = false := by
      simp only [motionSpellings, List.map_cons, List.map_nil, List.mem_cons, List.not_mem_nil, or_false] at hm
      rcases hm with rfl | rfl | rfl | rfl | rfl | rfl | rfl | rfl | rfl | rfl | rfl | rfl | rfl | rfl | rfl | rfl <;>
        decide
    unfold Gen.gcodeCommand
    simp [this.1, this.2, hpar]
  · intro hm
    have : canonicalCmd cmd ∉ motionGroup := by
      intro hmem
      apply hm
      -- invert the canonicalisation
      have up : ∀ c d : Char, upperC c = d → (d = 'G' ∨ d = '0' ∨ d = '1' ∨ d = '2' ∨ d = '3') →
          (c = d ∨ (c = 'g' ∧ d = 'G')) := by
        intro c d hcd hd
        unfold upperC at hcd
        split at hcd
        · rename_i hr
          have h1 : 97 ≤ c.toNat := by have := hr.1; exact UInt32.le_iff_toNat_le.mp this
          have h2 : c.toNat ≤ 122 := by have := hr.2; exact UInt32.le_iff_toNat_le.mp this
          have hv : (c.toNat - 32).isValidChar := by left; omega
          have h3 : d.toNat = c.toNat - 32 := by
            rw [← hcd, Char.ofNat, dif_pos hv]
            show (Char.ofNatAux _ hv).val.toNat = _
            simp [Char.ofNatAux]
          rcases hd with rfl | rfl | rfl | rfl | rfl
          · right
            refine ⟨?_, rfl⟩
            have : c.toNat = 103 := by
              have : ('G' : Char).toNat = 71 := rfl
              omega
            have h4 := Char.ofNat_toNat c
            rw [this] at h4
            exact h4.symm
          all_goals
            exfalso
            simp only [Char.reduceToNat] at h3
            omega
        · exact .inl hcd
      have toG : ∀ c : Char, upperC c = 'G' → c = 'G' ∨ c = 'g' := fun c h => by
        rcases up c _ h (.inl rfl) with h | h
        · exact .inl h
        · exact .inr h.1
      have toD : ∀ c d : Char, upperC c = d → (d = '0' ∨ d = '1' ∨ d = '2' ∨ d = '3') → c = d := fun c d h hd => by
        rcases up c d h (.inr hd) with h | h
        · exact h
        · exfalso; rw [h.2] at hd; revert hd; decide
      unfold canonicalCmd at hmem
      rcases cmd with _ | ⟨a, _ | ⟨b, _ | ⟨c, _ | ⟨d, l⟩⟩⟩⟩
      · simp [upperS, motionGroup] at hmem
      · simp [upperS, motionGroup] at hmem
      · simp only [upperS, List.map_cons, List.map_nil] at hmem
        split at hmem
        · simp [motionGroup] at hmem
          rcases hmem with ⟨h1, h2⟩ | ⟨h1, h2⟩ | ⟨h1, h2⟩ | ⟨h1, h2⟩ <;>
            (have h2' := toD b _ h2 (by decide); subst h2'
             rcases toG a h1 with rfl | rfl <;> decide)
        · simp [motionGroup] at hmem
      · simp [upperS, motionGroup] at hmem
        rcases hmem with ⟨h1, h2, h3⟩ | ⟨h1, h2, h3⟩ | ⟨h1, h2, h3⟩ | ⟨h1, h2, h3⟩ <;>
          (have h2' := toD b _ h2 (by decide); have h3' := toD c _ h3 (by decide); subst h2'; subst h3'
           rcases toG a h1 with rfl | rfl <;> decide)
      · simp [upperS, motionGroup] at hmem
    unfold Gen.gcodeCommand
    split
    · rfl
    · simp [this]

end Verif.GCode
