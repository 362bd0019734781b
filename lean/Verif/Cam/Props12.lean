import Verif.Cam.Calls
import Verif.Svg.Props9

/-!
# C101, C102, C109: whole programs written by `Tcnc`
-/

set_option linter.unusedSectionVars false

namespace Verif.Cam
open Verif PyFloat PyTrig Geom GCode

variable {K : Type} [PyTrig K]

/-! ## The lines of the calls -/

/-- Commands that switch the spindle on. -/
def startsSpindle (b : Block K) : Prop := b.cmd ∈ ["M3".toList, "M03".toList, "M4".toList, "M04".toList]

/-- A harmless block: not a rapid traverse in X or Y, and not a spindle start. -/
def Harmless (b : Block K) : Prop := ¬ (b.cmd = "G00".toList ∧ movesXY b) ∧ ¬ startsSpindle b

theorem harmless_cmd (b : Block K) (h : b.cmd ≠ "G00".toList) (h' : b.cmd ∉ ["M3".toList, "M03".toList, "M4".toList, "M04".toList]) :
    Harmless b := ⟨fun hh => h hh.1, h'⟩

theorem harmless_of_cmd {cmd : Str} (ws : List (Word K)) (h : cmd ∈ ["G01".toList, "G02".toList, "G03".toList, "G04".toList, "G17".toList, "G20".toList,
    "G21".toList, "G90".toList, "G40".toList, "G49".toList, "G61".toList, "G64".toList, "M2".toList, "M5".toList, "G92.1".toList, []]) :
    Harmless (⟨cmd, ws⟩ : Block K) := by
  simp only [List.mem_cons, List.not_mem_nil, or_false] at h
  rcases h with rfl | rfl | rfl | rfl | rfl | rfl | rfl | rfl | rfl | rfl | rfl | rfl | rfl | rfl | rfl | rfl <;>
    exact harmless_cmd _ (by dsimp only; decide) (by dsimp only; decide)

theorem harmless_dwell (ms : K) : ∀ b ∈ dwellBlocks ms, Harmless b := by
  intro b hb
  unfold dwellBlocks at hb
  split at hb
  · simp only [List.mem_singleton] at hb; subst hb; exact harmless_of_cmd _ (by simp)
  · simp at hb

theorem harmless_afterRetract (c : Cfg K) (w : Option K) : ∀ b ∈ afterRetract c w, Harmless b := by
  intro b hb
  simp only [afterRetract, List.mem_append] at hb
  rcases hb with hb | hb
  · split at hb
    · simp only [List.mem_cons] at hb
      rcases hb with rfl | hb
      · exact harmless_of_cmd _ (by simp)
      · exact harmless_dwell _ b hb
    · simp at hb
  · exact harmless_dwell _ b hb

/-- The lines of one call: only `rapid_move` traverses X or Y at rapid speed, and only with automatic spindle is it started. -/
theorem cam_adds (g : Gen K) (c : Call K) (hc : CamCall c) (hm : g.cfg.axisMap = fun _ => none) (hu : g.cfg.altUp = none)
    (hd : g.cfg.altDown = none) :
    ∃ l, Adds g (g.step c).1 l ∧ ((∀ b ∈ l, ¬ (b.cmd = "G00".toList ∧ movesXY b)) ∨ ∃ x y z a com, c = .rapidMove x y z a com) ∧
      (g.cfg.spAuto = false → ∀ b ∈ l, ¬ startsSpindle b) := by
  have all : ∀ {g' : Gen K} {l}, Adds g g' l → (∀ b ∈ l, Harmless b) →
      ∃ l, Adds g g' l ∧ ((∀ b ∈ l, ¬ (b.cmd = "G00".toList ∧ movesXY b)) ∨ ∃ x y z a com, c = .rapidMove x y z a com) ∧
      (g.cfg.spAuto = false → ∀ b ∈ l, ¬ startsSpindle b) := by
    intro g' l h1 h2
    exact ⟨l, h1, .inl fun b hb => (h2 b hb).1, fun _ b hb => (h2 b hb).2⟩
  have hup : ∀ (g : Gen K) (r : Bool) (w : Option K) (com : Option Str), g.cfg.axisMap = (fun _ => none) → g.cfg.altUp = none →
      ∃ l, Adds g (g.toolUp r w com) l ∧ ∀ b ∈ l, Harmless b := by
    intro g r w com hm hu
    refine ⟨_, adds_toolUp g r w com _ (adds_toolUpMove g r com hu), ?_⟩
    intro b hb
    rcases List.mem_append.1 hb with hb | hb
    · simp only [List.mem_singleton] at hb
      subst hb
      rw [hm]
      cases r
      · exact harmless_of_cmd _ (by simp)
      · refine ⟨?_, by unfold startsSpindle; dsimp only; decide⟩
        rintro ⟨-, w, hw, hn⟩
        simp only [Option.getD_none, List.mem_singleton] at hw
        subst hw
        revert hn; dsimp only; decide
    · exact harmless_afterRetract _ _ b hb
  have hcmd : ∀ (g : Gen K) (cmd : Str) (kw : Kw K), canonicalCmd cmd ∈ ["G01".toList, "G02".toList, "G03".toList] →
      ∃ l, Adds g (g.command cmd kw) l ∧ ∀ b ∈ l, Harmless b := by
    intro g cmd kw h
    rcases adds_command g cmd kw with h1 | ⟨ws, h1⟩
    · exact ⟨_, h1, by simp⟩
    · refine ⟨_, h1, ?_⟩
      intro b hb
      simp only [List.mem_singleton] at hb
      subst hb
      refine harmless_of_cmd _ ?_
      simp only [List.mem_cons, List.not_mem_nil, or_false] at h
      rcases h with h | h | h <;> rw [h] <;> simp
  cases c <;> (try exact hc.elim) <;> dsimp only [Gen.step]
  case rapidMove x y z a com =>
    unfold Gen.rapidMove
    dsimp only
    have h1 : ∃ l, Adds g (if g.rapidLifts then g.toolUp else g) l ∧ ∀ b ∈ l, Harmless b := by
      split
      · exact hup g _ _ _ hm hu
      · exact ⟨[], adds_refl _, by simp⟩
    obtain ⟨l1, ha, hh⟩ := h1
    generalize (if g.rapidLifts then g.toolUp else g) = g1 at ha ⊢
    rcases adds_command g1 "G00".toList { args := kwOf [('X', x), ('Y', y), ('Z', some (maxZ g1.cfg.zsafe z)), ('A', a)], comment := com }
      with h2 | ⟨ws, h2⟩
    · refine ⟨_, ha.trans h2, .inr ⟨x, y, z, a, com, rfl⟩, ?_⟩
      intro _ b hb
      rw [List.append_nil] at hb
      exact (hh b hb).2
    · refine ⟨_, ha.trans h2, .inr ⟨x, y, z, a, com, rfl⟩, ?_⟩
      intro _ b hb
      rcases List.mem_append.1 hb with hb | hb
      · exact (hh b hb).2
      · simp only [List.mem_singleton] at hb
        subst hb
        show canonicalCmd "G00".toList ∉ _
        decide
  case feed x y z a f com =>
    unfold Gen.feed
    split
    · exact all (adds_refl g) (by simp)
    · obtain ⟨l, h1, h2⟩ := hcmd g "G01".toList _ (by decide)
      exact all h1 h2
  case feedArc cw x y i j a z f com =>
    unfold Gen.feedArc
    split
    · dsimp only
      split
      · exact all (adds_refl g) (by simp)
      · obtain ⟨l, h1, h2⟩ := hcmd g (if cw then "G02".toList else "G03".toList) _ (by cases cw <;> decide)
        exact all h1 h2
    · exact all (adds_refl g) (by simp)
  case toolUp r w com =>
    obtain ⟨l, h1, h2⟩ := hup g r w com hm hu
    exact all h1 h2
  case toolDown z f w com =>
    unfold Gen.toolDown
    dsimp only
    have h1 : ∃ l, Adds g (if g.cfg.spAuto then g.spindleOn else g) l ∧ (∀ b ∈ l, b.cmd ≠ "G00".toList) ∧
        (g.cfg.spAuto = false → ∀ b ∈ l, ¬ startsSpindle b) := by
      split
      · rename_i hs
        refine ⟨_, adds_spindleOn g _ _ _ _, ?_, by intro h; rw [h] at hs; cases hs⟩
        intro b hb
        simp only [List.mem_cons] at hb
        rcases hb with rfl | hb
        · dsimp only; split <;> decide
        · unfold dwellBlocks at hb
          split at hb
          · simp only [List.mem_singleton] at hb; subst hb; dsimp only; decide
          · simp at hb
      · exact ⟨[], adds_refl _, by simp, by simp⟩
    have hc1 : (if g.cfg.spAuto then g.spindleOn else g).cfg = g.cfg := by
      split
      · exact spindleOn_cfg _ _ _ _ _
      · rfl
    obtain ⟨l1, ha, hh, hsp⟩ := h1
    generalize (if g.cfg.spAuto then g.spindleOn else g) = g1 at ha hc1 ⊢
    have hmv : g1.toolDownMove z (f.getD g.cfg.zfeed) com = g1.command "G01".toList
        { args := kwOf [('Z', some z), ('F', some (f.getD g.cfg.zfeed))], comment := com } := by
      unfold Gen.toolDownMove; rw [hc1, hd]
    rw [hmv]
    obtain ⟨l2, h2, hh2⟩ := hcmd g1 "G01".toList { args := kwOf [('Z', some z), ('F', some (f.getD g.cfg.zfeed))], comment := com } (by decide)
    generalize g1.command "G01".toList { args := kwOf [('Z', some z), ('F', some (f.getD g.cfg.zfeed))], comment := com } = g2 at h2 ⊢
    have h3 := adds_wait ({ g2 with isToolUp := false } : Gen K) (w.getD g.cfg.waitDown)
    refine ⟨_, (ha.trans (b := g1) (c := { g2 with isToolUp := false }) h2).trans h3, .inl ?_, ?_⟩
    · intro b hb
      rcases List.mem_append.1 hb with hb | hb
      · rcases List.mem_append.1 hb with hb | hb
        · exact fun h => hh b hb h.1
        · exact (hh2 b hb).1
      · exact (harmless_dwell _ b hb).1
    · intro hs b hb
      rcases List.mem_append.1 hb with hb | hb
      · rcases List.mem_append.1 hb with hb | hb
        · exact hsp hs b hb
        · exact (hh2 b hb).2
      · exact (harmless_dwell _ b hb).2
  case comment cc s => exact all (l := []) (by unfold Adds; rw [(quiet_comment g cc s).blocks]; simp) (by simp)
  case header t com =>
    refine all ((C20_header_lines g t com).trans (List.append_assoc _ _ _ |>.trans (List.append_assoc _ _ _))) ?_
    intro b hb
    simp only [List.mem_append, List.mem_cons, List.not_mem_nil, or_false] at hb
    rcases hb with (rfl | rfl | rfl | rfl | rfl) | hb | hb
    · exact harmless_of_cmd _ (by simp)
    · split <;> exact harmless_of_cmd _ (by simp)
    · exact harmless_of_cmd _ (by simp)
    · exact harmless_of_cmd _ (by simp)
    · exact harmless_of_cmd _ (by simp)
    · unfold blendBlocks at hb
      repeat' split at hb
      all_goals simp only [List.mem_singleton, List.not_mem_nil, List.mem_cons, or_false] at hb
      all_goals subst hb; exact harmless_of_cmd _ (by simp)
    · split at hb
      · simp only [List.mem_singleton] at hb; subst hb; exact harmless_of_cmd _ (by simp)
      · simp at hb
  case footer =>
    refine all ((C20_footer g).1.trans (List.append_assoc _ _ _)) ?_
    intro b hb
    simp only [List.mem_append] at hb
    rcases hb with hb | hb
    · split at hb
      · simp only [List.mem_singleton] at hb; subst hb; exact harmless_of_cmd _ (by simp)
      · simp at hb
    · simp only [List.mem_singleton] at hb; subst hb; exact harmless_of_cmd _ (by simp)
  case addHeaderComment t => exact all (l := []) (by simp [Adds, Gen.addHeaderComment]) (by simp)

/-! ## The generator made from the settings -/

theorem foldl_headers (l : List CommentArg) (g : Gen K) :
    l.foldl Gen.addHeaderComment g = { g with cfg.headerComments := g.cfg.headerComments ++ l } := by
  induction l generalizing g with
  | nil => simp
  | cons a l ih => rw [List.foldl_cons, ih]; simp [Gen.addHeaderComment]

/-- What a successful `_init_gcode` has done. -/
theorem initGcode_spec {env : TEnv K} {doc : DocInfo K} {o : TOpts K} {g : Gen K} (h : initGcode env doc o = .ok g) :
    ∃ af u k n, angularFeed o = .ok af ∧ gcodeUnit o.gcodeUnits doc.docUnits = .ok u ∧
      Svg.uu2unit env.num doc.conv doc.viewScale (.text "1.0".toList) u = .ok k ∧ (u = "in".toList ∨ u = "mm".toList) ∧
      outputDigits env o.tolerance = .ok n ∧
      g = finishGen o n { (newGen env o af) with cfg.gcUnit := u, cfg.unitScale := k } := by
  unfold initGcode at h
  cases h1 : angularFeed o with
  | error er => rw [h1] at h; cases h
  | ok af =>
    cases h2 : gcodeUnit o.gcodeUnits doc.docUnits with
    | error er => rw [h1, h2] at h; cases h
    | ok u =>
      cases h3 : Svg.uu2unit env.num doc.conv doc.viewScale (.text "1.0".toList) u with
      | error er => rw [h1, h2] at h; simp only [bind, Except.bind, h3] at h; cases h
      | ok k =>
        rw [h1, h2] at h
        simp only [bind, Except.bind, h3] at h
        by_cases hu : u ∈ ["in".toList, "mm".toList]
        · simp only [Gen.setUnits, if_pos hu] at h
          cases h4 : outputDigits env o.tolerance with
          | error er => rw [h4] at h; cases h
          | ok n =>
            rw [h4] at h
            refine ⟨af, u, k, n, rfl, rfl, h3, by simpa using hu, rfl, ?_⟩
            injection h with h
            exact h.symm
        · simp only [Gen.setUnits, if_neg hu] at h
          cases h

/-- The fields of the generator that the settings determine. -/
theorem finishGen_fields (o : TOpts K) (n : Int) (g : Gen K) :
    (finishGen o n g).cfg.zsafe = g.cfg.zsafe ∧ (finishGen o n g).cfg.spAuto = decide (o.spindleMode = "path".toList) ∧
    (finishGen o n g).cfg.unitScale = g.cfg.unitScale ∧ (finishGen o n g).cfg.gcUnit = g.cfg.gcUnit ∧
    (finishGen o n g).cfg.tol = o.tolerance ∧ (finishGen o n g).cfg.waitDown = o.toolWait ∧ (finishGen o n g).cfg.waitUp = o.toolWait ∧
    (finishGen o n g).cfg.spWaitOn = o.spindleWaitOn *. ofInt 1000 ∧ (finishGen o n g).cfg.digits = (max (min n 15) 2).toNat ∧
    (finishGen o n g).cfg.xyfeed = g.cfg.xyfeed ∧ (finishGen o n g).cfg.zfeed = g.cfg.zfeed ∧ (finishGen o n g).cfg.afeed = g.cfg.afeed ∧
    (finishGen o n g).cfg.spSpeed = o.spindleSpeed ∧ (finishGen o n g).cfg.spCw = o.spindleCw ∧
    (finishGen o n g).cfg.axisScale = g.cfg.axisScale ∧ (finishGen o n g).cfg.axisOffset = g.cfg.axisOffset := by
  unfold finishGen
  dsimp only [Gen.setTolerance, Gen.setOutputPrecision]
  split
  · exact ⟨rfl, rfl, rfl, rfl, rfl, rfl, rfl, rfl, rfl, rfl, rfl, rfl, rfl, rfl, rfl, rfl⟩
  · unfold Gen.setPathBlending
    dsimp only
    split <;> exact ⟨rfl, rfl, rfl, rfl, rfl, rfl, rfl, rfl, rfl, rfl, rfl, rfl, rfl, rfl, rfl, rfl⟩

theorem finishGen_fresh (o : TOpts K) (n : Int) (g : Gen K) (h : Fresh g) : Fresh (finishGen o n g) := by
  unfold finishGen
  dsimp only [Gen.setTolerance, Gen.setOutputPrecision]
  split
  · exact ⟨h.out, h.last, h.reset, h.map, h.altUp, h.altDown⟩
  · unfold Gen.setPathBlending
    dsimp only
    split <;> exact ⟨h.out, h.last, h.reset, h.map, h.altUp, h.altDown⟩

theorem initGcode_fresh {env : TEnv K} {doc : DocInfo K} {o : TOpts K} {g : Gen K} (h : initGcode env doc o = .ok g) : Fresh g := by
  obtain ⟨af, u, k, n, -, -, -, -, -, rfl⟩ := initGcode_spec h
  apply finishGen_fresh
  unfold newGen
  rw [foldl_headers]
  exact ⟨rfl, rfl, rfl, rfl, rfl, rfl⟩

theorem initGcode_zsafe {env : TEnv K} {doc : DocInfo K} {o : TOpts K} {g : Gen K} (h : initGcode env doc o = .ok g) :
    g.cfg.zsafe = o.zSafe ∧ g.cfg.spAuto = decide (o.spindleMode = "path".toList) := by
  obtain ⟨af, u, k, n, -, -, -, -, -, rfl⟩ := initGcode_spec h
  rw [(finishGen_fields o n _).1, (finishGen_fields o n _).2.1]
  unfold newGen
  rw [foldl_headers]
  exact ⟨rfl, rfl⟩

/-- Calls of the CAM object change of the configuration only the header comments. -/
theorem cam_run_cfg (cs : List (Call K)) (hc : ∀ c ∈ cs, CamCall c) (g : Gen K) :
    ∃ hs, (g.run cs).cfg = { g.cfg with headerComments := hs } := by
  induction cs generalizing g with
  | nil => exact ⟨g.cfg.headerComments, rfl⟩
  | cons c cs ih =>
    obtain ⟨hs, h⟩ := ih (fun c' h' => hc c' (by simp [h'])) (g.step c).1
    show ∃ hs, ((g.step c).1.run cs).cfg = _
    rw [h]
    by_cases hcf : c.isConfig = true
    · obtain ⟨t, rfl⟩ := (hc c (by simp)).config hcf
      exact ⟨hs, rfl⟩
    · rw [step_cfg g c (by simpa using hcf)]
      exact ⟨hs, rfl⟩

/-! ## C101: rapid traverses of a whole program -/

/-- Every block of a program written by CAM calls that traverses X or Y at rapid speed starts and ends with Z at the image of a height at
or above the safe height. -/
theorem run_traverse (g0 : Gen K) (h0 : Fresh g0) (cs : List (Call K)) (hc : ∀ c ∈ cs, CamCall c) (pre : List (Block K)) (b : Block K)
    (post : List (Block K)) (hb : blocksOf (g0.run cs).out = pre ++ b :: post) (hcmd : b.cmd = "G00".toList) (hxy : movesXY b) :
    (∃ z, (Machine.off.run pre).pos 'Z' = some (specImage g0.cfg 'Z' z) ∧ AtSafe g0.cfg.zsafe z) ∧
    (∃ z, (Machine.off.run (pre ++ [b])).pos 'Z' = some (specImage g0.cfg 'Z' z) ∧ AtSafe g0.cfg.zsafe z) := by
  induction cs using List.reverseRecOn generalizing post with
  | nil =>
    have : blocksOf g0.out = [] := by rw [h0.out]; rfl
    rw [show g0.run [] = g0 from rfl, this] at hb
    simp at hb
  | append_singleton cs c ih =>
    have hcs : ∀ c' ∈ cs, CamCall c' := fun c' h' => hc c' (by simp [h'])
    have hcc : CamCall c := hc c (by simp)
    have htr : ∀ c' ∈ cs, Trackable c' := fun c' h' => (hcs c' h').trackable
    have hinv := trackInv_run cs g0 (trackInv_fresh g0 h0) htr
    rw [run_append, show ((g0.run cs).run [c]) = ((g0.run cs).step c).1 from rfl] at hb
    obtain ⟨hs, hcfg⟩ := cam_run_cfg cs hcs g0
    obtain ⟨l, hadd, hor, -⟩ := cam_adds (g0.run cs) c hcc hinv.map hinv.altUp hinv.altDown
    -- the block is old or new
    have hl : blocksOf (g0.run cs).out ++ l = pre ++ b :: post := by rw [← hb]; exact hadd.symm
    rcases List.append_eq_append_iff.1 hl with ⟨as, h1, h2⟩ | ⟨as, h1, h2⟩
    · -- new
      have hbl : b ∈ l := by rw [h2]; simp
      rcases hor with hno | ⟨x, y, z, a, com, rfl⟩
      · exact absurd ⟨hcmd, hxy⟩ (hno b hbl)
      · obtain ⟨new, hnew, hall⟩ := C03_rapid_safe_height_partial g0 h0 cs htr x y z a com
        have : new = l := by
          have h3 : blocksOf ((g0.run cs).rapidMove x y z a com).out = blocksOf (g0.run cs).out ++ l := hadd
          rw [hnew] at h3
          exact List.append_cancel_left h3
        subst this
        obtain ⟨⟨z1, hz1, ha1⟩, z2, hz2, ha2⟩ := hall as b post h2 hxy
        have hz : (g0.run cs).cfg.zsafe = g0.cfg.zsafe := by rw [hcfg]
        have hi : ∀ v, specImage (g0.run cs).cfg 'Z' v = specImage g0.cfg 'Z' v := by intro v; rw [hcfg]; rfl
        rw [hz] at ha1 ha2
        rw [hi] at hz1 hz2
        constructor
        · refine ⟨z1, ?_, ha1⟩
          rw [h1, GCode.run_append]
          exact hz1
        · refine ⟨z2, ?_, ha2⟩
          rw [h1, List.append_assoc, GCode.run_append]
          exact hz2
    · -- old
      cases as with
      | nil =>
        simp only [List.append_nil, List.nil_append] at h1 h2
        have hbl : b ∈ l := by rw [← h2]; simp
        rcases hor with hno | ⟨x, y, z, a, com, rfl⟩
        · exact absurd ⟨hcmd, hxy⟩ (hno b hbl)
        · obtain ⟨new, hnew, hall⟩ := C03_rapid_safe_height_partial g0 h0 cs htr x y z a com
          have : new = l := by
            have h3 : blocksOf ((g0.run cs).rapidMove x y z a com).out = blocksOf (g0.run cs).out ++ l := hadd
            rw [hnew] at h3
            exact List.append_cancel_left h3
          subst this
          obtain ⟨⟨z1, hz1, ha1⟩, z2, hz2, ha2⟩ := hall [] b post h2.symm hxy
          have hz : (g0.run cs).cfg.zsafe = g0.cfg.zsafe := by rw [hcfg]
          have hi : ∀ v, specImage (g0.run cs).cfg 'Z' v = specImage g0.cfg 'Z' v := by intro v; rw [hcfg]; rfl
          rw [hz] at ha1 ha2
          rw [hi] at hz1 hz2
          rw [← h1]
          exact ⟨⟨z1, hz1, ha1⟩, z2, by rw [GCode.run_append]; exact hz2, ha2⟩
      | cons b' as =>
        simp only [List.cons_append, List.cons.injEq] at h2
        obtain ⟨rfl, h2⟩ := h2
        exact ih hcs as h1

end Verif.Cam
