import Verif.Cam.Props19

/-!
# Concrete whole programs: the hypotheses of C101–C110 are met
-/

set_option linter.unusedSectionVars false

namespace Verif.Cam
open Verif PyFloat PyTrig Geom GCode
open Verif.Svg (LenUnit Numeral)

/-- Outside of the examples; the logarithm is that of the tolerance of the examples. -/
def tenvQ : TEnv ℚ := ⟨Svg.exactQ, fun _ => -5, "0.2".toList⟩

/-- A document in pixels. -/
def docQ : DocInfo ℚ := ⟨"px".toList, Svg.Conv.default, 1⟩

/-- Settings of the examples: a quarter deep in one pass, the spindle started before every path. -/
def toptQ : TOpts ℚ where
  aFeedMatch := true
  xyFeed := 10
  zFeed := 10
  aFeed := 60
  zSafe := 1
  toolWidth := 1
  trailOffset := 1/4
  gcodeUnits := "doc".toList
  tolerance := 1/100000
  blendTol := 0
  spindleSpeed := 1000
  spindleWaitOn := 1
  spindleMode := "path".toList
  toolWait := 2
  zDepth := -1/4
  zStep := 1/4
  sortMethod := "none".toList
  biarcTol := 1/100
  lineFlatness := 1/1000
  smoothRadius := 0
  landingStrip := 0
  overshootDist := 0

/-- A path with a corner. -/
def tpathsQ : List (Path ℚ) := [[⟨.line ⟨⟨0, 0⟩, ⟨90, 0⟩⟩, {}⟩, ⟨.line ⟨⟨90, 0⟩, ⟨90, 45⟩⟩, {}⟩]]

/-- The generator of a successful initialisation. -/
def okGen (r : Except PyErr (Gen ℚ)) : Gen ℚ :=
  match r with
  | .ok g => g
  | .error _ => Gen.init 0 0 none none 0

/-- The state at the end of the run of the example. -/
def tendQ (o : TOpts ℚ) : Cam ℚ :=
  (((Cam.init (okGen (initGcode tenvQ docQ o))).start envQ tpathsQ).genPass envQ (initCam o) tpathsQ (-1/4) 1).finish (initCam o)

theorem prepareQ (o : TOpts ℚ) (h1 : o.sortMethod = "none".toList) (h2 : o.splitCusps = false) (h3 : o.smoothFillet = false)
    (h4 : o.softLanding = false) (h5 : o.overshootMode = []) (h6 : o.toolFillet = false) (h7 : o.toolOffset = false) (tol : ℚ) :
    prepare envQ (initCam o) tol tpathsQ = .ok tpathsQ := by
  refine C82_plain_unchanged envQ (initCam o) ⟨?_, ?_, h2, ?_, h3, ?_⟩ tol tpathsQ ?_
  · show (if o.sortMethod = "none".toList then none else some o.sortMethod) = none
    rw [if_pos h1]
  · show (o.toolFillet && !o.disableTangent) = false
    rw [h6]; rfl
  · show (o.toolOffset && !o.disableTangent) = false
    rw [h7]; rfl
  · intro b hb
    have hb' : b = initBrush o := by
      have : (initCam o).brush = some (initBrush o) := rfl
      rw [this] at hb
      injection hb with hb
      exact hb.symm
    subst hb'
    refine ⟨?_, h4⟩
    show decide (o.overshootMode = "auto".toList ∨ o.overshootMode = "manual".toList) = false
    rw [h5]
    decide
  · intro p hp s hs
    simp only [tpathsQ, List.mem_singleton] at hp
    subst hp
    simp only [List.mem_cons, List.not_mem_nil, or_false] at hs
    rcases hs with rfl | rfl
    · exact Or.inl ⟨_, rfl⟩
    · exact Or.inl ⟨_, rfl⟩

theorem generatedQ (o : TOpts ℚ) (g : Gen ℚ) (hg : initGcode tenvQ docQ o = .ok g) (h1 : o.sortMethod = "none".toList) (h2 : o.splitCusps = false)
    (h3 : o.smoothFillet = false)
    (h4 : o.softLanding = false) (h5 : o.overshootMode = []) (h6 : o.toolFillet = false) (h7 : o.toolOffset = false)
    (hst : ((Cam.init g).start envQ tpathsQ).err = none)
    (hfd : firstDepth (initCam o) (effStep envQ (initCam o)) = -1/4) (hz : o.zDepth = -1/4)
    (hp : (((Cam.init g).start envQ tpathsQ).genPass envQ (initCam o) tpathsQ (-1/4) 1).err = none)
    (hn : nextDepth (initCam o) (effStep envQ (initCam o)) (((Cam.init g).start envQ tpathsQ).genPass envQ (initCam o) tpathsQ (-1/4) 1).gen.cfg.tol (-1/4)
      < -1/4) :
    Generated tenvQ docQ envQ o tpathsQ [-1/4] (tendQ o) := by
  refine ⟨g, hg, ?_⟩
  have e : tendQ o = (((Cam.init g).start envQ tpathsQ).genPass envQ (initCam o) tpathsQ (-1/4) 1).finish (initCam o) := by
    unfold tendQ; rw [hg]; rfl
  rw [e]
  refine .runs tpathsQ [-1/4] _ (prepareQ o h1 h2 h3 h4 h5 h6 h7 _) hst ?_
  rw [hfd]
  have hz' : (initCam o).zDepth = -1/4 := hz
  refine .pass 1 _ _ [] _ ?_ hp (.done _ _ _ ?_)
  · rw [hz']; py; exact le_refl _
  · rw [hz']; py; exact not_le.2 hn

/-- The initialisation of the example succeeds. -/
theorem initQ : ∃ g, initGcode tenvQ docQ toptQ = .ok g := by
  have : (match initGcode tenvQ docQ toptQ with | .ok _ => true | .error _ => false) = true := by decide +kernel
  cases h : initGcode tenvQ docQ toptQ with
  | ok g => exact ⟨g, rfl⟩
  | error e => rw [h] at this; cases this

/-- A completed program in which the tool is moved across at rapid speed, plunges, cuts, turns and cuts: C101, C104, C105, C106 and C109 are
not vacuous. -/
theorem demo_program : Generated tenvQ docQ envQ toptQ tpathsQ [-1/4] (tendQ toptQ) ∧ (tendQ toptQ).err = none ∧
    (∃ b ∈ blocksOf (tendQ toptQ).gen.out, b.cmd = "G00".toList ∧ movesXY b) ∧
    (∃ b ∈ blocksOf (tendQ toptQ).gen.out, isFeed b.cmd = true ∧ movesXY b) ∧
    (∃ b ∈ blocksOf (tendQ toptQ).gen.out, startsSpindle b) := by
  obtain ⟨g, hg⟩ := initQ
  have e : g = okGen (initGcode tenvQ docQ toptQ) := by rw [hg]; rfl
  refine ⟨generatedQ toptQ g hg rfl rfl rfl rfl rfl rfl rfl ?_ ?_ rfl ?_ ?_, ?_, ?_, ?_, ?_⟩
  · rw [e]; decide +kernel
  · decide +kernel
  · rw [e]; decide +kernel
  · rw [e]; decide +kernel
  · decide +kernel
  · unfold movesXY; decide +kernel
  · unfold movesXY; decide +kernel
  · unfold startsSpindle; decide +kernel

/-- The same without the tangential axis and with the spindle left alone. -/
def toptQ' : TOpts ℚ := { toptQ with disableTangent := true, spindleMode := "start".toList }

/-- Non-vacuity of C105_refuted_tool_wait, C109_refuted_start and C110. -/
example : Generated tenvQ docQ envQ toptQ' tpathsQ [-1/4] (tendQ toptQ') ∧ (tendQ toptQ').err = none ∧ toptQ'.disableTangent = true ∧
    toptQ'.spindleMode ≠ "path".toList ∧ 0 < toptQ'.toolWait ∧
    (∃ b ∈ blocksOf (tendQ toptQ').gen.out, isFeed b.cmd = true ∧ movesXY b) := by
  have hi : ∃ g, initGcode tenvQ docQ toptQ' = .ok g := by
    have : (match initGcode tenvQ docQ toptQ' with | .ok _ => true | .error _ => false) = true := by decide +kernel
    cases h : initGcode tenvQ docQ toptQ' with
    | ok g => exact ⟨g, rfl⟩
    | error e => rw [h] at this; cases this
  obtain ⟨g, hg⟩ := hi
  have e : g = okGen (initGcode tenvQ docQ toptQ') := by rw [hg]; rfl
  refine ⟨generatedQ toptQ' g hg rfl rfl rfl rfl rfl rfl rfl ?_ ?_ rfl ?_ ?_, ?_, rfl, by decide, by decide +kernel, ?_⟩
  · rw [e]; decide +kernel
  · decide +kernel
  · rw [e]; decide +kernel
  · rw [e]; decide +kernel
  · decide +kernel
  · unfold movesXY; decide +kernel

/-! ## Over the real numbers -/

/-- A document in pixels. -/
noncomputable def docR : DocInfo ℝ := ⟨"px".toList, Svg.Conv.default, 1⟩

/-- Environment of the examples. -/
noncomputable def envR : Env ℝ := ⟨1/1000000, "2020-01-01".toList, fun _ => [], fun _ => 0⟩

/-- Settings of the examples. -/
noncomputable def toptR (units : Str) (tol : ℝ) : TOpts ℝ where
  xyFeed := 10
  zFeed := 10
  aFeed := 60
  zSafe := 1
  toolWidth := 1
  trailOffset := 1/4
  gcodeUnits := units
  tolerance := tol
  blendTol := 0
  spindleSpeed := 1000
  spindleWaitOn := 1
  spindleMode := "path".toList
  toolWait := 2
  disableTangent := true
  zDepth := -1/4
  zStep := 1/4
  sortMethod := "none".toList
  biarcTol := 1/100
  lineFlatness := 1/1000
  smoothRadius := 0
  landingStrip := 0
  overshootDist := 0

/-- A path with a corner. -/
noncomputable def tpathsR : List (Path ℝ) := [[⟨.line ⟨⟨0, 0⟩, ⟨90, 0⟩⟩, {}⟩, ⟨.line ⟨⟨90, 0⟩, ⟨90, 45⟩⟩, {}⟩]]

theorem docR_positive : docR.conv.Positive := by norm_num [docR, Svg.Conv.Positive, Svg.Conv.default]

/-- Completed programs over the real numbers: C102, C103, C104 and C107 are not vacuous. -/
theorem demo_real (units : Str) (u : LenUnit) (hu : u = .inch ∨ u = .mm) (hg : gcodeUnit units docR.docUnits = .ok u.name) (tol : ℝ) (ht : 0 < tol) :
    ∃ ds s, Generated (realEnv []) docR envR (toptR units tol) tpathsR ds s ∧ s.err = none := by
  refine C104_completes_partial [] docR docR_positive (by simp [docR]) envR (by norm_num [envR]) (toptR units tol) (by intro h; cases h) u hu hg ht
    (by norm_num [toptR]) rfl tpathsR tpathsR ?_
  refine C110_uncompensated envR _ rfl rfl rfl rfl rfl rfl _ _ ?_
  intro p hp s hs
  simp only [tpathsR, List.mem_singleton] at hp
  subst hp
  simp only [List.mem_cons, List.not_mem_nil, or_false] at hs
  rcases hs with rfl | rfl
  · exact Or.inl ⟨_, rfl⟩
  · exact Or.inl ⟨_, rfl⟩

/-- Non-vacuity of C107: both tolerances are accepted and give completed programs. -/
example : (∃ ds s, Generated (realEnv []) docR envR (toptR "mm".toList (1 / 10 ^ 5)) tpathsR ds s ∧ s.err = none) ∧
    (10 : ℝ) ^ (-15 : ℤ) ≤ (toptR "mm".toList (1 / 10 ^ 5)).tolerance ∧
    ∃ ds s, Generated (realEnv []) docR envR (toptR "doc".toList (32 / 1000000)) tpathsR ds s ∧ s.err = none :=
  ⟨demo_real _ .mm (.inr rfl) rfl _ (by norm_num), by norm_num [toptR], demo_real _ .inch (.inl rfl) (by decide) _ (by norm_num)⟩

/-! ## C103: heights -/

/-- **C103**, the part that fails: in a document in pixels, with the units of the document, there are completed programs with `z_safe` one (inch)
that end with the machine at a ninetieth of an inch. -/
theorem C103_refuted : ∃ (o : TOpts ℝ) (ds : List ℝ) (s : Cam ℝ), Generated (realEnv []) docR envR o tpathsR ds s ∧ s.err = none ∧
    gcodeUnit o.gcodeUnits docR.docUnits = .ok LenUnit.inch.name ∧ o.zSafe = 1 ∧ s.gen.machine.pos 'Z' = some (1 / 90) := by
  have hgu : gcodeUnit "doc".toList docR.docUnits = .ok LenUnit.inch.name := by decide
  obtain ⟨ds, s, h, herr⟩ := demo_real "doc".toList .inch (.inl rfl) hgu (1 / 10 ^ 5) (by norm_num)
  refine ⟨_, ds, s, h, herr, hgu, rfl, ?_⟩
  obtain ⟨u, hu, hgu', himg⟩ := generated_scale docR_positive (by simp [docR]) h
  rw [C101_ends_raised _ _ _ _ _ _ _ h herr, himg 'Z' (by simp)]
  have : u = .inch := by
    rw [show gcodeUnit (toptR "doc".toList (1 / 10 ^ 5)).gcodeUnits docR.docUnits = .ok LenUnit.inch.name from hgu] at hgu'
    injection hgu' with hgu'
    rcases hu with rfl | rfl
    · rfl
    · exact absurd hgu' (by decide)
  rw [this]
  simp [toptR, docR, LenUnit.size]

end Verif.Cam
