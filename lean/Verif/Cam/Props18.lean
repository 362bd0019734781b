import Verif.Cam.Props17
import Verif.Cam.Props2

/-!
# C104, C106–C108, C110: what the options mean
-/

set_option linter.unusedSectionVars false

namespace Verif.Cam
open Verif PyFloat PyTrig Geom GCode
open Verif.Svg (LenUnit Numeral)

/-! ## C104: depths -/

section
variable {K : Type} [Field K] [LinearOrder K] [IsStrictOrderedRing K] [PyTrig K] [ExactFloat K]

theorem pyMax_eq (a b : K) : pyMax a b = max a b := by
  unfold pyMax
  py
  split
  · rename_i h; exact (max_eq_right h.le).symm
  · rename_i h; exact (max_eq_left (not_lt.1 h)).symm

/-- The step in force for given options. -/
theorem initCam_step (e : Env K) (o : TOpts K) :
    stepInForce e.eps (initCam o).zDepth (initCam o).zStep = if |max (-|o.zStep|) o.zDepth| < e.eps then o.zDepth else max (-|o.zStep|) o.zDepth := by
  unfold stepInForce
  have h1 : (initCam o).zStep = max (-|o.zStep|) o.zDepth := by
    show pyMax (neg (PyFloat.abs o.zStep)) o.zDepth = _
    rw [pyMax_eq]
    py
  rw [h1]
  rfl

/-- A negative depth gives a negative step, whatever the option for the step. -/
theorem initCam_step_neg (e : Env K) (he : 0 < e.eps) (o : TOpts K) (hd : o.zDepth < 0) :
    stepInForce e.eps (initCam o).zDepth (initCam o).zStep < 0 := by
  rw [initCam_step]
  split
  · exact hd
  · rename_i h
    by_cases h0 : o.zStep = 0
    · exfalso
      apply h
      rw [h0, abs_zero, neg_zero, max_eq_left hd.le, abs_zero]
      exact he
    · have : 0 < |o.zStep| := abs_pos.2 h0
      exact max_lt (by linarith) hd

/-- **C104**, termination: with a final depth below the surface, code generation terminates for every option "depth per pass", positive, negative
or zero, all other options and all paths.  Missing: depths that are not negative (`C104_refuted_depth`). -/
theorem C104_terminates_partial (e : Env K) (he : 0 < e.eps) (o : TOpts K) (l : List (Path K)) (s : Cam K) (hd : o.zDepth < 0) :
    ∃ ds s', Generate e (initCam o) l s ds s' :=
  C22_terminates_partial e _ l s (initCam_step_neg e he o hd)

/-- **C104**, the part that fails: with a final depth of zero or above (the dialog's own default is 0.25) no run is ever completed. -/
theorem C104_refuted_depth (env : TEnv K) (doc : DocInfo K) (e : Env K) (he : 0 < e.eps) (o : TOpts K) (l : List (Path K)) (hd : 0 ≤ o.zDepth) :
    ¬ ∃ ds s, Generated env doc e o l ds s ∧ s.err = none := by
  rintro ⟨ds, s, ⟨g, -, hgen⟩, herr⟩
  refine C22_refuted_nonnegative e (initCam o) l (Cam.init g) ?_ ⟨ds, s, hgen, herr⟩
  rw [initCam_step]
  split
  · exact not_lt.2 hd
  · exact not_lt.2 (le_max_of_le_right hd)

/-- **C104**, one pass: if the depth per pass is zero or at least the final depth, a completed run makes exactly one pass, at the final
depth. -/
theorem C104_single_pass (e : Env K) (he : 0 < e.eps) (o : TOpts K) (l : List (Path K)) (s s' : Cam K) (ds : List K)
    (h : Generate e (initCam o) l s ds s') (herr : s'.err = none) (hd : o.zDepth < 0) (hst : o.zStep = 0 ∨ |o.zDepth| ≤ |o.zStep|) :
    ds = [o.zDepth] := by
  have hstep : stepInForce e.eps (initCam o).zDepth (initCam o).zStep = o.zDepth := by
    rw [initCam_step]
    rcases hst with h0 | h0
    · rw [h0, abs_zero, neg_zero, max_eq_left hd.le, abs_zero, if_pos he]
    · have : max (-|o.zStep|) o.zDepth = o.zDepth := max_eq_right (by rw [abs_of_neg hd] at h0; linarith)
      rw [this]
      split <;> rfl
  have hlast := C24_last_pass_partial e (initCam o) l s s' ds h herr (by rw [hstep]; exact hd)
    (.inr (.inr ⟨1, le_refl _, by rw [hstep, Nat.cast_one, one_mul]; rfl⟩))
  have hne : ds ≠ [] := by rintro rfl; simp at hlast
  obtain ⟨paths, s1, hl, -⟩ := generate_loop h hne
  have heff : effStep e (initCam o) = o.zDepth := by rw [effStep_eq, hstep]
  have hdep := depthLoop_depths (by rw [heff]; exact hd) hl
  have hfirst : firstDepth (initCam o) (effStep e (initCam o)) = o.zDepth := by
    unfold firstDepth
    rw [heff]
    split <;> rfl
  rw [hfirst, heff] at hdep
  clear hl h hlast hstep
  obtain ⟨a, r, rfl⟩ := List.exists_cons_of_ne_nil hne
  have ha : a = o.zDepth := by
    have := (hdep 0 (Nat.succ_pos _)).1
    rwa [List.getElem_cons_zero, Nat.cast_zero, zero_mul, add_zero] at this
  cases r with
  | nil => rw [ha]
  | cons b r =>
    exfalso
    have h1 := hdep 1 (Nat.succ_lt_succ (Nat.succ_pos _))
    have h2 : o.zDepth ≤ o.zDepth + ((1 : ℕ) : K) * o.zDepth := by
      have := h1.2
      rw [h1.1] at this
      exact this
    rw [Nat.cast_one, one_mul] at h2
    linarith

/-- **C104**, several passes: with a depth per pass that is not close to zero and smaller than the final depth, no pass of any run is deeper
than the final depth, and consecutive passes differ by exactly the depth per pass, whichever sign is given. -/
theorem C104_steps (e : Env K) (o : TOpts K) (l : List (Path K)) (s s' : Cam K) (ds : List K)
    (h : Generate e (initCam o) l s ds s') (hd : o.zDepth < 0) (h0 : 0 < |o.zStep|) (h1 : e.eps ≤ |o.zStep|) (h2 : |o.zStep| ≤ |o.zDepth|) :
    (∀ d ∈ ds, o.zDepth ≤ d) ∧ (∀ i (hi : i < ds.length), ds[i] = - (i + 1) * |o.zStep|) := by
  have hmax : max (-|o.zStep|) o.zDepth = -|o.zStep| := max_eq_left (by rw [abs_of_neg hd] at h2; linarith)
  have hstep : stepInForce e.eps (initCam o).zDepth (initCam o).zStep = -|o.zStep| := by
    rw [initCam_step, hmax, abs_neg, abs_abs, if_neg (not_lt.2 h1)]
  refine ⟨C23_no_pass_below e (initCam o) l s s' ds h, ?_⟩
  intro i hi
  have hne : ds ≠ [] := by rintro rfl; simp at hi
  obtain ⟨paths, s1, hl, -⟩ := generate_loop h hne
  have heff : effStep e (initCam o) = -|o.zStep| := by rw [effStep_eq, hstep]
  have hdep := (depthLoop_depths (by rw [heff]; linarith) hl i hi).1
  have hfirst : firstDepth (initCam o) (effStep e (initCam o)) = -|o.zStep| := by
    unfold firstDepth
    rw [heff, show (initCam o).zDepth = o.zDepth from rfl]
    py
    rw [if_neg]
    rintro (h | h)
    · linarith
    · rw [abs_of_neg hd] at h2; linarith
  rw [hdep, hfirst, heff]
  ring

/-! ## C106: angular feed rate matched to the feed rate -/

/-- **C106**, what holds: without matching, the rate of the A axis is the option, and matching with a tool of width zero is refused.
Missing: the matching (`C106_refuted_match`). -/
theorem C106_unmatched_partial (env : TEnv K) (doc : DocInfo K) (o : TOpts K) (g : Gen K) :
    (o.aFeedMatch = false → initGcode env doc o = .ok g → g.cfg.afeed = o.aFeed) ∧
    (o.aFeedMatch = true → o.toolWidth = 0 → initGcode env doc o = .error .zeroDivision) := by
  constructor
  · intro hm h
    obtain ⟨af, u, k, n, h1, -, -, -, -, -, -, h8, -⟩ := initGcode_fields h
    unfold angularFeed at h1
    rw [hm] at h1
    simp only [Bool.false_eq_true, if_false, Except.ok.injEq] at h1
    rw [h8, h1]
  · intro hm hw
    have h1 : angularFeed o = .error .zeroDivision := by
      unfold angularFeed
      rw [hm, hw]
      have : Svg.isZeroF (0 : K) = true := by unfold Svg.isZeroF; py; simp
      rw [this]
      rfl
    unfold initGcode
    rw [h1]
    rfl

/-- Specification: the speed of the edge of a tool of width `w` turned at `a` degrees per minute about its middle. -/
def edgeSpeed (w a : K) : K := a * (PyFloat.pi / 180) * (w / 2)

/-- **C106**, the part that fails: the rate is to be chosen "so that the outside edge of the brush matches the linear feed rate of the XY axes",
but for every tool width and feed rate the edge moves at a quarter of it. -/
theorem C106_refuted_match (env : TEnv K) (doc : DocInfo K) (o : TOpts K) (g : Gen K) (hm : o.aFeedMatch = true) (hw : 0 < o.toolWidth)
    (h : initGcode env doc o = .ok g) : edgeSpeed o.toolWidth g.cfg.afeed = o.xyFeed / 4 := by
  obtain ⟨af, u, k, n, h1, -, -, -, -, -, -, h8, -⟩ := initGcode_fields h
  unfold angularFeed at h1
  have hz : Svg.isZeroF o.toolWidth = false := by unfold Svg.isZeroF; py; simp [hw]
  rw [hm, hz] at h1
  simp only [if_true, Bool.false_eq_true, if_false, Except.ok.injEq] at h1
  rw [h8, ← h1]
  unfold edgeSpeed
  have hpi : (PyFloat.pi : K) ≠ 0 := (ExactFloat.pi_pos (K := K)).ne'
  have hw' := hw.ne'
  py
  push_cast
  field_simp
  ring

/-! ## C110: tangential axis disabled -/

theorem initGcode_wrap {env : TEnv K} {doc : DocInfo K} {o : TOpts K} {g : Gen K} (h : initGcode env doc o = .ok g) :
    g.cfg.wrapAngles = false := by
  obtain ⟨af, u, k, n, -, -, -, -, -, rfl⟩ := initGcode_spec h
  have : ∀ g : Gen K, (finishGen o n g).cfg.wrapAngles = g.cfg.wrapAngles := by
    intro g
    unfold finishGen
    dsimp only [Gen.setTolerance, Gen.setOutputPrecision]
    split
    · rfl
    · unfold Gen.setPathBlending
      dsimp only
      split <;> rfl
  rw [this]
  show (newGen env o af).cfg.wrapAngles = false
  unfold newGen
  rw [foldl_headers]
  rfl

/-- **C110**, motion: with the tangential axis disabled, for all documents, other options and paths, and however the run ends, every word for A in
the program is zero, and at every moment the machine's A axis is at zero or has not been moved. -/
theorem C110_no_turns (env : TEnv K) (doc : DocInfo K) (e : Env K) (o : TOpts K) (l : List (Path K)) (ds : List K) (s : Cam K)
    (h : Generated env doc e o l ds s) (ho : o.disableTangent = true) :
    (∀ b ∈ blocksOf s.gen.out, ∀ w ∈ b.words, isAWord w → ∃ d, w.val = .num d 0) ∧
    ∀ pre, pre <+: blocksOf s.gen.out → (Machine.off.run pre).pos 'A' = none ∨ (Machine.off.run pre).pos 'A' = some 0 := by
  obtain ⟨g, hg, hgen⟩ := h
  obtain ⟨af, u, k, n, -, -, -, -, -, -, -, -, -, -, -, -, -, -, -, hax, hof⟩ := initGcode_fields hg
  obtain ⟨-, cs, hext, hcs⟩ := still_generate (o := initCam o) (by show (!o.disableTangent) = false; rw [ho]; rfl) hgen rfl
  have hs : s.gen = g.run cs := hext.2
  have key : ∀ b ∈ blocksOf s.gen.out, ∀ w ∈ b.words, isAWord w → ∃ d, w.val = .num d 0 := by
    intro b hb w hw ha
    rw [hs] at hb
    have := run_awords cs hcs g (initGcode_fresh hg) b hb w hw ha
    refine ⟨g.cfg.digits, ?_⟩
    rw [this]
    congr 1
    unfold Cfg.effVal Cfg.outVal
    rw [initGcode_wrap hg, hax, hof]
    simp only [Bool.false_eq_true, and_false, if_false, Option.getD_none, true_or, if_true]
    py
    simp
  refine ⟨key, ?_⟩
  rintro pre ⟨post, hp⟩
  refine machine_A 0 pre (fun b hb => key b (by rw [← hp]; simp [hb])) Machine.off (.inl rfl)

end

/-- **C110**, compensation: with the tangential axis disabled, and sorting, splitting, smoothing and brush strokes off, the line and arc
paths that are cut are exactly the given ones, whatever the options for tool width and trail compensation are. -/
theorem C110_uncompensated {K : Type} [PyTrig K] (e : Env K) (o : TOpts K) (ho : o.disableTangent = true) (h1 : o.sortMethod = "none".toList)
    (h2 : o.splitCusps = false) (h3 : o.smoothFillet = false) (h4 : o.softLanding = false) (h5 : o.overshootMode = []) (tol : K)
    (l : List (Path K)) (hl : ∀ p ∈ l, SimplePath p) : prepare e (initCam o) tol l = .ok l := by
  refine C82_plain_unchanged e (initCam o) ⟨?_, ?_, h2, ?_, h3, ?_⟩ tol l hl
  · show (if o.sortMethod = "none".toList then none else some o.sortMethod) = none
    rw [if_pos h1]
  · show (o.toolFillet && !o.disableTangent) = false
    rw [ho]; simp
  · show (o.toolOffset && !o.disableTangent) = false
    rw [ho]; simp
  · intro b hb
    have hb' : b = initBrush o := by
      have : (initCam o).brush = some (initBrush o) := rfl
      rw [this] at hb
      injection hb with hb
      exact hb.symm
    subst hb'
    refine ⟨?_, h4⟩
    show decide (o.overshootMode = "auto".toList ∨ o.overshootMode = "manual".toList) = false
    rw [h5]
    decide

end Verif.Cam
