import Verif.Cam.Props40

/-!
# C191: a drawing with a curve whose handle is in the corner of the page cannot be cut
-/

set_option linter.unusedSectionVars false

namespace Verif.Geom
open Verif PyFloat PyTrig

/-- **C95**, the exceptions again, with a curve inside the page: an arch that opens to the right and whose first handle is in the corner of the page raises `AttributeError` - for every number of subdivisions, every tolerance, and with small constants. -/
theorem C95_refuted_corner (eps tol flat : ℝ) (heps : 0 < eps) (he : eps ≤ 1 / 1000) (htol : 0 ≤ tol) (hflat1 : flat ≤ 1) (depth : Nat) :
    (Bez.mk ⟨4, 0⟩ ⟨0, 0⟩ ⟨0, 6⟩ ⟨4, 6⟩ : Bez ℝ).biarcApproximation eps tol depth flat = .error .attributeError := by
  have hsq : eps ^ 2 ≤ 1 / 1000000 := by nlinarith
  have hs9 : Real.sqrt 9 = 3 := by rw [show (9 : ℝ) = 3 ^ 2 by norm_num, Real.sqrt_sq (by norm_num)]
  have hmul : eps * eps ≤ 1 / 1000000 := by nlinarith
  obtain ⟨a2, h2, -⟩ := C94_tangent_arc_partial eps heps ⟨4, 6⟩ ⟨0, 6⟩ ⟨1, 3⟩ true (by norm_num [sqDist]; linarith) (by norm_num; linarith)
    (by norm_num [sqDist]; linarith) (by norm_num) (by norm_num)
  have hflat : (Bez.mk ⟨4, 0⟩ ⟨0, 0⟩ ⟨0, 6⟩ ⟨4, 6⟩ : Bez ℝ).flatness eps = 4 := by
    unfold Bez.flatness
    rw [if_neg (by rw [Bool.and_eq_true, eq_iff]; norm_num [sqDist]; intro h; linarith)]
    have hp : ∀ x : ℝ, x = 0 ∨ x = 6 → Line.distanceToPoint eps ⟨⟨4, 0⟩, ⟨4, 6⟩⟩ ⟨0, x⟩ true = 4 := by
      intro x hx
      unfold Line.distanceToPoint
      have : Line.normalProjectionPoint eps ⟨⟨4, 0⟩, ⟨4, 6⟩⟩ ⟨0, x⟩ true = ⟨4, x⟩ := by
        unfold Line.normalProjectionPoint P.normalProjection
        have h4 : ¬ (36 < eps) := by linarith
        have h5 : ¬ (36 < eps * eps) := by linarith
        rcases hx with rfl | rfl <;> norm_num [P.sub, P.dot, P.length2, h4, h5]
      rw [this, distance_real]
      have : sqDist (⟨4, x⟩ : P ℝ) ⟨0, x⟩ = 4 ^ 2 := by simp [sqDist]
      rw [this, Real.sqrt_sq (by norm_num)]
    simp only [hp 0 (Or.inl rfl), hp 6 (Or.inr rfl)]
    simp [pmax]
  have hunit : ∀ y : ℝ, |y| = 4 → ∀ z, y = 4 * z → P.unit eps (⟨y, 0⟩ : P ℝ) = ⟨z, 0⟩ := by
    intro y hy z hz
    have hl : P.length2 (⟨y, 0⟩ : P ℝ) = y ^ 2 := by simp [P.length2]; ring
    have hy2 : y ^ 2 = 16 := by rw [← sq_abs, hy]; norm_num
    unfold P.unit
    rw [hl, if_pos (by rw [real_lt, hy2, decide_eq_true_eq, real_mul]; linarith), real_sqrt, Real.sqrt_sq_eq_abs, hy]
    apply P.ext_real
    · simp only [real_div]; rw [hz]; ring
    · simp
  have htan0 : (Bez.mk ⟨4, 0⟩ ⟨0, 0⟩ ⟨0, 6⟩ ⟨4, 6⟩ : Bez ℝ).tangent eps zero = ⟨-1, 0⟩ := by
    have hc : P.eq eps (⟨0, 0⟩ : P ℝ) ⟨4, 0⟩ = false := by rw [eq_false_iff]; norm_num [sqDist]; linarith
    unfold Bez.tangent
    rw [if_pos (by rw [isZero_iff, real_zero, abs_zero]; exact heps)]
    simp only [hc, Bool.false_eq_true, if_false]
    rw [show P.sub (⟨0, 0⟩ : P ℝ) ⟨4, 0⟩ = ⟨-4, 0⟩ by simp [P.sub]]
    exact hunit (-4) (by norm_num) (-1) (by norm_num)
  have htan1 : (Bez.mk ⟨4, 0⟩ ⟨0, 0⟩ ⟨0, 6⟩ ⟨4, 6⟩ : Bez ℝ).tangent eps one = ⟨1, 0⟩ := by
    have hc : P.eq eps (⟨0, 6⟩ : P ℝ) ⟨4, 6⟩ = false := by rw [eq_false_iff]; norm_num [sqDist]; linarith
    unfold Bez.tangent
    rw [if_neg (by rw [isZero_iff, real_one, abs_one]; linarith), if_pos (by rw [floatEq_iff, sub_self, abs_zero]; exact heps)]
    simp only [hc, Bool.false_eq_true, if_false]
    rw [show P.neg (P.sub (⟨0, 6⟩ : P ℝ) ⟨4, 6⟩) = ⟨4, 0⟩ by simp [P.sub, P.neg]]
    exact hunit 4 (by norm_num) 1 (by norm_num)
  have hang : ∃ j, (Bez.mk ⟨4, 0⟩ ⟨0, 0⟩ ⟨0, 6⟩ ⟨4, 6⟩ : Bez ℝ).biarcJointArc eps = some j ∧ j.radius = 3 ∧ j.center = ⟨4, 3⟩ := by
    unfold Bez.biarcJointArc
    rw [htan0, htan1]
    have : (Line.bisector ⟨⟨4, 0⟩, ⟨4, 6⟩⟩).intersection eps (Line.bisector ⟨P.add ⟨4, 0⟩ ⟨-1, 0⟩, P.add ⟨4, 6⟩ (P.neg (P.neg ⟨1, 0⟩))⟩) = some (⟨4, 3⟩ : P ℝ) := by
      unfold Line.intersection Line.intersectionMu
      norm_num [Line.bisector, Line.midpoint, P.add, P.sub, P.neg, P.mul, lit_real, Line.denom, Line.numA, Line.numB, Line.pointAt]
      exact ⟨1 / 2, ⟨by linarith, rfl⟩, by norm_num⟩
    simp only [this]
    refine ⟨_, rfl, ?_, rfl⟩
    show P.distance _ _ = _
    rw [distance_real]
    norm_num [sqDist, hs9]
  obtain ⟨j, hj, hjr, hjc⟩ := hang
  have hne : P.eq eps (⟨4, 0⟩ : P ℝ) ⟨4, 6⟩ = false := by rw [eq_false_iff]; norm_num [sqDist]; linarith
  have hjl : ¬ ((j.radius <. eps || j.length <. eps) = true) := by
    intro hc
    have := (jointArc_spec heps _).2 j hj (by norm_num [sqDist]; linarith) hc
    norm_num [sqDist] at this
    linarith
  have hmid : (Bez.mk ⟨4, 0⟩ ⟨0, 0⟩ ⟨0, 6⟩ ⟨4, 6⟩ : Bez ℝ).pointAt eps (lit 5 1) = ⟨1, 3⟩ := by
    rw [lit_half, (C63_point_at eps _ (1/2)).2.2.1 (by linarith) (by linarith)]
    apply P.ext_real <;> norm_num [Bez.curve, bernstein3]
  have hpj : (Bez.mk ⟨4, 0⟩ ⟨0, 0⟩ ⟨0, 6⟩ ⟨4, 6⟩ : Bez ℝ).biarcJoint eps j = .ok ⟨1, 3⟩ := by
    unfold Bez.biarcJoint
    rw [hjr, hjc, hmid]
    have : (P.sub (⟨1, 3⟩ : P ℝ) ⟨4, 3⟩) = ⟨-3, 0⟩ := by
      apply P.ext_real <;> norm_num [P.sub]
    simp only [this]
    norm_num [P.length, pdiv, P.mul, P.add, bind, Except.bind, pure, Except.pure, hs9]
  have harcs : (Bez.mk ⟨4, 0⟩ ⟨0, 0⟩ ⟨0, 6⟩ ⟨4, 6⟩ : Bez ℝ).biarcArcs eps ⟨1, 3⟩ = .error .attributeError := by
    unfold Bez.biarcArcs
    have n1 : P.ne eps (⟨0, 0⟩ : P ℝ) ⟨4, 0⟩ = true := by
      unfold P.ne; rw [Bool.not_eq_true']; refine (eq_false_iff _ _ _).2 ?_; norm_num [sqDist]; linarith
    have n2 : P.ne eps (⟨0, 6⟩ : P ℝ) ⟨4, 6⟩ = true := by
      unfold P.ne; rw [Bool.not_eq_true']; refine (eq_false_iff _ _ _).2 ?_; norm_num [sqDist]; linarith
    have h1 := C94_refuted.2.2 eps ⟨4, 0⟩ ⟨0, 0⟩ ⟨1, 3⟩ false (by norm_num; positivity) heps
    simp only [n1, n2, if_true, h1, h2, bind, Except.bind]
  have hinf : (Bez.mk ⟨4, 0⟩ ⟨0, 0⟩ ⟨0, 6⟩ ⟨4, 6⟩ : Bez ℝ).findInflections eps = (0, 0) := by
    unfold Bez.findInflections
    have hc : P.eq eps (P.sub (⟨0, 0⟩ : P ℝ) ⟨4, 0⟩) (P.neg (P.sub ⟨0, 6⟩ ⟨4, 6⟩)) = false := by
      rw [eq_false_iff]; norm_num [sqDist, P.sub, P.neg]; linarith
    have hs : Real.sqrt 2304 = 48 := by
      rw [show (2304 : ℝ) = 48 ^ 2 by norm_num, Real.sqrt_sq (by norm_num)]
    simp only [hc, Bool.false_eq_true, if_false]
    norm_num [P.sub, P.mul, Bez.filterRoots, hs]
  unfold Bez.biarcApproximation
  rw [if_neg (by rw [hne]; simp), hflat, if_neg (by rw [real_lt, decide_eq_true_eq]; linarith)]
  have hsub : (Bez.mk ⟨4, 0⟩ ⟨0, 0⟩ ⟨0, 6⟩ ⟨4, 6⟩ : Bez ℝ).subdivideInflections eps = [⟨⟨4, 0⟩, ⟨0, 0⟩, ⟨0, 6⟩, ⟨4, 6⟩⟩] := by
    unfold Bez.subdivideInflections
    rw [hinf]
    simp
  rw [hsub]
  dsimp only
  rw [if_neg (by simp)]
  cases depth with
  | zero =>
    unfold Bez.biarcCore
    rw [if_neg (by rw [hne]; simp), hflat, if_neg (by rw [real_lt, decide_eq_true_eq]; linarith), hj]
    simp only [hjl, if_false, hpj, harcs, bind, Except.bind, Bool.false_eq_true]
  | succ n =>
    unfold Bez.biarcCore
    rw [if_neg (by rw [hne]; simp), hflat, if_neg (by rw [real_lt, decide_eq_true_eq]; linarith), hj]
    have hd : (tol <. P.distance (⟨1, 3⟩ : P ℝ) ⟨1, 3⟩) = false := by
      rw [distance_real]
      have : sqDist (⟨1, 3⟩ : P ℝ) ⟨1, 3⟩ = 0 := by simp [sqDist]
      rw [this, Real.sqrt_zero, real_lt, decide_eq_false_iff_not]
      linarith
    simp only [hjl, if_false, hpj, harcs, hmid, hd, bind, Except.bind, Bool.false_eq_true]

end Verif.Geom

namespace Verif.Cam
open Verif PyFloat PyTrig Geom GCode
open Verif.Svg (LenUnit Numeral XNode NumEnv Conv Length linesThrough Sub el at')

/-- An arch inside the page, with its first handle in the lower left corner. -/
def pathO : XNode := el "path" [at' "d" "M4 10C0 10 0 4 4 4"] []

/-- A sheet of two inches by one, in user units of a tenth of an inch, with the arch. -/
def docO : XNode := el "svg" [at' "width" "2in", at' "height" "1in", at' "viewBox" "0 0 20 10"] [
  .elem .other "namedview".toList [at' "units" "in"] [], pathO]

theorem pathO_draws (v : Str) (eps : ℝ) (heps : 0 < eps) (he : eps ≤ 1 / 1000) : Draws (realEnv v).num eps 0 pathO Mat.ident [[.bez ⟨⟨4, 10⟩, ⟨0, 10⟩, ⟨0, 4⟩, ⟨4, 4⟩⟩]] := by
  constructor
  · have hn : ∀ k : Nat, (realEnv v).num.ofDec false k 0 = (k : ℝ) := by intro k; simp [realEnv]
    have h : Svg.elementGeometry (realEnv v).num eps 0 (elemOf pathO) none none =
        let n : Nat → ℝ := fun k => (realEnv v).num.ofDec false k 0
        .ok [.path [.bez ⟨⟨n 4, n 10⟩, ⟨n 0, n 10⟩, ⟨n 0, n 4⟩, ⟨n 4, n 4⟩⟩]] := rfl
    rw [h]
    simp only [hn, List.map_cons, List.map_nil]
    norm_num
  · intro l hl s hs
    rw [List.mem_singleton] at hl
    subst hl
    rw [List.mem_singleton] at hs
    subst hs
    have : eps ^ 2 ≤ 1 / 1000000 := by nlinarith
    refine ⟨?_, fun a ha => by cases ha⟩
    norm_num [Cuttable, sqDist]
    try linarith

theorem docO_shapes (v : Str) : Svg.tcncShapes (realEnv v).num docO 3 [] = .ok [(⟨pathO, [docO]⟩, Mat.ident)] := by
  have h : Svg.tcncShapes (realEnv v).num docO 3 [] = .ok [(⟨pathO, [docO]⟩, (Mat.ident : Mat ℝ).compose Mat.ident)] := rfl
  rw [h, (C41_compose Mat.ident Mat.ident Mat.ident ⟨0, 0⟩).2.2.1]

theorem docO_sheet (v : Str) : Sheet (realEnv v).num Conv.default docO 180 90 20 10 :=
  ⟨(docD_sheet v).width, (docD_sheet v).height, (docD_sheet v).box, (docD_sheet v).pos, (docD_sheet v).even⟩

/-- **C191** without the exception for curves that cannot be replaced is refuted: a sheet with one arch, inside the page, with its first handle in the lower left corner, is not cut at all - with settings that leave the
paths alone and reasonable tolerances, every run ends in an `AttributeError` before the first block of the program. -/
theorem C191_refuted_corner (v : Str) (e : Env ℝ) (o : TOpts ℝ) (ho : Untouched o) (ht : 0 < o.tolerance) (ht' : o.tolerance ≤ 1 / 1000) (hb : 0 ≤ o.biarcTol) (hf : o.lineFlatness ≤ 1)
    (hd : o.zDepth < 0) (hw : o.aFeedMatch = true → o.toolWidth ≠ 0) (u : LenUnit) (hu : u = .inch ∨ u = .mm) (hgu : gcodeUnit o.gcodeUnits "in".toList = .ok u.name) :
    ∃ d, openDoc (realEnv v).num Conv.default (1 / 100000) docO = .ok d ∧ (∃ r, Ran (realEnv v) e 0 3 docO d [] o r) ∧
      ∀ r, Ran (realEnv v) e 0 3 docO d [] o r → ∃ s, r = some ([], s) ∧ s.err = some .attributeError ∧ blocksOf s.gen.out = [] := by
  obtain ⟨d, h1, h2, h3⟩ := C191_document_partial v Conv.default (by constructor <;> norm_num [Conv.default]) (1 / 100000) (by norm_num) e 0 3 docO []
    180 90 20 10 (docO_sheet v) (.elem .other "namedview".toList [at' "units" "in"] []) rfl o ho ht (by linarith) hd hw u hu hgu _ (docO_shapes v) (by simp)
    _ (.cons (pathO_draws v o.tolerance ht ht') .nil)
  refine ⟨d, h1, h2, ?_⟩
  have hpage : pagePaths 10 [(⟨pathO, [docO]⟩, Mat.ident)] [[[.bez ⟨⟨4, 10⟩, ⟨0, 10⟩, ⟨0, 4⟩, ⟨4, 4⟩⟩]]] = [[⟨.bez ⟨⟨4, 0⟩, ⟨0, 0⟩, ⟨0, 6⟩, ⟨4, 6⟩⟩, {}⟩]] := by
    simp only [pagePaths, List.zip_cons_cons, List.zip_nil_right, List.flatMap_cons, List.flatMap_nil, List.append_nil, List.map_cons, List.map_nil, segUpward, upward, Mat.ident, real_one, real_zero]
    norm_num
  have hprep : prepare { e with eps := o.tolerance } (initCam o) o.tolerance [[⟨.bez ⟨⟨4, 0⟩, ⟨0, 0⟩, ⟨0, 6⟩, ⟨4, 6⟩⟩, {}⟩]] = .error .attributeError := by
    rw [prepare_curves _ _ ho.plain]
    have := C95_refuted_corner o.tolerance o.biarcTol o.lineFlatness ht ht' hb hf o.biarcMaxDepth
    have h : biarcPath { e with eps := o.tolerance } (initCam o) [⟨.bez ⟨⟨4, 0⟩, ⟨0, 0⟩, ⟨0, 6⟩, ⟨4, 6⟩⟩, {}⟩] = .error .attributeError := by
      unfold biarcPath biarcSeg
      dsimp only
      rw [show (initCam o).biarcTol = o.biarcTol from rfl, show (initCam o).biarcMaxDepth = o.biarcMaxDepth from rfl, show (initCam o).lineFlatness = o.lineFlatness from rfl, this]
      rfl
    rw [List.mapM_cons, h]
    rfl
  have hpaths : ∀ paths, runPaths (realEnv v).num o.tolerance 0 3 docO [] d.height = .ok (some paths) → paths = [[⟨.bez ⟨⟨4, 0⟩, ⟨0, 0⟩, ⟨0, 6⟩, ⟨4, 6⟩⟩, {}⟩]] := by
    intro paths hrun
    have hc : (Conv.default : Conv ℝ).Positive := by constructor <;> norm_num [Conv.default]
    have hopen := openDoc_sheet (eps := 1 / 100000) hc (by norm_num) (docO_sheet v) (nv := .elem .other "namedview".toList [at' "units" "in"] []) rfl
    rw [hopen, Except.ok.injEq] at h1
    subst h1
    obtain ⟨subs, hsubs, hpo⟩ := all_upward ht 10 (List.Forall₂.cons (a := ((⟨pathO, [docO]⟩ : Svg.At), Mat.ident)) (pathO_draws v o.tolerance ht ht') .nil)
    unfold runPaths at hrun
    rw [docO_shapes v] at hrun
    simp only [bind, Except.bind] at hrun
    rw [if_neg (by simp)] at hrun
    simp only [hsubs, pure, Except.pure, hpo, hpage, Except.ok.injEq, Option.some.injEq] at hrun
    exact hrun.symm
  intro r hr
  obtain ⟨ds, s, rfl, -, -⟩ := h3 r hr
  cases hr with
  | cut paths ds s hrun hgen =>
    rw [hpaths paths hrun] at hgen
    obtain ⟨g, hg, hgen⟩ := hgen
    have htol : (Cam.init g).gen.cfg.tol = o.tolerance := by
      obtain ⟨af, u, k, n, -, -, -, -, -, -, -, -, -, -, -, -, -, -, htol, -, -⟩ := initGcode_fields hg
      exact htol
    cases hgen with
    | fails er h =>
      rw [htol, hprep] at h
      cases h
      refine ⟨_, rfl, rfl, ?_⟩
      show blocksOf g.out = []
      rw [(initGcode_fresh hg).out]
      rfl
    | noStart paths h h' => rw [htol, hprep] at h; cases h
    | runs paths ds s1 h _ _ => rw [htol, hprep] at h; cases h

end Verif.Cam
