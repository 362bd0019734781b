import Verif.Ext.Props15
import Verif.Geom.Props9

/-!
# C153: where the quasicrystal is drawn

The placement on the page, the clipping region made from the page and the margins, and the re-centering of the finished tiling.
-/

set_option linter.unusedSectionVars false

namespace Verif.Ext
open Verif PyFloat PyTrig Geom

/-- Specification: the point of the page where a point of the tiling belongs: scaled, turned by the angle about the middle of the tiling, which is the middle of the page moved by the offset. -/
noncomputable def onPage (w h s r ox oy : ℝ) (p : P ℝ) : P ℝ :=
  ⟨w / 2 + ox + s / 10 * (Real.cos r * p.x - Real.sin r * p.y), h / 2 + oy + s / 10 * (Real.sin r * p.x + Real.cos r * p.y)⟩

/-- What the transformation does: it scales, moves, and then turns about the corner of the page. -/
theorem plotMatrix_apply (w h s r ox oy : ℝ) (p : P ℝ) :
    (plotMatrix w h s r ox oy).apply p =
      ⟨Real.cos r * (w / 2 + ox + s / 10 * p.x) - Real.sin r * (h / 2 + oy + s / 10 * p.y),
       Real.sin r * (w / 2 + ox + s / 10 * p.x) + Real.cos r * (h / 2 + oy + s / 10 * p.y)⟩ := by
  apply P.ext_real <;> simp [plotMatrix, Mat.compose, Mat.rotate, Mat.scaleTranslate, Mat.translate, Mat.apply, P.origin, P.add, lit_real] <;> ring

/-- **C153 (placement).** Without rotation every point is drawn where it belongs; with any rotation the drawing is the tiling scaled by a tenth of the scale setting, with all distances in proportion, and not mirrored (for a positive
scale; missing: the position with a rotation, see `C153_rotation_refuted`). -/
theorem C153_placement_partial (w h s r ox oy : ℝ) (p q z : P ℝ) :
    (plotMatrix w h s 0 ox oy).apply p = onPage w h s 0 ox oy p ∧
    sqDist ((plotMatrix w h s r ox oy).apply p) ((plotMatrix w h s r ox oy).apply q) = (s / 10) ^ 2 * sqDist p q ∧
    side ⟨(plotMatrix w h s r ox oy).apply p, (plotMatrix w h s r ox oy).apply q⟩ ((plotMatrix w h s r ox oy).apply z) = (s / 10) ^ 2 * side ⟨p, q⟩ z := by
  refine ⟨?_, ?_, ?_⟩
  · rw [plotMatrix_apply]
    apply P.ext_real <;> simp [onPage]
  · rw [plotMatrix_apply, plotMatrix_apply]
    have := Real.sin_sq_add_cos_sq r
    unfold sqDist
    dsimp only
    linear_combination ((s / 10) ^ 2 * (p.x - q.x) ^ 2 + (s / 10) ^ 2 * (p.y - q.y) ^ 2) * this
  · rw [plotMatrix_apply, plotMatrix_apply, plotMatrix_apply]
    have := Real.sin_sq_add_cos_sq r
    unfold side leftArea2
    dsimp only
    linear_combination ((s / 10) ^ 2 * ((q.x - p.x) * (z.y - p.y) - (q.y - p.y) * (z.x - p.x))) * this

/-- **C153 (refuted): the rotation.**  The tiling is turned about the corner of the page, after it was moved to the middle: the middle of the tiling is drawn where it belongs only if the rotation is by full turns, or that place is the corner
itself. -/
theorem C153_rotation_refuted (w h s r ox oy : ℝ) :
    (plotMatrix w h s r ox oy).apply ⟨0, 0⟩ = onPage w h s r ox oy ⟨0, 0⟩ ↔ Real.cos r = 1 ∨ (w / 2 + ox = 0 ∧ h / 2 + oy = 0) := by
  rw [plotMatrix_apply]
  set a := w / 2 + ox with ha
  set b := h / 2 + oy with hb
  have hsc := Real.sin_sq_add_cos_sq r
  constructor
  · intro e
    have e1 := congrArg P.x e
    have e2 := congrArg P.y e
    simp only [onPage, mul_zero, add_zero, sub_zero, ← ha, ← hb] at e1 e2
    by_contra hcon
    push Not at hcon
    obtain ⟨h1, h2⟩ := hcon
    have hz : (2 - 2 * Real.cos r) * (a ^ 2 + b ^ 2) = 0 := by
      have : (Real.cos r * a - Real.sin r * b - a) ^ 2 + (Real.sin r * a + Real.cos r * b - b) ^ 2 = 0 := by rw [e1, e2]; ring
      linear_combination this - (a ^ 2 + b ^ 2) * hsc
    rcases mul_eq_zero.1 hz with h3 | h3
    · exact h1 (by linarith)
    · have hA : a = 0 := by nlinarith [sq_nonneg a, sq_nonneg b]
      exact h2 hA (by rw [hA] at h3; nlinarith [sq_nonneg b])
  · rintro (h1 | ⟨h1, h2⟩)
    · have : Real.sin r = 0 := by
        have : Real.sin r ^ 2 = 0 := by rw [h1] at hsc; linarith
        exact pow_eq_zero_iff (two_ne_zero) |>.1 this
      apply P.ext_real <;> simp [onPage, h1, this, ← ha, ← hb]
    · apply P.ext_real <;> simp [onPage, h1, h2, ← ha, ← hb]

/-- Non-vacuity: a quarter turn on a page of 100 by 100 moves the middle of the tiling off the page. -/
example : (plotMatrix (100 : ℝ) 100 1 (Real.pi / 2) 0 0).apply ⟨0, 0⟩ = ⟨-50, 50⟩ := by
  rw [plotMatrix_apply]
  apply P.ext_real <;> norm_num [Real.cos_pi_div_two, Real.sin_pi_div_two]

/-! ## The clipping region -/

/-- Specification: a point of the page. -/
def OnDoc (o : ClipOpts ℝ) (p : P ℝ) : Prop := 0 < p.x ∧ p.x < o.docWidth ∧ 0 < p.y ∧ p.y < o.docHeight

/-- Specification: a point that keeps the distances set for the margins from the four edges of the page. -/
def KeepsMargins (o : ClipOpts ℝ) (p : P ℝ) : Prop :=
  o.marginLeft < p.x ∧ p.x < o.docWidth - o.marginRight ∧ o.marginTop < p.y ∧ p.y < o.docHeight - o.marginBottom

/-- Specification: the user's choice of where to draw. -/
def Wanted (o : ClipOpts ℝ) (p : P ℝ) : Prop := (o.toDoc = true → OnDoc o p) ∧ (o.toMargins = true → KeepsMargins o p)

/-- The margins leave something of the page's width and height. -/
structure Fits (o : ClipOpts ℝ) : Prop where
  width : 0 ≤ o.docWidth
  height : 0 ≤ o.docHeight
  across : o.marginLeft ≤ o.docWidth - o.marginRight
  down : o.marginTop ≤ o.docHeight - o.marginBottom

theorem docRect_eq (o : ClipOpts ℝ) (hf : Fits o) : Box.mk' ⟨zero, zero⟩ ⟨o.docWidth, o.docHeight⟩ = (⟨⟨0, 0⟩, ⟨o.docWidth, o.docHeight⟩⟩ : Box ℝ) := by
  have := hf.width; have := hf.height
  simp [Box.mk', pmin_real, pmax_real, *]

theorem marginRect_eq (o : ClipOpts ℝ) (hf : Fits o) :
    marginRect o = (⟨⟨o.marginLeft, o.marginTop⟩, ⟨o.docWidth - o.marginRight, o.docHeight - o.marginBottom⟩⟩ : Box ℝ) := by
  have := hf.across; have := hf.down
  simp [marginRect, Box.mk', P.sub, pmin_real, pmax_real, *]

/-- Specification: page and margins have a point in common (which is only asked for if both count). -/
def Overlap (o : ClipOpts ℝ) : Prop :=
  o.marginLeft ≤ o.docWidth ∧ 0 ≤ o.docWidth - o.marginRight ∧ o.marginTop ≤ o.docHeight ∧ 0 ≤ o.docHeight - o.marginBottom

theorem clipRect_spec (o : ClipOpts ℝ) (hf : Fits o) (ho : o.toDoc = true → o.toMargins = true → Overlap o) :
    (clipRect o = none ∧ o.toDoc = false ∧ o.toMargins = false) ∨
    (∃ r, clipRect o = some r ∧ (o.toDoc = true ∨ o.toMargins = true) ∧ r.p1.x ≤ r.p2.x ∧ r.p1.y ≤ r.p2.y ∧
      ∀ p, Wanted o p ↔ r.p1.x < p.x ∧ p.x < r.p2.x ∧ r.p1.y < p.y ∧ p.y < r.p2.y) := by
  have hw := hf.width; have hh := hf.height; have ha := hf.across; have hd := hf.down
  unfold clipRect
  dsimp only
  rw [docRect_eq o hf, marginRect_eq o hf]
  cases h1 : o.toDoc <;> cases h2 : o.toMargins
  · exact .inl ⟨by simp, rfl, rfl⟩
  · refine .inr ⟨⟨⟨o.marginLeft, o.marginTop⟩, ⟨o.docWidth - o.marginRight, o.docHeight - o.marginBottom⟩⟩, by simp, by simp, by simpa using ha, by simpa using hd, fun p => ?_⟩
    simp [Wanted, KeepsMargins, h1, h2]
  · refine .inr ⟨⟨⟨0, 0⟩, ⟨o.docWidth, o.docHeight⟩⟩, by simp, by simp, by simpa using hw, by simpa using hh, fun p => ?_⟩
    simp [Wanted, OnDoc, h1, h2]
  · obtain ⟨o1, o2, o3, o4⟩ := ho h1 h2
    refine .inr ⟨⟨⟨max 0 o.marginLeft, max 0 o.marginTop⟩, ⟨min o.docWidth (o.docWidth - o.marginRight), min o.docHeight (o.docHeight - o.marginBottom)⟩⟩, ?_, by simp, ?_, ?_, fun p => ?_⟩
    · simp only [Bool.and_self, if_true]
      rw [box_inter]
      dsimp only
      rw [if_neg]
      push Not
      exact ⟨le_min (max_le hw o1) (max_le o2 ha), le_min (max_le hh o3) (max_le o4 hd)⟩
    · exact le_min (max_le hw o1) (max_le o2 ha)
    · exact le_min (max_le hh o3) (max_le o4 hd)
    · simp only [Wanted, OnDoc, KeepsMargins, h1, h2, true_implies, max_lt_iff, lt_min_iff]
      tauto

/-- The circle of the clipping region. -/
theorem clipRegion_circle (o : ClipOpts ℝ) (r : Box ℝ) (hc : o.toCircle = true) (h : clipRect o = some r) (hx : r.p1.x ≤ r.p2.x) (hy : r.p1.y ≤ r.p2.y) :
    ∃ e, clipRegion o = .ellipse e ∧ e.center = ⟨(r.p1.x + r.p2.x) / 2, (r.p1.y + r.p2.y) / 2⟩ ∧ e.rx = min (r.p2.x - r.p1.x) (r.p2.y - r.p1.y) / 2 ∧ e.ry = e.rx := by
  have hm : 0 ≤ min (r.p2.x - r.p1.x) (r.p2.y - r.p1.y) / 2 := div_nonneg (le_min (by linarith) (by linarith)) (by norm_num)
  unfold clipRegion
  rw [h]
  simp only [hc, if_true]
  refine ⟨_, rfl, ?_, ?_, ?_⟩
  · unfold Ell.mk'
    simp only [Box.center, P.add]
    apply P.ext_real <;> simp <;> ring
  all_goals
    unfold Ell.mk'
    simp [pmin_real, pmax_real, abs_of_nonneg hm]

/-- **C153 (where it is drawn).** If the margins leave something of the page, the clipping region is what the user chose: the inside of the page, of the margins, of both, or everything; with the circle option it is a circle about the middle of
that rectangle that lies in it and cannot be larger (missing: margins that leave nothing, see `C153_margins_refuted`). -/
theorem C153_region_partial (o : ClipOpts ℝ) (hf : Fits o) (ho : o.toDoc = true → o.toMargins = true → Overlap o) :
    (o.toCircle = false → ∀ p, InRegion (clipRegion o) p ↔ Wanted o p) ∧
    (o.toCircle = true → (o.toDoc = true ∨ o.toMargins = true) →
      ∃ e, clipRegion o = .ellipse e ∧ e.rx = e.ry ∧ (∀ p, InRegion (clipRegion o) p → Wanted o p) ∧
        (∀ p, Wanted o p → Wanted o ⟨2 * e.center.x - p.x, 2 * e.center.y - p.y⟩) ∧
        ∀ r, e.rx < r → ∃ p, sqDist p e.center < r ^ 2 ∧ ¬ Wanted o p) ∧
    (o.toDoc = false → o.toMargins = false → ∀ p, InRegion (clipRegion o) p) := by
  rcases clipRect_spec o hf ho with ⟨hn, h1, h2⟩ | ⟨r, hr, hany, hx, hy, hw⟩
  · have he : clipRegion o = .all := by unfold clipRegion; rw [hn]
    refine ⟨fun _ p => ?_, fun _ h => ?_, fun _ _ p => ?_⟩
    · simp [he, InRegion, Wanted, h1, h2]
    · rw [h1, h2] at h; simp at h
    · simp [he, InRegion]
  · refine ⟨fun hc p => ?_, fun hc _ => ?_, fun h1 h2 => ?_⟩
    · have he : clipRegion o = .box r := by unfold clipRegion; rw [hr]; simp [hc]
      rw [he, hw p]
      rfl
    · obtain ⟨e, e1, e2, e3, e4⟩ := clipRegion_circle o r hc hr hx hy
      refine ⟨e, e1, e4.symm, fun p hp => ?_, fun p hp => ?_, fun ρ hρ => ?_⟩
      · rw [e1] at hp
        simp only [InRegion, sqDist] at hp
        rw [hw p]
        have m1 : e.rx ≤ (r.p2.x - r.p1.x) / 2 := by rw [e3]; linarith [min_le_left (r.p2.x - r.p1.x) (r.p2.y - r.p1.y)]
        have m2 : e.rx ≤ (r.p2.y - r.p1.y) / 2 := by rw [e3]; linarith [min_le_right (r.p2.x - r.p1.x) (r.p2.y - r.p1.y)]
        have m0 : 0 ≤ e.rx := by rw [e3]; exact div_nonneg (le_min (by linarith) (by linarith)) (by norm_num)
        have a1 := abs_lt_of_sq_lt_sq (show (p.x - e.center.x) ^ 2 < e.rx ^ 2 by nlinarith [sq_nonneg (p.y - e.center.y)]) m0
        have a2 := abs_lt_of_sq_lt_sq (show (p.y - e.center.y) ^ 2 < e.rx ^ 2 by nlinarith [sq_nonneg (p.x - e.center.x)]) m0
        rw [e2] at a1 a2
        rw [abs_lt] at a1 a2
        dsimp only at a1 a2
        exact ⟨by linarith, by linarith, by linarith, by linarith⟩
      · rw [hw] at hp ⊢
        rw [e2]
        dsimp only
        exact ⟨by linarith, by linarith, by linarith, by linarith⟩
      · have m0 : 0 ≤ e.rx := by rw [e3]; exact div_nonneg (le_min (by linarith) (by linarith)) (by norm_num)
        rcases le_total (r.p2.x - r.p1.x) (r.p2.y - r.p1.y) with hle | hle
        · rw [min_eq_left hle] at e3
          refine ⟨⟨r.p1.x, (r.p1.y + r.p2.y) / 2⟩, ?_, fun h => ?_⟩
          · rw [e2]
            simp only [sqDist]
            have : e.rx ^ 2 < ρ ^ 2 := by nlinarith
            rw [e3] at this
            linarith
          · exact lt_irrefl _ ((hw _).1 h).1
        · rw [min_eq_right hle] at e3
          refine ⟨⟨(r.p1.x + r.p2.x) / 2, r.p1.y⟩, ?_, fun h => ?_⟩
          · rw [e2]
            simp only [sqDist]
            have : e.rx ^ 2 < ρ ^ 2 := by nlinarith
            rw [e3] at this
            linarith
          · exact lt_irrefl _ ((hw _).1 h).2.2.1
    · rw [h1, h2] at hany; simp at hany

/-- **C153 (refuted): margins that leave nothing.**  If page and margins are both to be respected but have no point in common, nothing is clipped at all; and margins that together are wider and higher than the page are taken the other way
round, so that what is drawn is what keeps none of them. -/
theorem C153_margins_refuted (o : ClipOpts ℝ) :
    (Fits o → o.toDoc = true → o.toMargins = true → ¬ Overlap o → ∀ p, InRegion (clipRegion o) p ∧ ¬ Wanted o p) ∧
    (o.toDoc = false → o.toMargins = true → o.toCircle = false → o.docWidth - o.marginRight < o.marginLeft → o.docHeight - o.marginBottom < o.marginTop →
      ∀ p, (InRegion (clipRegion o) p ↔ o.docWidth - o.marginRight < p.x ∧ p.x < o.marginLeft ∧ o.docHeight - o.marginBottom < p.y ∧ p.y < o.marginTop) ∧ ¬ Wanted o p) := by
  constructor
  · intro hf h1 h2 ho p
    have hn : clipRect o = none := by
      unfold clipRect
      dsimp only
      rw [docRect_eq o hf, marginRect_eq o hf]
      simp only [h1, h2, Bool.and_self, if_true]
      rw [box_inter]
      dsimp only
      rw [if_pos]
      by_contra hcon
      push Not at hcon
      refine ho ⟨?_, ?_, ?_, ?_⟩
      · exact (le_max_right _ _).trans (hcon.1.trans (min_le_left _ _))
      · exact (le_max_left _ _).trans (hcon.1.trans (min_le_right _ _))
      · exact (le_max_right _ _).trans (hcon.2.trans (min_le_left _ _))
      · exact (le_max_left _ _).trans (hcon.2.trans (min_le_right _ _))
    constructor
    · unfold clipRegion; rw [hn]; trivial
    · rintro ⟨w1, w2⟩
      obtain ⟨a1, a2, a3, a4⟩ := w1 h1
      obtain ⟨b1, b2, b3, b4⟩ := w2 h2
      exact ho ⟨(b1.trans a2).le, (a1.trans b2).le, (b3.trans a4).le, (a3.trans b4).le⟩
  · intro h1 h2 h3 hx hy p
    constructor
    · have : clipRegion o = .box (⟨⟨o.docWidth - o.marginRight, o.docHeight - o.marginBottom⟩, ⟨o.marginLeft, o.marginTop⟩⟩ : Box ℝ) := by
        unfold clipRegion clipRect marginRect
        simp [h1, h2, h3, Box.mk', P.sub, pmin_real, pmax_real, hx.le, hy.le]
      rw [this]
      rfl
    · rintro ⟨-, w2⟩
      obtain ⟨b1, b2, -, -⟩ := w2 h2
      linarith

/-- Non-vacuity: an A4 page with margins of 20; and margins of 150 on a page of 210 by 297. -/
example : Fits ⟨1/1000, 210, 297, 20, 20, 20, 20, true, true, true, false⟩ ∧ Overlap ⟨1/1000, 210, 297, 20, 20, 20, 20, true, true, true, false⟩ ∧
    ¬ Overlap ⟨1/1000, 210, 297, 250, 20, -100, 20, true, true, false, false⟩ ∧ Fits ⟨1/1000, 210, 297, 250, 20, -100, 20, true, true, false, false⟩ := by
  refine ⟨⟨?_, ?_, ?_, ?_⟩, ⟨?_, ?_, ?_, ?_⟩, ?_, ⟨?_, ?_, ?_, ?_⟩⟩ <;> norm_num [Overlap]

/-- **C153 (centred).** With the centering option the middle of the tiling is put in the middle of the clipping rectangle; without it nothing is added. -/
theorem C153_centered_partial (o : ClipOpts ℝ) (hf : Fits o) (ho : o.toDoc = true → o.toMargins = true → Overlap o) :
    (o.offsetCenter = false → centerOffset o = .ok ⟨0, 0⟩) ∧
    (o.offsetCenter = true → (o.toDoc = true ∨ o.toMargins = true) → ∃ v, centerOffset o = .ok v ∧
      ∀ p, Wanted o p → Wanted o ⟨2 * (o.docWidth / 2 + v.x) - p.x, 2 * (o.docHeight / 2 + v.y) - p.y⟩) := by
  constructor
  · intro h; unfold centerOffset; simp [h]
  · intro h hany
    rcases clipRect_spec o hf ho with ⟨hn, h1, h2⟩ | ⟨r, hr, -, hx, hy, hw⟩
    · rw [h1, h2] at hany; simp at hany
    · unfold centerOffset
      rw [hr]
      simp only [h, if_true]
      refine ⟨_, rfl, fun p hp => ?_⟩
      rw [hw] at hp ⊢
      simp only [Box.center, P.add, P.sub, real_add, real_sub, real_div, real_ofInt, Int.cast_ofNat]
      exact ⟨by linarith, by linarith, by linarith, by linarith⟩

/-- **C153 (refuted): centering.**  Centering without clipping, or with page and margins that have no point in common, raises `AttributeError`. -/
theorem C153_centered_refuted (o : ClipOpts ℝ) (h : o.offsetCenter = true) (hn : (o.toDoc = false ∧ o.toMargins = false) ∨ (Fits o ∧ o.toDoc = true ∧ o.toMargins = true ∧ ¬ Overlap o)) :
    centerOffset o = .error .attributeError := by
  have hr : clipRect o = none := by
    rcases hn with ⟨h1, h2⟩ | ⟨hf, h1, h2, ho⟩
    · unfold clipRect; simp [h1, h2]
    · cases hc : clipRect o with
      | none => rfl
      | some r =>
        exfalso
        have hp := ((C153_margins_refuted o).1 hf h1 h2 ho)
        unfold clipRect at hc
        simp only [h1, h2, Bool.and_self, if_true] at hc
        rw [docRect_eq o hf, marginRect_eq o hf, box_inter] at hc
        dsimp only at hc
        split at hc
        · cases hc
        · rename_i hcon
          push Not at hcon
          exact ho ⟨(le_max_right _ _).trans (hcon.1.trans (min_le_left _ _)), (le_max_left _ _).trans (hcon.1.trans (min_le_right _ _)),
            (le_max_right _ _).trans (hcon.2.trans (min_le_left _ _)), (le_max_left _ _).trans (hcon.2.trans (min_le_right _ _))⟩
  unfold centerOffset
  simp [h, hr]

/-! ## Re-centering -/

/-- Specification: a point moved by a vector. -/
def movedBy (v : P ℝ) (p : P ℝ) : P ℝ := ⟨p.x + v.x, p.y + v.y⟩

/-- **C153 (re-centering).** With a circle, re-centering moves all tiles and segments by one and the same vector, so that the middle of their bounding box becomes the centre of the circle; nothing else changes (missing: the boxes, and
rectangles, see `C153_recenter_refuted`). -/
theorem C153_recenter_partial (o : PlotOpts ℝ) (pl : Plot ℝ) (e : Ell ℝ) (he : o.region = .ellipse e) (hx : pl.xmin ≤ pl.xmax) (hy : pl.ymin ≤ pl.ymax) :
    ∃ v pl', recenter o pl = .ok pl' ∧ pl'.polygons = pl.polygons.map (fun poly => poly.map (movedBy v)) ∧
      pl'.segments = pl.segments.map (fun s => ⟨movedBy v s.p1, movedBy v s.p2⟩) ∧ pl'.bbox = ⟨movedBy v pl.bbox.p1, movedBy v pl.bbox.p2⟩ ∧
      (pl'.bbox.p1.x + pl'.bbox.p2.x) / 2 = e.center.x ∧ (pl'.bbox.p1.y + pl'.bbox.p2.y) / 2 = e.center.y ∧
      pl'.polygonColors = pl.polygonColors ∧ pl'.colorCount = pl.colorCount := by
  unfold recenter
  rw [he]
  dsimp only
  have hadd : ∀ a b : P ℝ, a.add b = movedBy b a := fun a b => by apply P.ext_real <;> simp [P.add, movedBy]
  refine ⟨e.center.sub ⟨pl.xmin +. (pl.xmax -. pl.xmin) /. ofInt 2, pl.ymin +. (pl.ymax -. pl.ymin) /. ofInt 2⟩, _, rfl, ?_, ?_, ?_, ?_, ?_, rfl, rfl⟩
  · simp only [hadd]
  · simp only [hadd]
  · simp [Plot.bbox, Box.mk', pmin_real, pmax_real, P.sub, movedBy, hx, hy]
  · simp [Plot.bbox, Box.mk', pmin_real, pmax_real, P.sub, hx]; ring
  · simp [Plot.bbox, Box.mk', pmin_real, pmax_real, P.sub, hy]; ring

/-- Three triangles in a circle of radius 5 (the numbers of the colours are all 0): their bounding box goes from (-3.4, -3.4) to (4.9, 4.9). -/
noncomputable def scattered : Plot ℝ :=
  ⟨[[⟨-3.4, -3.4⟩, ⟨0, 0⟩, ⟨0, -3⟩], [⟨4.9, 0⟩, ⟨4, 0⟩, ⟨4, 1⟩], [⟨0, 4.9⟩, ⟨0, 4⟩, ⟨1, 4⟩]], [0, 0, 0], [], [[⟨0, 0⟩, ⟨1, 0⟩, ⟨1, 1⟩]], [1], [(0, 3)], [(1, 1)], -3.4, -3.4, 4.9, 4.9⟩

/-- The circle about the origin. -/
noncomputable def circleFive : PlotOpts ℝ := ⟨1/1000, 10^300, 1/10^300, .ellipse ⟨⟨0, 0⟩, 5, 5, 0⟩, ⟨1, 0, 0, 0, 1, 0⟩, none⟩

/-- **C153 (refuted): re-centering.**  With a rectangle it always raises `TypeError`.  With a circle the boxes stay where they were while the tiles they belong to are moved; and tiles that were inside the circle can be moved out of it. -/
theorem C153_recenter_refuted :
    (∀ (o : PlotOpts ℝ) (b : Box ℝ) (pl : Plot ℝ), o.region = .box b → recenter o pl = .error .typeError) ∧
    (∀ (o : PlotOpts ℝ) (e : Ell ℝ) (pl pl' : Plot ℝ), o.region = .ellipse e → recenter o pl = .ok pl' → pl'.segpolys = pl.segpolys) ∧
    (∀ t ∈ scattered.polygons, ∀ p ∈ t, InRegion circleFive.region p) ∧
    ∃ pl', recenter circleFive scattered = .ok pl' ∧ ∃ t ∈ pl'.polygons, ∃ p ∈ t, ¬ InRegion circleFive.region p := by
  refine ⟨fun o b pl h => ?_, fun o e pl pl' h hr => ?_, ?_, ?_⟩
  · unfold recenter; rw [h]
  · unfold recenter at hr; rw [h] at hr; cases hr; rfl
  · simp only [scattered, circleFive, InRegion, List.mem_cons, List.not_mem_nil, or_false]
    rintro t (rfl | rfl | rfl) p hp <;> simp only [List.mem_cons, List.not_mem_nil, or_false] at hp <;> rcases hp with rfl | rfl | rfl <;> norm_num [sqDist]
  · refine ⟨_, rfl, _, List.mem_cons_self .., _, List.mem_cons_self .., ?_⟩
    simp only [circleFive, scattered, InRegion, P.add, P.sub, sqDist, real_add, real_sub, real_div, real_ofInt]
    norm_num

end Verif.Ext
