import Verif.Geom.Props5

/-!
# C61: arcs under isometries, exactly
-/

set_option linter.unusedSectionVars false

namespace Verif.Geom
open Verif PyFloat PyTrig

/-- Specification: the matrix is an isometry of the plane. -/
def Mat.Isometry (m : Mat ℝ) : Prop := m.a ^ 2 + m.d ^ 2 = 1 ∧ m.b ^ 2 + m.e ^ 2 = 1 ∧ m.a * m.b + m.d * m.e = 0

/-- Specification: the determinant. -/
def Mat.det (m : Mat ℝ) : ℝ := m.a * m.e - m.b * m.d

/-- Isometries keep distances. -/
theorem Mat.Isometry.dist {m : Mat ℝ} (h : m.Isometry) (p q : P ℝ) : sqDist (m.apply p) (m.apply q) = sqDist p q := by
  obtain ⟨h1, h2, h3⟩ := h
  simp only [sqDist, Mat.apply, real_add, real_mul]
  linear_combination (p.x - q.x) ^ 2 * h1 + (p.y - q.y) ^ 2 * h2 + 2 * (p.x - q.x) * (p.y - q.y) * h3

/-- The two kinds of isometries. -/
theorem Mat.Isometry.kinds {m : Mat ℝ} (h : m.Isometry) : (m.det = 1 ∧ m.e = m.a ∧ m.b = -m.d) ∨ (m.det = -1 ∧ m.e = -m.a ∧ m.b = m.d) := by
  obtain ⟨h1, h2, h3⟩ := h
  have hdet : m.det ^ 2 = 1 := by
    unfold Mat.det
    have : (m.a * m.e - m.b * m.d) ^ 2 + (m.a * m.b + m.d * m.e) ^ 2 = (m.a ^ 2 + m.d ^ 2) * (m.b ^ 2 + m.e ^ 2) := by ring
    rw [h1, h2, h3] at this
    linarith
  have he : m.e = m.det * m.a := by unfold Mat.det; linear_combination (-m.e) * h1 + m.d * h3
  have hb : m.b = -(m.det * m.d) := by unfold Mat.det; linear_combination (-m.b) * h1 + m.a * h3
  have hcases : m.det = 1 ∨ m.det = -1 := by
    have : (m.det - 1) * (m.det + 1) = 0 := by linear_combination hdet
    rcases mul_eq_zero.1 this with h | h
    · left; linarith
    · right; linarith
  rcases hcases with hd | hd
  · left; rw [hd] at he hb; exact ⟨hd, by linarith, by linarith⟩
  · right; rw [hd] at he hb; exact ⟨hd, by linarith, by linarith⟩

/-- A point is determined by its distance from the ends of a chord and its side. -/
theorem centre_unique {p1 p2 c c' : P ℝ} {r : ℝ} (hne : sqDist p1 p2 ≠ 0) (h1 : sqDist c p1 = r ^ 2) (h2 : sqDist c p2 = r ^ 2) (h1' : sqDist c' p1 = r ^ 2)
    (h2' : sqDist c' p2 = r ^ 2) (hs : 0 ≤ side ⟨p1, p2⟩ c * side ⟨p1, p2⟩ c') : c = c' := by
  unfold side leftArea2 at hs
  unfold sqDist at *
  dsimp only at hs
  have hdot : (p2.x - p1.x) * (c.x - p1.x) + (p2.y - p1.y) * (c.y - p1.y) = (p2.x - p1.x) * (c'.x - p1.x) + (p2.y - p1.y) * (c'.y - p1.y) := by
    linear_combination (1 / 2) * h1 - (1 / 2) * h2 - (1 / 2) * h1' + (1 / 2) * h2'
  have hsq : ((p2.x - p1.x) * (c.y - p1.y) - (c.x - p1.x) * (p2.y - p1.y)) ^ 2 = ((p2.x - p1.x) * (c'.y - p1.y) - (c'.x - p1.x) * (p2.y - p1.y)) ^ 2 := by
    have e1 : ((p2.x - p1.x) * (c.y - p1.y) - (c.x - p1.x) * (p2.y - p1.y)) ^ 2 =
        ((p2.x - p1.x) ^ 2 + (p2.y - p1.y) ^ 2) * r ^ 2 - ((p2.x - p1.x) * (c.x - p1.x) + (p2.y - p1.y) * (c.y - p1.y)) ^ 2 := by
      linear_combination ((p2.x - p1.x) ^ 2 + (p2.y - p1.y) ^ 2) * h1
    have e2 : ((p2.x - p1.x) * (c'.y - p1.y) - (c'.x - p1.x) * (p2.y - p1.y)) ^ 2 =
        ((p2.x - p1.x) ^ 2 + (p2.y - p1.y) ^ 2) * r ^ 2 - ((p2.x - p1.x) * (c'.x - p1.x) + (p2.y - p1.y) * (c'.y - p1.y)) ^ 2 := by
      linear_combination ((p2.x - p1.x) ^ 2 + (p2.y - p1.y) ^ 2) * h1'
    rw [e1, e2, hdot]
  have hcross : (p2.x - p1.x) * (c.y - p1.y) - (c.x - p1.x) * (p2.y - p1.y) = (p2.x - p1.x) * (c'.y - p1.y) - (c'.x - p1.x) * (p2.y - p1.y) := by
    rcases sq_eq_sq_iff_eq_or_eq_neg.1 hsq with h | h
    · exact h
    · rw [h] at hs
      have : ((p2.x - p1.x) * (c'.y - p1.y) - (c'.x - p1.x) * (p2.y - p1.y)) = 0 := by
        nlinarith [sq_nonneg ((p2.x - p1.x) * (c'.y - p1.y) - (c'.x - p1.x) * (p2.y - p1.y))]
      rw [h, this]; ring
  have hpos : (p1.x - p2.x) ^ 2 + (p1.y - p2.y) ^ 2 ≠ 0 := by
    simpa using hne
  apply P.ext_real
  · apply mul_left_cancel₀ hpos
    linear_combination (p2.x - p1.x) * hdot - (p2.y - p1.y) * hcross
  · apply mul_left_cancel₀ hpos
    linear_combination (p2.y - p1.y) * hdot + (p2.x - p1.x) * hcross

theorem side_rot (c p : P ℝ) (t : ℝ) : side ⟨p, rotAbout c t p⟩ c = sqDist p c * Real.sin t := by
  unfold side leftArea2 rotAbout sqDist
  dsimp only
  ring

/-- An isometry keeps the side of a point up to the sign of its determinant. -/
theorem side_apply (m : Mat ℝ) (p q c : P ℝ) : side ⟨m.apply p, m.apply q⟩ (m.apply c) = m.det * side ⟨p, q⟩ c := by
  unfold side leftArea2 Mat.det
  simp only [Mat.apply, real_add, real_mul]
  ring

/-- Rotations and isometries. -/
theorem rot_apply {m : Mat ℝ} (h : m.Isometry) (c p : P ℝ) (t : ℝ) : m.apply (rotAbout c t p) = rotAbout (m.apply c) (m.det * t) (m.apply p) := by
  rcases h.kinds with ⟨hd, he, hb⟩ | ⟨hd, he, hb⟩
  · rw [hd, one_mul]
    apply P.ext_real <;> simp only [Mat.apply, rotAbout, real_add, real_mul, he, hb] <;> ring
  · rw [hd, show -1 * t = -t by ring]
    apply P.ext_real <;> simp only [Mat.apply, rotAbout, real_add, real_mul, Real.cos_neg, Real.sin_neg, he, hb] <;> ring

/-- **C61**, isometries: an arc of at most half a turn, transformed by an isometry (a translation, rotation or reflection, in any combination) that does not exchange the axes, is exactly its
image: the ends and the centre are the images, the radius is the same, and the angle is the same or, for a reflection, the opposite one, so that it is again
the arc from the one end to the other. -/
theorem C61_isometry_partial (eps : ℝ) (heps : 0 < eps) (a : Arc ℝ) (m : Mat ℝ) (hm : m.Isometry) (hma : m.a ≠ 0) (hon : a.OnCircle) (hrot : rotAbout a.center a.angle a.p1 = a.p2)
    (hang : |a.angle| ≤ Real.pi) (hd : eps ^ 2 ≤ sqDist a.p1 a.p2) :
    a.transform eps m = .ok ⟨m.apply a.p1, m.apply a.p2, a.radius, m.det * a.angle, m.apply a.center⟩ ∧
      rotAbout (m.apply a.center) (m.det * a.angle) (m.apply a.p1) = m.apply a.p2 ∧
      (⟨m.apply a.p1, m.apply a.p2, a.radius, m.det * a.angle, m.apply a.center⟩ : Arc ℝ).OnCircle := by
  have hpos : 0 < sqDist a.p1 a.p2 := lt_of_lt_of_le (by positivity) hd
  have hiso := hm.dist a.p1 a.p2
  have hsign : (if m.a * m.e < 0 then -a.angle else a.angle) = m.det * a.angle := by
    rcases hm.kinds with ⟨h1, he, -⟩ | ⟨h1, he, -⟩
    · rw [h1, he, if_neg (not_lt.2 (mul_self_nonneg _)), one_mul]
    · rw [h1, he, if_pos (by have := mul_self_pos.2 hma; linarith)]; ring
  have habs : |m.a| = |m.e| := by
    rcases hm.kinds with ⟨-, he, -⟩ | ⟨-, he, -⟩ <;> rw [he]
    rw [abs_neg]
  have hdet : m.det = 1 ∨ m.det = -1 := hm.kinds.imp (fun h => h.1) fun h => h.1
  have hrot' : rotAbout (m.apply a.center) (m.det * a.angle) (m.apply a.p1) = m.apply a.p2 := by rw [← rot_apply hm, hrot]
  have hon1 : sqDist (m.apply a.center) (m.apply a.p1) = a.radius ^ 2 := by rw [hm.dist, sqDist_comm]; exact hon.2.1
  have hon2 : sqDist (m.apply a.center) (m.apply a.p2) = a.radius ^ 2 := by rw [hm.dist, sqDist_comm]; exact hon.2.2
  refine ⟨?_, hrot', hon.1, by rw [sqDist_comm]; exact hon1, by rw [sqDist_comm]; exact hon2⟩
  rw [transform_real eps a m habs hpos.ne', hiso, div_self hpos.ne', mul_one, hsign]
  have hchord : segLen ⟨m.apply a.p1, m.apply a.p2⟩ / 2 ≤ |a.radius| := by
    have h1 := sqDist_comm (m.apply a.p1) (m.apply a.p2)
    have hp : sqDist (m.apply a.p1) (m.apply a.p2) ≤ (2 * |a.radius|) ^ 2 := by
      unfold sqDist at hon1 hon2 ⊢
      rw [mul_pow, sq_abs]
      nlinarith [sq_nonneg ((m.apply a.p1).x + (m.apply a.p2).x - 2 * (m.apply a.center).x), sq_nonneg ((m.apply a.p1).y + (m.apply a.p2).y - 2 * (m.apply a.center).y)]
    have : segLen ⟨m.apply a.p1, m.apply a.p2⟩ ≤ 2 * |a.radius| := by
      unfold segLen
      exact Real.sqrt_le_iff.2 ⟨by positivity, hp⟩
    linarith
  obtain ⟨c, hc, h1, h2, h3, h4, -⟩ := (C59_calc_center eps heps (m.apply a.p1) (m.apply a.p2) a.radius (m.det * a.angle) (by rw [hiso]; exact hd)).1 hchord
  have hcc : c = m.apply a.center := by
    refine centre_unique (by rw [hiso]; exact hpos.ne') h1 h2 hon1 hon2 ?_
    have hs := side_rot (m.apply a.center) (m.apply a.p1) (m.det * a.angle)
    rw [hrot'] at hs
    have hnn : 0 ≤ sqDist (m.apply a.p1) (m.apply a.center) := by unfold sqDist; positivity
    have hb : |m.det * a.angle| ≤ Real.pi := by
      rw [abs_mul]
      rcases hdet with h | h <;> rw [h] <;> simpa using hang
    rw [abs_le] at hb
    rcases lt_or_ge 0 (m.det * a.angle) with hp | hp
    · rw [hs]
      exact mul_nonneg (h3 hp) (mul_nonneg hnn (Real.sin_nonneg_of_nonneg_of_le_pi hp.le hb.2))
    · rw [hs]
      exact mul_nonneg_of_nonpos_of_nonpos (h4 hp) (mul_nonpos_of_nonneg_of_nonpos hnn (Real.sin_nonpos_of_nonpos_of_neg_pi_le hp hb.1))
  unfold Arc.mk'
  rw [hc, hcc]
  rfl

/-- **C61** fails for reflections that exchange the axes: the arc is transformed with the wrong direction, and bulges to the other side of its chord: a quarter turn about the origin, from `(1, 0)` to `(0, 1)`, exchanged by
`x ↔ y`, goes from `(0, 1)` to `(1, 0)` about `(1, 1)` instead of the origin. -/
theorem C61_refuted_exchange : (⟨0, 1, 0, 1, 0, 0⟩ : Mat ℝ).Isometry ∧
    (⟨⟨1, 0⟩, ⟨0, 1⟩, 1, Real.pi / 2, ⟨0, 0⟩⟩ : Arc ℝ).OnCircle ∧ rotAbout ⟨0, 0⟩ (Real.pi / 2) ⟨1, 0⟩ = ⟨0, 1⟩ ∧
    (⟨⟨1, 0⟩, ⟨0, 1⟩, 1, Real.pi / 2, ⟨0, 0⟩⟩ : Arc ℝ).transform (1 / 1000) ⟨0, 1, 0, 1, 0, 0⟩ = .ok ⟨⟨0, 1⟩, ⟨1, 0⟩, 1, Real.pi / 2, ⟨1, 1⟩⟩ := by
  have hiso : (⟨0, 1, 0, 1, 0, 0⟩ : Mat ℝ).Isometry := by refine ⟨?_, ?_, ?_⟩ <;> norm_num
  refine ⟨hiso, ⟨by norm_num, by norm_num [sqDist], by norm_num [sqDist]⟩, ?_, ?_⟩
  · unfold rotAbout
    simp
  · rw [transform_real _ _ _ (by norm_num) (by norm_num [sqDist]), hiso.dist, div_self (by norm_num [sqDist])]
    have e1 : (⟨0, 1, 0, 1, 0, 0⟩ : Mat ℝ).apply ⟨1, 0⟩ = ⟨0, 1⟩ := by simp [Mat.apply]
    have e2 : (⟨0, 1, 0, 1, 0, 0⟩ : Mat ℝ).apply ⟨0, 1⟩ = ⟨1, 0⟩ := by simp [Mat.apply]
    dsimp only
    rw [e1, e2, if_neg (by norm_num)]
    unfold Arc.mk'
    obtain ⟨c, hc, h1, h2, h3, -⟩ := (C59_calc_center (1 / 1000) (by norm_num) (⟨0, 1⟩ : P ℝ) ⟨1, 0⟩ (1 * 1) (Real.pi / 2) (by norm_num [sqDist])).1 (by
      have : segLen (⟨⟨0, 1⟩, ⟨1, 0⟩⟩ : Line ℝ) ≤ 2 := by unfold segLen sqDist; rw [Real.sqrt_le_iff]; norm_num
      norm_num; linarith)
    have hcc : c = ⟨1, 1⟩ := by
      refine centre_unique (p1 := ⟨0, 1⟩) (p2 := ⟨1, 0⟩) (r := 1 * 1) (by norm_num [sqDist]) h1 h2 (by norm_num [sqDist]) (by norm_num [sqDist]) ?_
      refine mul_nonneg (h3 (by positivity)) ?_
      norm_num [side, leftArea2]
    rw [hc, hcc]
    norm_num [bind, Except.bind, pure, Except.pure]

/-- Non-vacuity of `C61_isometry_partial`: a quarter turn, reflected. -/
example : (⟨1, 0, 5, 0, -1, 7⟩ : Mat ℝ).Isometry ∧ (1 : ℝ) ≠ 0 ∧ (⟨⟨1, 0⟩, ⟨0, 1⟩, 1, Real.pi / 2, ⟨0, 0⟩⟩ : Arc ℝ).OnCircle ∧
    rotAbout (⟨0, 0⟩ : P ℝ) (Real.pi / 2) ⟨1, 0⟩ = ⟨0, 1⟩ ∧ |Real.pi / 2| ≤ Real.pi ∧ (1 / 1000 : ℝ) ^ 2 ≤ sqDist ⟨1, 0⟩ ⟨0, 1⟩ := by
  refine ⟨?_, by norm_num, ⟨by norm_num, by norm_num [sqDist], by norm_num [sqDist]⟩, by unfold rotAbout; simp, ?_, by norm_num [sqDist]⟩
  · refine ⟨?_, ?_, ?_⟩ <;> norm_num
  · rw [abs_of_pos (by positivity)]; linarith [Real.pi_pos]

end Verif.Geom
