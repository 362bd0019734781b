import Verif.Ext.Quasink
import Verif.Geom.Props9
import Mathlib.Analysis.SpecialFunctions.Trigonometric.Bounds

/-!
# C151: the spherical projection
-/

set_option linter.unusedSectionVars false

namespace Verif.Ext
open Verif PyFloat PyTrig Geom

/-- Specification: the distance of two points. -/
noncomputable def dist2 (p q : P ℝ) : ℝ := Real.sqrt (sqDist p q)

/-- Specification: the point in the direction of `p` from `c`, at `k` times the distance of `p`. -/
def along (c p : P ℝ) (k : ℝ) : P ℝ := ⟨c.x + k * (p.x - c.x), c.y + k * (p.y - c.y)⟩

/-- Specification: how far from the centre a point at distance `d` is drawn, on a sphere of radius `r`: seen from above, a point at the arc length `d` (scaled so that the equator is at `r`) is at `r sin`
of its angle. -/
noncomputable def bulge (r d : ℝ) : ℝ := r * Real.sin (d / r * (Real.pi / 2))

theorem sqDist_along (c p : P ℝ) (k : ℝ) : sqDist (along c p k) c = k ^ 2 * sqDist p c := by
  unfold sqDist along; ring

theorem dist2_along (c p : P ℝ) (k : ℝ) (hk : 0 ≤ k) : dist2 (along c p k) c = k * dist2 p c := by
  unfold dist2
  rw [sqDist_along, Real.sqrt_mul (by positivity), Real.sqrt_sq hk]

theorem sub_length (p c : P ℝ) : (p.sub c).length = dist2 p c := by
  have h : (p.sub c).length = p.distance c := rfl
  rw [h, distance_real]
  rfl

theorem angle_range {r d : ℝ} (hr : 0 < r) (h0 : 0 ≤ d) (h1 : d ≤ r) : 0 ≤ d / r * (Real.pi / 2) ∧ d / r * (Real.pi / 2) ≤ Real.pi / 2 := by
  have hpi := Real.pi_pos
  have h2 : d / r ≤ 1 := (div_le_one hr).2 h1
  have h3 : 0 ≤ d / r := by positivity
  exact ⟨by positivity, by nlinarith⟩

theorem bulge_strict {r d e : ℝ} (hr : 0 < r) (h0 : 0 ≤ d) (hde : d < e) (h1 : e ≤ r) : bulge r d < bulge r e := by
  have hpi := Real.pi_pos
  obtain ⟨a1, a2⟩ := angle_range hr h0 (hde.le.trans h1)
  obtain ⟨b1, b2⟩ := angle_range hr (h0.trans hde.le) h1
  refine mul_lt_mul_of_pos_left (Real.sin_lt_sin_of_lt_of_le_pi_div_two (by linarith) b2 ?_) hr
  have : d / r < e / r := div_lt_div_of_pos_right hde hr
  exact mul_lt_mul_of_pos_right this (by positivity)

theorem bulge_ge {r d : ℝ} (hr : 0 < r) (h0 : 0 ≤ d) (h1 : d ≤ r) : d ≤ bulge r d := by
  have hpi := Real.pi_pos
  obtain ⟨a1, a2⟩ := angle_range hr h0 h1
  have h := Real.mul_le_sin a1 a2
  have e : 2 / Real.pi * (d / r * (Real.pi / 2)) = d / r := by field_simp
  rw [e] at h
  unfold bulge
  calc d = r * (d / r) := by field_simp
    _ ≤ _ := mul_le_mul_of_nonneg_left h hr.le

theorem bulge_le {r d : ℝ} (hr : 0 < r) : bulge r d ≤ r := by
  unfold bulge
  nlinarith [Real.sin_le_one (d / r * (Real.pi / 2))]

theorem bulge_edge {r : ℝ} (hr : 0 < r) : bulge r r = r := by
  unfold bulge
  rw [div_self hr.ne', one_mul, Real.sin_pi_div_two, mul_one]

/-- **C151 (formula).** The spherical projection leaves every point outside the circle where it is, and moves a point inside along its ray from the centre to the distance at which it would be seen on the
sphere; inverted, a point inside comes as much closer to the centre as the sine of its angle says. -/
theorem C151_projection_partial (c p : P ℝ) (r : ℝ) (hr : 0 < r) (inv : Bool) :
    (r < dist2 p c → project (some ⟨c, r, inv⟩) p = .ok p) ∧
    (dist2 p c ≤ r → 0 < dist2 p c → project (some ⟨c, r, false⟩) p = .ok (along c p (bulge r (dist2 p c) / dist2 p c))) ∧
    (dist2 p c ≤ r → project (some ⟨c, r, true⟩) p = .ok (along c p (bulge r (dist2 p c) / r))) ∧
    project none p = .ok p := by
  have hang : dist2 p c * (Real.pi / 2) / r = dist2 p c / r * (Real.pi / 2) := by ring
  have hz : (zero : ℝ) = 0 := by simp [PyFloat.zero]
  refine ⟨?_, ?_, ?_, rfl⟩
  · intro h
    simp only [project, sub_length]
    rw [if_pos (by simpa using h)]
  · intro h h0
    simp only [project, sub_length]
    rw [if_neg (by simpa using h)]
    simp [pdiv, hr.ne', h0.ne', bind, Except.bind, pure, Except.pure]
    refine P.ext_real ?_ ?_ <;> simp [P.add, P.mul, P.sub, along, bulge, hang] <;> ring
  · intro h
    simp only [project, sub_length]
    rw [if_neg (by simpa using h)]
    simp [pdiv, hr.ne', bind, Except.bind, pure, Except.pure]
    have hb : bulge r (dist2 p c) / r = Real.sin (dist2 p c / r * (Real.pi / 2)) := by unfold bulge; field_simp
    refine P.ext_real ?_ ?_ <;> simp [P.add, P.mul, P.sub, along, hb, hang] <;> ring

/-- **C151 (refuted): the projection is not defined everywhere.**  A point at the centre makes the projection fail with a `ZeroDivisionError` (unless inverted), and with the default radius 0 also the
inverted one. -/
theorem C151_center_refuted (c : P ℝ) (r : ℝ) (hr : 0 ≤ r) :
    project (some ⟨c, r, false⟩) c = .error .zeroDivision ∧ project (some ⟨c, 0, true⟩) c = .error .zeroDivision := by
  have h0 : dist2 c c = 0 := by simp [dist2, sqDist]
  constructor
  · simp only [project, sub_length, h0]
    rw [if_neg (by simpa using hr)]
    by_cases hr0 : r = 0
    · simp [pdiv, hr0, bind, Except.bind]
    · simp [pdiv, hr0, bind, Except.bind]
  · simp only [project, sub_length, h0]
    rw [if_neg (by simp)]
    simp [pdiv, bind, Except.bind]

/-- **C151 (shape).** Wherever it is defined the projection keeps every point on its ray from the centre, keeps points of the circle's inside in the circle, never moves a point closer to the centre, and
the farther of two points stays the farther.  The inverted projection has the same properties except that it never moves a point away from the centre. -/
theorem C151_shape (c p q p' q' : P ℝ) (r : ℝ) (hr : 0 < r) (inv : Bool) (hp : project (some ⟨c, r, inv⟩) p = .ok p') (hq : project (some ⟨c, r, inv⟩) q = .ok q') :
    (∃ k, 0 ≤ k ∧ p' = along c p k) ∧
    (dist2 p c ≤ r → dist2 p' c ≤ r) ∧ (r ≤ dist2 p c → p' = p) ∧
    (inv = false → dist2 p c ≤ dist2 p' c) ∧ (inv = true → dist2 p' c ≤ dist2 p c) ∧
    (dist2 p c < dist2 q c → dist2 p' c < dist2 q' c) := by
  have hnn : ∀ a : P ℝ, 0 ≤ dist2 a c := fun a => Real.sqrt_nonneg _
  -- every point: the factor along the ray and the distance
  have key : ∀ a a' : P ℝ, project (some ⟨c, r, inv⟩) a = .ok a' →
      (r < dist2 a c ∧ a' = a) ∨
      (dist2 a c ≤ r ∧ inv = false ∧ 0 < dist2 a c ∧ a' = along c a (bulge r (dist2 a c) / dist2 a c) ∧ dist2 a' c = bulge r (dist2 a c)) ∨
      (dist2 a c ≤ r ∧ inv = true ∧ a' = along c a (bulge r (dist2 a c) / r) ∧ dist2 a' c = bulge r (dist2 a c) / r * dist2 a c) := by
    intro a a' ha
    obtain ⟨k1, k2, k3, -⟩ := C151_projection_partial c a r hr inv
    rcases lt_or_ge r (dist2 a c) with h | h
    · rw [k1 h] at ha
      cases ha
      exact Or.inl ⟨h, rfl⟩
    · have hb0 : 0 ≤ bulge r (dist2 a c) := (hnn a).trans (bulge_ge hr (hnn a) h)
      cases inv with
      | false =>
        rcases (hnn a).lt_or_eq with h0 | h0
        · rw [k2 h h0] at ha
          cases ha
          refine Or.inr (Or.inl ⟨h, rfl, h0, rfl, ?_⟩)
          rw [dist2_along _ _ _ (by positivity)]
          field_simp
        · exfalso
          have hac : a = c := by
            have hs : sqDist a c = 0 := (Real.sqrt_eq_zero (sqDist_nonneg a c)).1 h0.symm
            unfold sqDist at hs
            refine P.ext_real ?_ ?_ <;> nlinarith [sq_nonneg (a.x - c.x), sq_nonneg (a.y - c.y)]
          rw [hac, (C151_center_refuted c r hr.le).1] at ha
          cases ha
      | true =>
        rw [k3 h] at ha
        cases ha
        refine Or.inr (Or.inr ⟨h, rfl, rfl, dist2_along _ _ _ (by positivity)⟩)
  have hself : p = along c p 1 := by refine P.ext_real ?_ ?_ <;> simp [along]
  have hmono : ∀ d e : ℝ, 0 ≤ d → d < e → e ≤ r → bulge r d / r * d < bulge r e / r * e := by
    intro d e h0 hde h1
    have hb := bulge_strict hr h0 hde h1
    have hbd : 0 ≤ bulge r d := h0.trans (bulge_ge hr h0 (hde.le.trans h1))
    have : bulge r d / r < bulge r e / r := div_lt_div_of_pos_right hb hr
    have h2 : 0 ≤ bulge r d / r := by positivity
    nlinarith
  have hshrink : ∀ d : ℝ, 0 ≤ d → d ≤ r → bulge r d / r * d ≤ d := by
    intro d h0 h1
    have : bulge r d / r ≤ 1 := (div_le_one hr).2 (bulge_le hr)
    nlinarith
  rcases key p p' hp with ⟨h, rfl⟩ | ⟨h, hi, h0, hp', hd⟩ | ⟨h, hi, hp', hd⟩
  · refine ⟨⟨1, zero_le_one, hself⟩, fun h' => by linarith, fun _ => rfl, fun _ => le_rfl, fun _ => le_rfl, ?_⟩
    intro hlt
    rcases key q q' hq with ⟨g, rfl⟩ | ⟨g, -, -, -, -⟩ | ⟨g, -, -, -⟩
    · exact hlt
    · linarith
    · linarith
  · have hb0 := bulge_ge hr h0.le h
    refine ⟨⟨_, div_nonneg (h0.le.trans hb0) h0.le, hp'⟩, (fun _ => by rw [hd]; exact bulge_le hr), ?_, (fun _ => by rw [hd]; exact hb0), (fun h' => by rw [hi] at h'; cases h'), ?_⟩
    · intro hge
      have e : dist2 p c = r := le_antisymm h hge
      rw [hp', e, bulge_edge hr, div_self hr.ne', ← hself]
    · intro hlt
      rcases key q q' hq with ⟨g, rfl⟩ | ⟨g, -, -, -, gd⟩ | ⟨g, gi, -, -⟩
      · rw [hd]
        exact lt_of_le_of_lt (bulge_le hr) g
      · rw [hd, gd]
        exact bulge_strict hr h0.le hlt g
      · rw [hi] at gi; cases gi
  · have hb0 := bulge_ge hr (hnn p) h
    have hb1 : 0 ≤ bulge r (dist2 p c) / r := div_nonneg ((hnn p).trans hb0) hr.le
    refine ⟨⟨_, hb1, hp'⟩, (fun _ => by rw [hd]; exact (hshrink _ (hnn p) h).trans h), ?_, (fun h' => by rw [hi] at h'; cases h'), (fun _ => by rw [hd]; exact hshrink _ (hnn p) h), ?_⟩
    · intro hge
      have e : dist2 p c = r := le_antisymm h hge
      rw [hp', e, bulge_edge hr, div_self hr.ne', ← hself]
    · intro hlt
      rcases key q q' hq with ⟨g, rfl⟩ | ⟨g, gi, -, -, -⟩ | ⟨g, gi, -, gd⟩
      · rw [hd]
        exact lt_of_le_of_lt ((hshrink _ (hnn p) h).trans h) g
      · rw [hi] at gi; cases gi
      · rw [hd, gd]
        exact hmono _ _ (hnn p) hlt g

/-- **C151 (nothing is folded).** Different points are never projected onto the same point. -/
theorem C151_injective (c p q z : P ℝ) (r : ℝ) (hr : 0 < r) (inv : Bool) (hp : project (some ⟨c, r, inv⟩) p = .ok z) (hq : project (some ⟨c, r, inv⟩) q = .ok z) : p = q := by
  obtain ⟨-, -, -, -, -, h1⟩ := C151_shape c p q z z r hr inv hp hq
  obtain ⟨-, -, -, -, -, h2⟩ := C151_shape c q p z z r hr inv hq hp
  have hd : dist2 p c = dist2 q c := by
    rcases lt_trichotomy (dist2 p c) (dist2 q c) with h | h | h
    · exact absurd (h1 h) (lt_irrefl _)
    · exact h
    · exact absurd (h2 h) (lt_irrefl _)
  have hnn : ∀ a : P ℝ, 0 ≤ dist2 a c := fun a => Real.sqrt_nonneg _
  have atc : ∀ a : P ℝ, dist2 a c = 0 → a = c := by
    intro a h0
    have hs : sqDist a c = 0 := (Real.sqrt_eq_zero (sqDist_nonneg a c)).1 h0
    unfold sqDist at hs
    refine P.ext_real ?_ ?_ <;> nlinarith [sq_nonneg (a.x - c.x), sq_nonneg (a.y - c.y)]
  rcases (hnn p).lt_or_eq with h0 | h0
  swap
  · rw [atc p h0.symm, atc q (hd ▸ h0.symm)]
  have cancel : ∀ k : ℝ, 0 < k → along c p k = along c q k → p = q := by
    intro k hk h
    have hx := congrArg P.x h
    have hy := congrArg P.y h
    simp only [along] at hx hy
    have hx' : k * (p.x - q.x) = 0 := by linarith
    have hy' : k * (p.y - q.y) = 0 := by linarith
    refine P.ext_real ?_ ?_
    · rcases mul_eq_zero.1 hx' with h | h <;> linarith
    · rcases mul_eq_zero.1 hy' with h | h <;> linarith
  obtain ⟨k1, k2, k3, -⟩ := C151_projection_partial c p r hr inv
  obtain ⟨g1, g2, g3, -⟩ := C151_projection_partial c q r hr inv
  rcases lt_or_ge r (dist2 p c) with h | h
  · have a := k1 h
    have b := g1 (hd ▸ h)
    rw [a] at hp
    rw [b] at hq
    cases hp
    cases hq
    rfl
  · have hb := bulge_ge hr h0.le h
    cases inv with
    | false =>
      have a := k2 h h0
      have b := g2 (hd ▸ h) (hd ▸ h0)
      rw [a] at hp
      rw [b, ← hd] at hq
      cases hp
      injection hq with hq
      exact cancel _ (div_pos (h0.trans_le hb) h0) hq.symm
    | true =>
      have a := k3 h
      have b := g3 (hd ▸ h)
      rw [a] at hp
      rw [b, ← hd] at hq
      cases hp
      injection hq with hq
      exact cancel _ (div_pos (h0.trans_le hb) hr) hq.symm

/-- Non-vacuity: halfway to the edge of a circle of radius 2 a point is moved from 1 to `2 sin 45°`. -/
example : project (some ⟨⟨0, 0⟩, 2, false⟩) (⟨1, 0⟩ : P ℝ) = .ok ⟨Real.sqrt 2, 0⟩ := by
  have hd : dist2 (⟨1, 0⟩ : P ℝ) ⟨0, 0⟩ = 1 := by simp [dist2, sqDist]
  rw [(C151_projection_partial ⟨0, 0⟩ ⟨1, 0⟩ 2 (by norm_num) false).2.1 (by rw [hd]; norm_num) (by rw [hd]; norm_num), hd]
  congr 1
  have : bulge 2 1 = Real.sqrt 2 := by
    unfold bulge
    rw [show (1 / 2 * (Real.pi / 2) : ℝ) = Real.pi / 4 by ring, Real.sin_pi_div_four]
    ring
  refine P.ext_real ?_ ?_ <;> simp [along, this]

end Verif.Ext
