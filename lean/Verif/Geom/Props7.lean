import Verif.Geom.Props6

/-!
# C88, C89 (`pointt`), C90: elliptical arcs
-/

set_option linter.unusedSectionVars false

namespace Verif.Geom
open Verif PyFloat PyTrig

/-! ## The angle between two vectors -/

theorem atan2_cos_sin {x y r : ℝ} (hr : 0 < r) (h : x ^ 2 + y ^ 2 = r ^ 2) :
    Real.cos (PyTrig.atan2 y x) = x / r ∧ Real.sin (PyTrig.atan2 y x) = y / r := by
  have := polar_atan2 ⟨x, y⟩ r hr.le h
  constructor
  · rw [eq_div_iff hr.ne', mul_comm]; exact this.1
  · rw [eq_div_iff hr.ne', mul_comm]; exact this.2

theorem angle2_real (eps : ℝ) (c p q : P ℝ) (h : eps ^ 2 ≤ sqDist p q) :
    c.angle2 eps p q = PyTrig.atan2 ((p.x - c.x) * (q.y - c.y) - (q.x - c.x) * (p.y - c.y)) ((p.x - c.x) * (q.x - c.x) + (p.y - c.y) * (q.y - c.y)) := by
  unfold P.angle2
  have : (p.sub c).eq eps (q.sub c) = false := by
    rw [eq_false_iff]
    refine le_trans h (le_of_eq ?_)
    simp only [sqDist, P.sub, real_sub]; ring
  simp only [this, Bool.false_eq_true, if_false]
  simp only [P.cross, P.dot, P.sub, real_sub, real_mul, real_add]

/-- For two points at the same distance from a centre, turning the first by `angle2` gives the second. -/
theorem angle2_rotates (eps : ℝ) (c p q : P ℝ) (r : ℝ) (hr : 0 < r) (hp : sqDist p c = r ^ 2) (hq : sqDist q c = r ^ 2)
    (h : eps ^ 2 ≤ sqDist p q) : rotAbout c (c.angle2 eps p q) p = q := by
  rw [angle2_real eps c p q h]
  simp only [sqDist] at hp hq
  have hsum : ((p.x - c.x) * (q.x - c.x) + (p.y - c.y) * (q.y - c.y)) ^ 2 + ((p.x - c.x) * (q.y - c.y) - (q.x - c.x) * (p.y - c.y)) ^ 2 = (r ^ 2) ^ 2 := by
    rw [show (r ^ 2) ^ 2 = r ^ 2 * r ^ 2 by ring]
    nth_rewrite 1 [← hp]; rw [← hq]; ring
  obtain ⟨h1, h2⟩ := atan2_cos_sin (pow_pos hr 2) hsum
  unfold rotAbout
  rw [h1, h2]
  have hr2 : r ^ 2 ≠ 0 := (pow_pos hr 2).ne'
  apply P.ext_real
  · field_simp
    linear_combination (q.x - c.x) * hp
  · field_simp
    linear_combination (q.y - c.y) * hp

/-! ## `pointt` -/

/-- **C89**, `pointt`: for every point of the ellipse that is not within the tolerance of `point_at(0)`, `pointt` returns a parameter at which
`point_at` is the point (for axes that are equal or differ by at least the tolerance). -/
theorem C89_pointt_partial (eps : ℝ) (e : Ell ℝ) (hx : 0 < e.rx) (hy : 0 < e.ry) (hc : |e.rx - e.ry| < eps → e.rx = e.ry)
    (p : P ℝ) (hp : e.On p) (hfar : eps ^ 2 ≤ sqDist (e.pointAt 0) p) :
    ∃ t, e.pointT eps p = .ok t ∧ e.pointAt t = p := by
  obtain ⟨s, rfl⟩ := (C89_point_at e hx hy).2.1 p hp
  have hphi := Real.sin_sq_add_cos_sq e.phi
  have hs := Real.sin_sq_add_cos_sq s
  set r := Real.sqrt ((e.rx * Real.cos s) ^ 2 + (e.ry * Real.sin s) ^ 2) with hr
  have hpos : 0 < (e.rx * Real.cos s) ^ 2 + (e.ry * Real.sin s) ^ 2 := by
    by_cases h : Real.cos s = 0
    · rw [h] at hs ⊢
      have : Real.sin s ^ 2 = 1 := by linarith
      rw [mul_pow e.ry, this]; positivity
    · positivity
  have hr0 : 0 < r := Real.sqrt_pos.2 hpos
  have hrr : r ^ 2 = (e.rx * Real.cos s) ^ 2 + (e.ry * Real.sin s) ^ 2 := Real.sq_sqrt hpos.le
  have hang := angle2_real eps e.center (e.pointAt 0) (e.pointAt s) hfar
  set th := e.center.angle2 eps (e.pointAt 0) (e.pointAt s) with hth
  have hcr : ((e.pointAt 0).x - e.center.x) * ((e.pointAt s).y - e.center.y) - ((e.pointAt s).x - e.center.x) * ((e.pointAt 0).y - e.center.y) =
      e.rx * (e.ry * Real.sin s) := by
    simp only [Ell.pointAt, P.add, real_add, real_sub, real_mul, real_cos, real_sin, Real.cos_zero, Real.sin_zero]
    linear_combination (e.rx * e.ry * Real.sin s) * hphi
  have hdt : ((e.pointAt 0).x - e.center.x) * ((e.pointAt s).x - e.center.x) + ((e.pointAt 0).y - e.center.y) * ((e.pointAt s).y - e.center.y) =
      e.rx * (e.rx * Real.cos s) := by
    simp only [Ell.pointAt, P.add, real_add, real_sub, real_mul, real_cos, real_sin, Real.cos_zero, Real.sin_zero]
    linear_combination (e.rx * e.rx * Real.cos s) * hphi
  rw [hcr, hdt] at hang
  have hsum : (e.rx * (e.rx * Real.cos s)) ^ 2 + (e.rx * (e.ry * Real.sin s)) ^ 2 = (e.rx * r) ^ 2 := by
    rw [mul_pow e.rx r, hrr]; ring
  obtain ⟨h1, h2⟩ := atan2_cos_sin (mul_pos hx hr0) hsum
  rw [← hang] at h1 h2
  have h1' : Real.cos th = e.rx * Real.cos s / r := by rw [h1]; field_simp
  have h2' : Real.sin th = e.ry * Real.sin s / r := by rw [h2]; field_simp
  have hT : e.pointT eps (e.pointAt s) = e.theta2t eps th := by
    unfold Ell.pointT
    rw [hth, real_zero]
  rw [hT]
  unfold Ell.theta2t
  by_cases hci : e.isCircle eps = true
  · rw [if_pos hci]
    unfold Ell.isCircle at hci
    rw [floatEq_iff] at hci
    have hxy := hc hci
    have hre : r = e.rx := by
      have : r ^ 2 = e.rx ^ 2 := by rw [hrr, ← hxy]; linear_combination e.rx ^ 2 * hs
      nlinarith
    refine ⟨th, rfl, uv_inj e _ _ ?_ ?_⟩
    · rw [pointAt_u, pointAt_u, h1', hre]; field_simp
    · rw [pointAt_v, pointAt_v, h2', hre, hxy]; field_simp
  · rw [if_neg hci]
    simp only [pdiv, real_beq, real_zero, hx.ne', hy.ne', decide_false, Bool.false_eq_true, if_false, bind, Except.bind, pure, Except.pure,
      real_sin, real_cos, real_div]
    refine ⟨_, rfl, ?_⟩
    have hsum2 : (Real.cos th / e.rx) ^ 2 + (Real.sin th / e.ry) ^ 2 = (1 / r) ^ 2 := by
      rw [h1', h2']
      field_simp
      linarith
    obtain ⟨h3, h4⟩ := atan2_cos_sin (one_div_pos.2 hr0) hsum2
    have h5 : Real.cos (PyTrig.atan2 (Real.sin th / e.ry) (Real.cos th / e.rx)) = Real.cos s := by rw [h3, h1']; field_simp
    have h6 : Real.sin (PyTrig.atan2 (Real.sin th / e.ry) (Real.cos th / e.rx)) = Real.sin s := by rw [h4, h2']; field_simp
    refine uv_inj e _ _ ?_ ?_
    · rw [pointAt_u, pointAt_u, h5]
    · rw [pointAt_v, pointAt_v, h6]

/-! ## C88: arcs of path data -/

theorem prime_real (p1 p2 : P ℝ) (phi : ℝ) : EArc.prime p1 p2 phi =
    ⟨Real.cos phi * ((p1.x - p2.x) / 2) - Real.sin phi * ((p1.y - p2.y) / 2), Real.sin phi * ((p1.x - p2.x) / 2) + Real.cos phi * ((p1.y - p2.y) / 2)⟩ := by
  unfold EArc.prime
  rw [rotate_real]
  simp

theorem prime_sq (p1 p2 : P ℝ) (phi : ℝ) : (EArc.prime p1 p2 phi).x ^ 2 + (EArc.prime p1 p2 phi).y ^ 2 = sqDist p1 p2 / 4 := by
  rw [prime_real]
  have h := Real.sin_sq_add_cos_sq phi
  simp only [sqDist]
  linear_combination ((p1.x - p2.x) ^ 2 / 4 + (p1.y - p2.y) ^ 2 / 4) * h

theorem isZero_false_of {eps r : ℝ} (h : eps ≤ |r|) : isZero eps r = false := by
  rw [Bool.eq_false_iff]; intro h'; rw [isZero_iff] at h'; linarith

theorem radii_circle (v : P ℝ) (r : ℝ) (hr : 0 < r) (h : v.x ^ 2 + v.y ^ 2 ≤ r ^ 2) : EArc.radii v r r = .ok (r, r) := by
  have hr2 : r * r ≠ 0 := by positivity
  unfold EArc.radii
  simp only [real_abs, abs_of_pos hr, pdiv, real_beq, real_mul, real_zero, hr2, decide_false, Bool.false_eq_true, if_false, bind, Except.bind]
  rw [if_neg]
  · rfl
  · simp only [real_lt, real_one, real_add, real_div, decide_eq_true_eq, not_lt]
    rw [← add_div, div_le_one (by positivity)]
    nlinarith

/-- The sign that the flags give to the centre. -/
def flagSign (large flag : Bool) : ℝ := if large = flag then -1 else 1

theorem centerPrime_circle (v : P ℝ) (r : ℝ) (hr : 0 < r) (h0 : 0 < v.x ^ 2 + v.y ^ 2) (h : v.x ^ 2 + v.y ^ 2 ≤ r ^ 2) (large flag : Bool) :
    EArc.centerPrime v r r large flag = .ok ⟨flagSign large flag * (Real.sqrt ((r ^ 2 - (v.x ^ 2 + v.y ^ 2)) / (v.x ^ 2 + v.y ^ 2)) * v.y),
      -(flagSign large flag * (Real.sqrt ((r ^ 2 - (v.x ^ 2 + v.y ^ 2)) / (v.x ^ 2 + v.y ^ 2)) * v.x))⟩ := by
  have ht2 : r * r * (v.y * v.y) + r * r * (v.x * v.x) ≠ 0 := by
    have : 0 < r * r * (v.x ^ 2 + v.y ^ 2) := by positivity
    nlinarith
  have ht3 : (r * r * (r * r) - r * r * (v.y * v.y) - r * r * (v.x * v.x)) / (r * r * (v.y * v.y) + r * r * (v.x * v.x)) =
      (r ^ 2 - (v.x ^ 2 + v.y ^ 2)) / (v.x ^ 2 + v.y ^ 2) := by
    rw [div_eq_div_iff ht2 h0.ne']; ring
  have hge : 0 ≤ (r ^ 2 - (v.x ^ 2 + v.y ^ 2)) / (v.x ^ 2 + v.y ^ 2) := div_nonneg (by linarith) h0.le
  unfold EArc.centerPrime
  simp only [pdiv, psqrt, real_beq, real_mul, real_add, real_sub, real_div, real_zero, real_lt, real_neg, real_sqrt, ht2, decide_false, Bool.false_eq_true,
    if_false, bind, Except.bind, ht3, not_lt.2 hge, pure, Except.pure]
  congr 1
  unfold flagSign
  split
  · apply P.ext_real <;> simp <;> field_simp <;> simp
  · apply P.ext_real <;> simp <;> field_simp <;> simp

theorem fromEndpoints_circle (eps : ℝ) (p1 p2 : P ℝ) (r phi : ℝ) (large flag : Bool) (hr : 0 < r) (hreps : eps ≤ r)
    (h0 : 0 < sqDist p1 p2) (h2 : sqDist p1 p2 ≤ (2 * r) ^ 2) :
    ∃ c : P ℝ, EArc.fromEndpoints eps p1 p2 r r large flag phi = .ok (some (EArc.build eps p1 p2 (EArc.prime p1 p2 phi) c r r large flag phi)) ∧
      c = ⟨flagSign large flag * (Real.sqrt ((r ^ 2 - sqDist p1 p2 / 4) / (sqDist p1 p2 / 4)) * (EArc.prime p1 p2 phi).y),
        -(flagSign large flag * (Real.sqrt ((r ^ 2 - sqDist p1 p2 / 4) / (sqDist p1 p2 / 4)) * (EArc.prime p1 p2 phi).x))⟩ := by
  have hz : isZero eps r = false := isZero_false_of (by rw [abs_of_pos hr]; exact hreps)
  have hps := prime_sq p1 p2 phi
  have hd : (EArc.prime p1 p2 phi).x ^ 2 + (EArc.prime p1 p2 phi).y ^ 2 ≤ r ^ 2 := by rw [hps]; nlinarith
  have hc := centerPrime_circle (EArc.prime p1 p2 phi) r hr (by rw [hps]; linarith) hd large flag
  rw [hps] at hc
  refine ⟨_, ?_, rfl⟩
  unfold EArc.fromEndpoints
  simp only [hz, Bool.or_self, Bool.false_eq_true, if_false, bind, Except.bind, radii_circle _ r hr hd, hc]
  rfl

/-- Circular arcs, for both values of the large arc flag. -/
theorem circular_arc (eps : ℝ) (heps : 0 < eps) (p1 p2 : P ℝ) (r phi : ℝ) (large flag : Bool) (hr : 0 < r) (hreps : eps ≤ r)
    (h0 : (eps * r) ^ 2 ≤ sqDist p1 p2) (h2 : sqDist p1 p2 < (2 * r) ^ 2) :
    ∃ e, EArc.fromEndpoints eps p1 p2 r r large flag phi = .ok (some e) ∧ e.p1 = p1 ∧ e.p2 = p2 ∧ e.ell.rx = r ∧ e.ell.ry = r ∧
      sqDist p1 e.ell.center = r ^ 2 ∧ sqDist p2 e.ell.center = r ^ 2 ∧
      rotAbout e.ell.center e.sweep p1 = p2 ∧ |e.sweep| < Real.pi ∧ (0 < e.sweep ↔ large ≠ flag) ∧ (e.sweep < 0 ↔ large = flag) := by
  have hd0 : 0 < sqDist p1 p2 := lt_of_lt_of_le (by positivity) h0
  obtain ⟨c, hE, hc⟩ := fromEndpoints_circle eps p1 p2 r phi large flag hr hreps hd0 h2.le
  set v := EArc.prime p1 p2 phi with hv
  have hps := prime_sq p1 p2 phi
  rw [← hv] at hps
  set q := Real.sqrt ((r ^ 2 - sqDist p1 p2 / 4) / (sqDist p1 p2 / 4)) with hq
  have hfrac : 0 < (r ^ 2 - sqDist p1 p2 / 4) / (sqDist p1 p2 / 4) := div_pos (by nlinarith) (by linarith)
  have hq0 : 0 < q := Real.sqrt_pos.2 hfrac
  have hqq : q ^ 2 * (v.x ^ 2 + v.y ^ 2) = r ^ 2 - (v.x ^ 2 + v.y ^ 2) := by
    rw [hq, Real.sq_sqrt hfrac.le, hps]; field_simp
  set sg := flagSign large flag with hsg
  have hsg2 : sg ^ 2 = 1 := by rw [hsg]; unfold flagSign; split <;> norm_num
  have hrot := Real.sin_sq_add_cos_sq phi
  -- geometry in the turned frame
  have hn1 : (v.x - c.x) ^ 2 + (v.y - c.y) ^ 2 = r ^ 2 := by
    rw [hc]; linear_combination hqq + (q ^ 2 * (v.x ^ 2 + v.y ^ 2)) * hsg2
  have hn2 : (-v.x - c.x) ^ 2 + (-v.y - c.y) ^ 2 = r ^ 2 := by
    rw [hc]; linear_combination hqq + (q ^ 2 * (v.x ^ 2 + v.y ^ 2)) * hsg2
  have hvx : (p1.x - p2.x) / 2 = Real.cos phi * v.x + Real.sin phi * v.y := by
    rw [hv, prime_real]; linear_combination -((p1.x - p2.x) / 2) * hrot
  have hvy : (p1.y - p2.y) / 2 = -Real.sin phi * v.x + Real.cos phi * v.y := by
    rw [hv, prime_real]; linear_combination -((p1.y - p2.y) / 2) * hrot
  set e := EArc.build eps p1 p2 v c r r large flag phi with he
  have hcen : e.ell.center = ⟨Real.cos phi * c.x + Real.sin phi * c.y + (p1.x + p2.x) / 2, -Real.sin phi * c.x + Real.cos phi * c.y + (p1.y + p2.y) / 2⟩ := by
    rw [he]
    unfold EArc.build EArc.mk'
    simp only [rotate_real]
    apply P.ext_real <;> simp [P.add]
  have hx1 : p1.x - e.ell.center.x = Real.cos phi * (v.x - c.x) + Real.sin phi * (v.y - c.y) := by rw [hcen]; linear_combination hvx
  have hy1 : p1.y - e.ell.center.y = -Real.sin phi * (v.x - c.x) + Real.cos phi * (v.y - c.y) := by rw [hcen]; linear_combination hvy
  have hx2 : p2.x - e.ell.center.x = Real.cos phi * (-v.x - c.x) + Real.sin phi * (-v.y - c.y) := by rw [hcen]; linear_combination -hvx
  have hy2 : p2.y - e.ell.center.y = -Real.sin phi * (-v.x - c.x) + Real.cos phi * (-v.y - c.y) := by rw [hcen]; linear_combination -hvy
  have hs1 : sqDist p1 e.ell.center = r ^ 2 := by
    unfold sqDist; rw [hx1, hy1]; linear_combination hn1 + ((v.x - c.x) ^ 2 + (v.y - c.y) ^ 2) * hrot
  have hs2 : sqDist p2 e.ell.center = r ^ 2 := by
    unfold sqDist; rw [hx2, hy2]; linear_combination hn2 + ((-v.x - c.x) ^ 2 + (-v.y - c.y) ^ 2) * hrot
  -- the sweep
  have hsw : e.sweep = P.angle2 eps P.origin ⟨(v.x - c.x) / r, (v.y - c.y) / r⟩ ⟨(-v.x - c.x) / r, (-v.y - c.y) / r⟩ := by
    rw [he]; rfl
  have hfar : eps ^ 2 ≤ sqDist (⟨(v.x - c.x) / r, (v.y - c.y) / r⟩ : P ℝ) ⟨(-v.x - c.x) / r, (-v.y - c.y) / r⟩ := by
    have : sqDist (⟨(v.x - c.x) / r, (v.y - c.y) / r⟩ : P ℝ) ⟨(-v.x - c.x) / r, (-v.y - c.y) / r⟩ = sqDist p1 p2 / r ^ 2 := by
      have h4 : sqDist p1 p2 = 4 * (v.x ^ 2 + v.y ^ 2) := by linarith
      rw [h4]; unfold sqDist; field_simp; ring
    rw [this, le_div_iff₀ (by positivity)]
    calc eps ^ 2 * r ^ 2 = (eps * r) ^ 2 := by ring
      _ ≤ _ := h0
  rw [angle2_real _ _ _ _ hfar] at hsw
  simp only [P.origin, real_zero, sub_zero] at hsw
  have hcross : (v.x - c.x) / r * ((-v.y - c.y) / r) - (-v.x - c.x) / r * ((v.y - c.y) / r) = sg * (2 * q * (v.x ^ 2 + v.y ^ 2) / r ^ 2) := by
    rw [hc]; field_simp; ring
  have hdot : (v.x - c.x) / r * ((-v.x - c.x) / r) + (v.y - c.y) / r * ((-v.y - c.y) / r) = (c.x ^ 2 + c.y ^ 2 - (v.x ^ 2 + v.y ^ 2)) / r ^ 2 := by
    field_simp; ring
  set k := 2 * q * (v.x ^ 2 + v.y ^ 2) / r ^ 2 with hk
  have hk0 : 0 < k := by rw [hk]; have : 0 < v.x ^ 2 + v.y ^ 2 := by rw [hps]; linarith
                         positivity
  rw [hcross, hdot] at hsw
  set D := (c.x ^ 2 + c.y ^ 2 - (v.x ^ 2 + v.y ^ 2)) / r ^ 2 with hD
  have hunit : D ^ 2 + (sg * k) ^ 2 = 1 ^ 2 := by
    have hcc : c.x ^ 2 + c.y ^ 2 = r ^ 2 - (v.x ^ 2 + v.y ^ 2) := by
      rw [hc]; linear_combination hqq + (q ^ 2 * (v.x ^ 2 + v.y ^ 2)) * hsg2
    rw [mul_pow, hsg2, hD, hk, hcc]
    field_simp
    linear_combination (4 * (v.x ^ 2 + v.y ^ 2)) * hqq
  obtain ⟨hcos, hsin⟩ := atan2_cos_sin one_pos hunit
  rw [← hsw, div_one] at hcos hsin
  have hrange : -Real.pi < e.sweep ∧ e.sweep ≤ Real.pi := by
    rw [hsw, real_atan2]; exact ⟨Complex.neg_pi_lt_arg _, Complex.arg_le_pi _⟩
  have hnepi : e.sweep ≠ Real.pi := by
    intro h; rw [h, Real.sin_pi] at hsin
    have : sg * k ≠ 0 := mul_ne_zero (by intro h; rw [h] at hsg2; norm_num at hsg2) hk0.ne'
    exact this hsin.symm
  have hltpi : e.sweep < Real.pi := lt_of_le_of_ne hrange.2 hnepi
  have hpos : 0 < e.sweep ↔ 0 < sg := by
    constructor
    · intro h
      have := Real.sin_pos_of_pos_of_lt_pi h hltpi
      rw [hsin] at this
      exact pos_of_mul_pos_left this hk0.le
    · intro h
      by_contra hn
      have := Real.sin_nonpos_of_nonpos_of_neg_pi_le (not_lt.1 hn) hrange.1.le
      rw [hsin] at this
      exact absurd (mul_pos h hk0) (not_lt.2 this)
  have hneg : e.sweep < 0 ↔ sg < 0 := by
    constructor
    · intro h
      have := Real.sin_neg_of_neg_of_neg_pi_lt h hrange.1
      rw [hsin] at this
      by_contra hn
      exact absurd this (not_lt.2 (mul_nonneg (not_lt.1 hn) hk0.le))
    · intro h
      by_contra hn
      have := Real.sin_nonneg_of_nonneg_of_le_pi (not_lt.1 hn) hrange.2
      rw [hsin] at this
      exact absurd (mul_neg_of_neg_of_pos h hk0) (not_lt.2 this)
  refine ⟨e, hE, rfl, rfl, ?_, ?_, hs1, hs2, ?_, abs_lt.2 ⟨hrange.1, hltpi⟩, ?_, ?_⟩
  · show |r| = r; exact abs_of_pos hr
  · show |r| = r; exact abs_of_pos hr
  · have hr2 : r ≠ 0 := hr.ne'
    have t1 : D * (v.x - c.x) - sg * k * (v.y - c.y) = -v.x - c.x := by
      rw [← hcross, ← hdot]; field_simp; linear_combination (-v.x - c.x) * hn1
    have t2 : sg * k * (v.x - c.x) + D * (v.y - c.y) = -v.y - c.y := by
      rw [← hcross, ← hdot]; field_simp; linear_combination (-v.y - c.y) * hn1
    unfold rotAbout
    rw [hcos, hsin]
    apply P.ext_real
    · show e.ell.center.x + D * (p1.x - e.ell.center.x) - sg * k * (p1.y - e.ell.center.y) = p2.x
      rw [hx1, hy1]; linear_combination Real.cos phi * t1 + Real.sin phi * t2 - hx2
    · show e.ell.center.y + sg * k * (p1.x - e.ell.center.x) + D * (p1.y - e.ell.center.y) = p2.y
      rw [hx1, hy1]; linear_combination Real.cos phi * t2 - Real.sin phi * t1 - hy2
  · rw [hpos, hsg]; unfold flagSign; cases flag <;> cases large <;> norm_num
  · rw [hneg, hsg]; unfold flagSign; cases flag <;> cases large <;> norm_num

/-- **C88**, circular arcs that are not large: for end points less than a diameter apart (and a chord of at least the tolerance times the radius), the computed
centre is at distance `r` from both ends, turning by the computed sweep about it takes the start to the end, the sweep is less than half a turn, and it is
in the direction of positive angles exactly if the sweep flag is set. -/
theorem C88_small_arc_partial (eps : ℝ) (heps : 0 < eps) (p1 p2 : P ℝ) (r phi : ℝ) (flag : Bool) (hr : 0 < r) (hreps : eps ≤ r)
    (h0 : (eps * r) ^ 2 ≤ sqDist p1 p2) (h2 : sqDist p1 p2 < (2 * r) ^ 2) :
    ∃ e, EArc.fromEndpoints eps p1 p2 r r false flag phi = .ok (some e) ∧ e.p1 = p1 ∧ e.p2 = p2 ∧ e.ell.rx = r ∧ e.ell.ry = r ∧
      sqDist p1 e.ell.center = r ^ 2 ∧ sqDist p2 e.ell.center = r ^ 2 ∧
      rotAbout e.ell.center e.sweep p1 = p2 ∧ |e.sweep| < Real.pi ∧ (0 < e.sweep ↔ flag = true) ∧ (e.sweep < 0 ↔ flag = false) := by
  obtain ⟨e, g⟩ := circular_arc eps heps p1 p2 r phi false flag hr hreps h0 h2
  refine ⟨e, ?_⟩
  simpa [eq_comm] using g

/-- Non-vacuity: a quarter of the unit circle. -/
example : ∃ e, EArc.fromEndpoints (1/1000000) ⟨1, 0⟩ ⟨0, 1⟩ 1 1 false true 0 = .ok (some e) ∧ (0 : ℝ) < e.sweep := by
  obtain ⟨e, h1, h2⟩ := C88_small_arc_partial (1/1000000) (by norm_num) ⟨1, 0⟩ ⟨0, 1⟩ 1 0 true one_pos (by norm_num) (by norm_num [sqDist]) (by norm_num [sqDist])
  exact ⟨e, h1, h2.2.2.2.2.2.2.2.2.1.2 rfl⟩

/-- **C88**, ellipses: for different end points and radii of at least the tolerance, an arc is returned; both its ends are on the ellipse with the returned centre and
radii turned by `-phi` (instead of `phi`), and the radii are the given ones, enlarged by a common factor `k ≥ 1` that is 1 if the end points are near enough. -/
theorem C88_ends_partial (eps : ℝ) (heps : 0 < eps) (p1 p2 : P ℝ) (rx ry phi : ℝ) (large flag : Bool) (hx : eps ≤ |rx|) (hy : eps ≤ |ry|) (hne : p1 ≠ p2) :
    ∃ e, EArc.fromEndpoints eps p1 p2 rx ry large flag phi = .ok (some e) ∧ e.p1 = p1 ∧ e.p2 = p2 ∧ e.ell.phi = phi ∧
      (∃ k : ℝ, 1 ≤ k ∧ e.ell.rx = k * |rx| ∧ e.ell.ry = k * |ry| ∧
        (sqDist p1 p2 ≤ (2 * min |rx| |ry|) ^ 2 → k = 1)) ∧
      (Ell.mk e.ell.center e.ell.rx e.ell.ry (-phi)).On p1 ∧ (Ell.mk e.ell.center e.ell.rx e.ell.ry (-phi)).On p2 := by
  have hx0 : 0 < |rx| := lt_of_lt_of_le heps hx
  have hy0 : 0 < |ry| := lt_of_lt_of_le heps hy
  have hzx : isZero eps rx = false := isZero_false_of hx
  have hzy : isZero eps ry = false := isZero_false_of hy
  have hrot := Real.sin_sq_add_cos_sq phi
  set v := EArc.prime p1 p2 phi with hv
  have hps : v.x ^ 2 + v.y ^ 2 = sqDist p1 p2 / 4 := prime_sq p1 p2 phi
  have hd0 : 0 < sqDist p1 p2 := by
    rcases lt_or_eq_of_le (sqDist_nonneg p1 p2) with h | h
    · exact h
    · exfalso; apply hne
      unfold sqDist at h
      apply P.ext_real <;> nlinarith [sq_nonneg (p1.x - p2.x), sq_nonneg (p1.y - p2.y)]
  have hv0 : 0 < v.x ^ 2 + v.y ^ 2 := by rw [hps]; linarith
  -- the radii
  have hrad : ∃ k : ℝ, 1 ≤ k ∧ EArc.radii v rx ry = .ok (k * |rx|, k * |ry|) ∧ (v.x / (k * |rx|)) ^ 2 + (v.y / (k * |ry|)) ^ 2 ≤ 1 ∧
      (sqDist p1 p2 ≤ (2 * min |rx| |ry|) ^ 2 → k = 1) := by
    have hxx : |rx| * |rx| ≠ 0 := by positivity
    have hyy : |ry| * |ry| ≠ 0 := by positivity
    have hrd : EArc.radii v rx ry = if 1 < v.x * v.x / (|rx| * |rx|) + v.y * v.y / (|ry| * |ry|) then
        .ok (Real.sqrt (v.x * v.x / (|rx| * |rx|) + v.y * v.y / (|ry| * |ry|)) * |rx|, Real.sqrt (v.x * v.x / (|rx| * |rx|) + v.y * v.y / (|ry| * |ry|)) * |ry|)
        else .ok (|rx|, |ry|) := by
      unfold EArc.radii
      simp only [real_abs, pdiv, real_beq, real_mul, real_zero, hxx, hyy, decide_false, Bool.false_eq_true, if_false, bind, Except.bind, real_lt, real_one,
        real_add, real_div, real_sqrt, decide_eq_true_eq, pure, Except.pure]
    have hzz : v.x * v.x / (|rx| * |rx|) + v.y * v.y / (|ry| * |ry|) = (v.x / |rx|) ^ 2 + (v.y / |ry|) ^ 2 := by
      field_simp
    rw [hzz] at hrd
    set zz := (v.x / |rx|) ^ 2 + (v.y / |ry|) ^ 2 with hz
    by_cases h : 1 < zz
    · rw [if_pos h] at hrd
      have hs0 : 0 < Real.sqrt zz := Real.sqrt_pos.2 (by linarith)
      refine ⟨Real.sqrt zz, ?_, hrd, ?_, ?_⟩
      · rw [Real.one_le_sqrt]; exact h.le
      · have : (v.x / (Real.sqrt zz * |rx|)) ^ 2 + (v.y / (Real.sqrt zz * |ry|)) ^ 2 = zz / Real.sqrt zz ^ 2 := by
          rw [hz]; field_simp
        rw [this, Real.sq_sqrt (by linarith), div_self (by linarith)]
      · intro hmin
        exfalso
        have hm0 : 0 < min |rx| |ry| := lt_min hx0 hy0
        have b1 : (v.x / |rx|) ^ 2 ≤ v.x ^ 2 / (min |rx| |ry|) ^ 2 := by
          rw [div_pow]; apply div_le_div_of_nonneg_left (sq_nonneg _) (by positivity)
          exact pow_le_pow_left₀ hm0.le (min_le_left _ _) 2
        have b2 : (v.y / |ry|) ^ 2 ≤ v.y ^ 2 / (min |rx| |ry|) ^ 2 := by
          rw [div_pow]; apply div_le_div_of_nonneg_left (sq_nonneg _) (by positivity)
          exact pow_le_pow_left₀ hm0.le (min_le_right _ _) 2
        have b3 : v.x ^ 2 / (min |rx| |ry|) ^ 2 + v.y ^ 2 / (min |rx| |ry|) ^ 2 ≤ 1 := by
          rw [← add_div, div_le_one (by positivity), hps]
          nlinarith
        linarith
    · rw [if_neg h] at hrd
      refine ⟨1, le_rfl, by rw [one_mul, one_mul]; exact hrd, ?_, fun _ => rfl⟩
      rw [one_mul, one_mul]; exact not_lt.1 h
  obtain ⟨k, hk1, hrad, hzz, hkk⟩ := hrad
  have hk0 : 0 < k := by linarith
  set a := k * |rx| with ha
  set b := k * |ry| with hb
  have ha0 : 0 < a := by positivity
  have hb0 : 0 < b := by positivity
  set zz := (v.x / a) ^ 2 + (v.y / b) ^ 2 with hz
  have hz0 : 0 < zz := by
    rw [hz]
    by_cases h : v.x = 0
    · have : v.y ≠ 0 := by intro h'; rw [h, h'] at hv0; norm_num at hv0
      positivity
    · positivity
  -- the centre
  have ht2 : a * a * (v.y * v.y) + b * b * (v.x * v.x) = (a * b) ^ 2 * zz := by rw [hz]; field_simp; ring
  have ht1 : a * a * (b * b) - a * a * (v.y * v.y) - b * b * (v.x * v.x) = (a * b) ^ 2 * (1 - zz) := by rw [hz]; field_simp; ring
  have hge : 0 ≤ (1 - zz) / zz := div_nonneg (by linarith) hz0.le
  set q := Real.sqrt ((1 - zz) / zz) with hq
  have hqq : q ^ 2 * zz = 1 - zz := by rw [hq, Real.sq_sqrt hge]; field_simp
  have hcen : EArc.centerPrime v a b large flag = .ok ⟨flagSign large flag * (q * (a * v.y / b)), -(flagSign large flag * (q * (b * v.x / a)))⟩ := by
    have hne2 : (a * b) ^ 2 * zz ≠ 0 := by positivity
    have ht3 : (a * b) ^ 2 * (1 - zz) / ((a * b) ^ 2 * zz) = (1 - zz) / zz := by rw [mul_div_mul_left _ _ (by positivity)]
    unfold EArc.centerPrime
    simp only [pdiv, psqrt, real_beq, real_mul, real_add, real_sub, real_div, real_zero, real_lt, real_neg, real_sqrt, ht1, ht2, hne2, ht3, decide_false,
      Bool.false_eq_true, if_false, bind, Except.bind, decide_eq_true_eq, not_lt.2 hge, pure, Except.pure]
    congr 1
    unfold flagSign
    split
    · apply P.ext_real <;> simp [← hq]
    · apply P.ext_real <;> simp [← hq]
  set sg := flagSign large flag with hsg
  have hsg2 : sg ^ 2 = 1 := by rw [hsg]; unfold flagSign; split <;> norm_num
  set c : P ℝ := ⟨sg * (q * (a * v.y / b)), -(sg * (q * (b * v.x / a)))⟩ with hc
  refine ⟨EArc.build eps p1 p2 v c a b large flag phi, ?_, rfl, rfl, rfl, ⟨k, hk1, ?_, ?_, hkk⟩, ?_⟩
  · unfold EArc.fromEndpoints
    simp only [hzx, hzy, Bool.or_self, Bool.false_eq_true, if_false, bind, Except.bind, ← hv, hrad, hcen]
    rfl
  · show |a| = a; exact abs_of_pos ha0
  · show |b| = b; exact abs_of_pos hb0
  set e := EArc.build eps p1 p2 v c a b large flag phi with he
  have hea : e.ell.rx = a := abs_of_pos ha0
  have heb : e.ell.ry = b := abs_of_pos hb0
  have hvx : (p1.x - p2.x) / 2 = Real.cos phi * v.x + Real.sin phi * v.y := by
    rw [hv, prime_real]; linear_combination -((p1.x - p2.x) / 2) * hrot
  have hvy : (p1.y - p2.y) / 2 = -Real.sin phi * v.x + Real.cos phi * v.y := by
    rw [hv, prime_real]; linear_combination -((p1.y - p2.y) / 2) * hrot
  have hcc : e.ell.center = ⟨Real.cos phi * c.x + Real.sin phi * c.y + (p1.x + p2.x) / 2, -Real.sin phi * c.x + Real.cos phi * c.y + (p1.y + p2.y) / 2⟩ := by
    rw [he]
    unfold EArc.build EArc.mk'
    simp only [rotate_real]
    apply P.ext_real <;> simp [P.add]
  unfold Ell.On Ell.level Ell.u Ell.v
  simp only [Real.cos_neg, Real.sin_neg, hea, heb, hcc]
  have hcx : c.x / a = sg * q * (v.y / b) := by rw [hc]; field_simp
  have hcy : c.y / b = -(sg * q * (v.x / a)) := by rw [hc]; field_simp
  constructor
  · have e1 : (Real.cos phi * (p1.x - (Real.cos phi * c.x + Real.sin phi * c.y + (p1.x + p2.x) / 2)) +
        -Real.sin phi * (p1.y - (-Real.sin phi * c.x + Real.cos phi * c.y + (p1.y + p2.y) / 2))) = v.x - c.x := by
      linear_combination Real.cos phi * hvx - Real.sin phi * hvy + (v.x - c.x) * hrot
    have e2 : (- -Real.sin phi * (p1.x - (Real.cos phi * c.x + Real.sin phi * c.y + (p1.x + p2.x) / 2)) +
        Real.cos phi * (p1.y - (-Real.sin phi * c.x + Real.cos phi * c.y + (p1.y + p2.y) / 2))) = v.y - c.y := by
      linear_combination Real.sin phi * hvx + Real.cos phi * hvy + (v.y - c.y) * hrot
    rw [e1, e2, sub_div, sub_div, hcx, hcy]
    linear_combination hqq - hz - q ^ 2 * hz + q ^ 2 * ((v.x / a) ^ 2 + (v.y / b) ^ 2) * hsg2
  · have e1 : (Real.cos phi * (p2.x - (Real.cos phi * c.x + Real.sin phi * c.y + (p1.x + p2.x) / 2)) +
        -Real.sin phi * (p2.y - (-Real.sin phi * c.x + Real.cos phi * c.y + (p1.y + p2.y) / 2))) = -v.x - c.x := by
      linear_combination -Real.cos phi * hvx + Real.sin phi * hvy + (-v.x - c.x) * hrot
    have e2 : (- -Real.sin phi * (p2.x - (Real.cos phi * c.x + Real.sin phi * c.y + (p1.x + p2.x) / 2)) +
        Real.cos phi * (p2.y - (-Real.sin phi * c.x + Real.cos phi * c.y + (p1.y + p2.y) / 2))) = -v.y - c.y := by
      linear_combination -Real.sin phi * hvx - Real.cos phi * hvy + (-v.y - c.y) * hrot
    rw [e1, e2, sub_div, sub_div, hcx, hcy]
    linear_combination hqq - hz - q ^ 2 * hz + q ^ 2 * ((v.x / a) ^ 2 + (v.y / b) ^ 2) * hsg2

/-- Non-vacuity: an arc whose radii have to be enlarged. -/
example : ∃ e, EArc.fromEndpoints (1/1000000) ⟨0, 0⟩ ⟨6, 0⟩ 2 (-1) true true 0 = .ok (some e) ∧ e.p2 = (⟨6, 0⟩ : P ℝ) := by
  obtain ⟨e, h1, _, h2, _⟩ := C88_ends_partial (1/1000000) (by norm_num) ⟨0, 0⟩ ⟨6, 0⟩ 2 (-1) 0 true true (by norm_num) (by norm_num)
    (by intro h; have := congrArg P.x h; norm_num at this)
  exact ⟨e, h1, h2⟩

/-- Specification: what SVG asks of an arc from `p1` to `p2`: both ends are on the ellipse, the angles belong to them, the sweep exceeds half a turn exactly if the
large arc flag is set and goes in the direction of positive angles exactly if the sweep flag is set. -/
def SvgArc (p1 p2 : P ℝ) (large flag : Bool) (e : EArc ℝ) : Prop :=
  e.ell.On p1 ∧ e.ell.On p2 ∧ e.ell.pointAt e.start = p1 ∧ e.ell.pointAt (e.start + e.sweep) = p2 ∧
    (large = true ↔ Real.pi < |e.sweep|) ∧ (flag = true ↔ 0 < e.sweep)

theorem atan2_range (y x : ℝ) : -Real.pi < PyTrig.atan2 y x ∧ PyTrig.atan2 y x ≤ Real.pi := by
  rw [real_atan2]; exact ⟨Complex.neg_pi_lt_arg _, Complex.arg_le_pi _⟩

/-- **C88** as stated is false of the code: for every circle and every two points on it less than a diameter apart, the arc returned for the large arc flag is not
large and goes the wrong way; for no input at all is the sweep of the result more than half a turn; equal end points raise `ZeroDivisionError`; and the rotation
is applied the wrong way round, so that the end points may be off the ellipse. -/
theorem C88_refuted :
    (∀ (eps : ℝ) (p1 p2 : P ℝ) (r phi : ℝ) (flag : Bool), 0 < eps → eps ≤ r → (eps * r) ^ 2 ≤ sqDist p1 p2 → sqDist p1 p2 < (2 * r) ^ 2 →
      ∃ e, EArc.fromEndpoints eps p1 p2 r r true flag phi = .ok (some e) ∧ |e.sweep| < Real.pi ∧ (0 < e.sweep ↔ flag = false) ∧
        ¬ SvgArc p1 p2 true flag e) ∧
    (∀ (eps : ℝ) (p1 p2 : P ℝ) (rx ry phi : ℝ) (large flag : Bool) (e : EArc ℝ),
      EArc.fromEndpoints eps p1 p2 rx ry large flag phi = .ok (some e) → |e.sweep| ≤ Real.pi) ∧
    (∀ (eps : ℝ) (p : P ℝ) (rx ry phi : ℝ) (large flag : Bool), 0 < eps → eps ≤ |rx| → eps ≤ |ry| →
      EArc.fromEndpoints eps p p rx ry large flag phi = .error .zeroDivision) ∧
    (∃ (eps : ℝ) (p1 p2 : P ℝ) (e : EArc ℝ), 0 < eps ∧ EArc.fromEndpoints eps p1 p2 2 1 false true (Real.pi / 4) = .ok (some e) ∧ ¬ e.ell.On p1) := by
  refine ⟨fun eps p1 p2 r phi flag heps hr h0 h2 => ?_, fun eps p1 p2 rx ry phi large flag e h => ?_, fun eps p rx ry phi large flag heps hx hy => ?_, ?_⟩
  · obtain ⟨e, h1, -, -, -, -, -, -, -, hlt, hs, -⟩ := circular_arc eps heps p1 p2 r phi true flag (by linarith) hr h0 h2
    refine ⟨e, h1, hlt, by rw [hs]; cases flag <;> simp, fun h => ?_⟩
    have := h.2.2.2.2.1.1 rfl
    linarith
  · unfold EArc.fromEndpoints at h
    split at h
    · cases h
    · simp only [bind, Except.bind] at h
      split at h
      · cases h
      · split at h
        · cases h
        · simp only [pure, Except.pure, Except.ok.injEq, Option.some.injEq] at h
          subst h
          show |P.angle2 eps _ _ _| ≤ _
          unfold P.angle2
          simp only []
          split
          · simp [Real.pi_pos.le]
          · have := atan2_range
            rw [abs_le]
            exact ⟨(this _ _).1.le, (this _ _).2⟩
  · have hx0 : 0 < |rx| := lt_of_lt_of_le heps hx
    have hy0 : 0 < |ry| := lt_of_lt_of_le heps hy
    have hxx : |rx| * |rx| ≠ 0 := by positivity
    have hyy : |ry| * |ry| ≠ 0 := by positivity
    have hv : EArc.prime p p phi = ⟨0, 0⟩ := by rw [prime_real]; apply P.ext_real <;> simp
    have hrd : EArc.radii (⟨0, 0⟩ : P ℝ) rx ry = .ok (|rx|, |ry|) := by
      unfold EArc.radii
      have hx1 : rx ≠ 0 := abs_pos.1 hx0
      have hy1 : ry ≠ 0 := abs_pos.1 hy0
      simp [pdiv, hx1, hy1, bind, Except.bind, pure, Except.pure, real_beq]
    unfold EArc.fromEndpoints
    simp only [isZero_false_of hx, isZero_false_of hy, Bool.or_self, Bool.false_eq_true, if_false, hv, bind, Except.bind, hrd]
    unfold EArc.centerPrime
    simp [pdiv, bind, Except.bind, real_beq]
  · have h2 : Real.sqrt 2 * Real.sqrt 2 = 2 := Real.mul_self_sqrt (by norm_num)
    have hv : EArc.prime (⟨Real.sqrt 2, -Real.sqrt 2⟩ : P ℝ) ⟨-Real.sqrt 2, Real.sqrt 2⟩ (Real.pi / 4) = ⟨2, 0⟩ := by
      rw [prime_real, Real.cos_pi_div_four, Real.sin_pi_div_four]
      apply P.ext_real
      · show Real.sqrt 2 / 2 * ((Real.sqrt 2 - -Real.sqrt 2) / 2) - Real.sqrt 2 / 2 * ((-Real.sqrt 2 - Real.sqrt 2) / 2) = 2
        linear_combination h2
      · show Real.sqrt 2 / 2 * ((Real.sqrt 2 - -Real.sqrt 2) / 2) + Real.sqrt 2 / 2 * ((-Real.sqrt 2 - Real.sqrt 2) / 2) = 0
        ring
    have hrd : EArc.radii (⟨2, 0⟩ : P ℝ) 2 1 = .ok (2, 1) := by
      unfold EArc.radii
      simp [pdiv, bind, Except.bind, pure, Except.pure, real_beq]
    have hcp : EArc.centerPrime (⟨2, 0⟩ : P ℝ) 2 1 false true = .ok ⟨0, 0⟩ := by
      unfold EArc.centerPrime
      simp [pdiv, psqrt, bind, Except.bind, pure, Except.pure, real_beq]
    refine ⟨1/1000000, ⟨Real.sqrt 2, -Real.sqrt 2⟩, ⟨-Real.sqrt 2, Real.sqrt 2⟩,
      EArc.build (1/1000000) ⟨Real.sqrt 2, -Real.sqrt 2⟩ ⟨-Real.sqrt 2, Real.sqrt 2⟩ ⟨2, 0⟩ ⟨0, 0⟩ 2 1 false true (Real.pi / 4), by norm_num, ?_, ?_⟩
    · unfold EArc.fromEndpoints
      simp only [isZero_false_of (show (1/1000000 : ℝ) ≤ |2| by norm_num), isZero_false_of (show (1/1000000 : ℝ) ≤ |1| by norm_num), Bool.or_self,
        Bool.false_eq_true, if_false, hv, bind, Except.bind, hrd, hcp]
      rfl
    · unfold Ell.On Ell.level Ell.u Ell.v EArc.build EArc.mk'
      simp only [rotate_real, P.add, real_add, real_div, real_abs, Real.cos_pi_div_four, Real.sin_pi_div_four]
      norm_num
      constructor <;> intro h <;> linarith

end Verif.Geom
