import Verif.Ext.Props2
import Verif.Ext.Props21

/-!
# C126, C127: the spacing of the lines and their random angles
-/

set_option linter.unusedSectionVars false

namespace Verif.Ext
open Verif PyFloat PyTrig Geom

/-! ## Spacing -/

theorem pmod_real (a b : ℝ) (hb : b ≠ 0) : pmod a b = b * Int.fract (a / b) := by
  have hq : a = b * (a / b) := by field_simp
  have hf : fmod a b = a - b * (if a / b < 0 then (⌈a / b⌉ : ℝ) else (⌊a / b⌋ : ℝ)) := by
    show fmodReal a b = _
    unfold fmodReal
    rw [if_neg hb]
    dsimp only
    by_cases h : 0 ≤ a / b
    · rw [if_pos h, if_neg (not_lt.2 h)]
    · rw [if_neg h, if_pos (not_le.1 h)]
  unfold pmod
  rw [hf]
  generalize a / b = q at hq
  subst hq
  simp only [real_lt, real_zero, real_add, Bool.and_eq_true, Bool.or_eq_true, decide_eq_true_eq]
  by_cases hq : q < 0
  · rw [if_pos hq]
    by_cases hi : (⌈q⌉ : ℝ) = q
    · have hfl : Int.fract q = 0 := by rw [← hi]; exact Int.fract_intCast _
      rw [hfl, hi, if_neg (by simp)]
      ring
    · have hc : (⌈q⌉ : ℝ) = ⌊q⌋ + 1 := by
        have : ⌈q⌉ = ⌊q⌋ + 1 := by
          rw [Int.ceil_eq_iff]
          push_cast
          refine ⟨?_, (Int.lt_floor_add_one q).le⟩
          have := Int.floor_le q
          rcases lt_or_eq_of_le this with h | h
          · linarith
          · exact absurd (by rw [← h, Int.ceil_intCast]) hi
        rw [this]; push_cast; rfl
      have hlt : q < ⌈q⌉ := lt_of_le_of_ne (Int.le_ceil q) fun h => hi h.symm
      have h1 : (b * q - b * ⌈q⌉ < 0 ∧ 0 < b) ∨ (0 < b * q - b * ⌈q⌉ ∧ b < 0) := by
        rcases lt_or_gt_of_ne hb with h | h
        · exact .inr ⟨by nlinarith, h⟩
        · exact .inl ⟨by nlinarith, h⟩
      rw [if_pos h1, Int.fract, hc]
      ring
  · rw [if_neg hq]
    have h2 := Int.floor_le q
    rw [if_neg]
    · rw [Int.fract]; ring
    · rintro (⟨h, h'⟩ | ⟨h, h'⟩) <;> nlinarith

/-- Specification: the factor of the spacing at the part `t` of a cycle, for the formula and the option to invert it. -/
def WantedScale (log : ℝ → ℝ) (e : ℝ) (c : LineArgs ℝ) (t s : ℝ) : Prop :=
  ∃ u, (c.formula = "linear".toList → u = t) ∧ (c.formula = "log".toList → u = log (1 + (e - 1) * t)) ∧
    (c.formula = "sine".toList → u = |Real.sin (2 * Real.pi * t)|) ∧
    (c.formula ≠ "linear".toList → c.formula ≠ "log".toList → c.formula ≠ "sine".toList → u = 1) ∧
    (c.invert = true → s = 1 - u) ∧ (c.invert = false → s = u)

theorem spacingScale_wanted (log : ℝ → ℝ) (e : ℝ) (c : LineArgs ℝ) (t : ℝ) : WantedScale log e c t (spacingScale log e c t) := by
  have h1 : "log".toList ≠ "linear".toList := by decide +kernel
  have h2 : "sine".toList ≠ "linear".toList := by decide +kernel
  have h3 : "sine".toList ≠ "log".toList := by decide +kernel
  refine ⟨if c.formula = "linear".toList then t else if c.formula = "log".toList then log (t * (e - 1) + 1) else
    if c.formula = "sine".toList then |Real.sin (t * Real.pi * 2)| else 1, ?_, ?_, ?_, ?_, ?_, ?_⟩
  · intro h; rw [if_pos h]
  · intro h; rw [h, if_neg h1, if_pos rfl]; congr 1; ring
  · intro h; rw [h, if_neg h2, if_neg h3, if_pos rfl]; congr 2; ring
  · intro a b d; rw [if_neg a, if_neg b, if_neg d]
  · intro h; unfold spacingScale; rw [h]; simp
  · intro h; unfold spacingScale; rw [h]; simp

/-- **C126** (spacing): for a number of cycles and an extent other than zero, the distance to the next line is the spacing times the factor of the formula at the part of
the current cycle that is done (the cycles divide the extent evenly, and start again at its beginning), but not less than the least and not more than the greatest distance. -/
theorem C126_spacing (log : ℝ → ℝ) (e : ℝ) (c : LineArgs ℝ) (axis vmin vmax offset extent : ℝ) (hc : c.cycles ≠ 0) (hx : extent ≠ 0) :
    ∃ s, WantedScale log e c (Int.fract (offset / extent * c.cycles)) s ∧
      scaledSpacing log e c axis vmin vmax offset extent = .ok (min (max (axis * s) vmin) vmax) := by
  refine ⟨_, spacingScale_wanted log e c _, ?_⟩
  have hi : extent / c.cycles ≠ 0 := div_ne_zero hx hc
  unfold scaledSpacing
  rw [pdiv_real hc]
  simp only [bind, Except.bind]
  rw [pdiv_real hi, pmod_real _ _ hi]
  dsimp only
  rw [pmin_real, pmax_real]
  have : extent / c.cycles * Int.fract (offset / (extent / c.cycles)) / (extent / c.cycles) = Int.fract (offset / extent * c.cycles) := by
    rw [mul_div_assoc, mul_comm, div_mul_cancel₀ _ hi]
    congr 1
    field_simp
  rw [this]
  rfl

/-- Non-vacuity of `C126_spacing`: a quarter into the third cycle of four, the linear formula asks for a quarter of the spacing. -/
example : ∃ c : LineArgs ℝ, c.cycles ≠ 0 ∧ ∀ s, WantedScale id 3 c (Int.fract ((9 / 16 : ℝ) / 1 * c.cycles)) s → s = 1 / 4 := by
  refine ⟨{ cliprect := ⟨⟨0, 0⟩, ⟨1, 1⟩⟩, spacing := 1, angle := 0, spacingJitter := 0, angleJitter := 0, vmin := 0, vmax := 0, cycles := 4, formula := "linear".toList, invert := false }, by norm_num, ?_⟩
  rintro s ⟨u, h1, -, -, -, -, h2⟩
  rw [h2 rfl, h1 rfl]
  have : ((9 / 16 : ℝ) / 1 * 4) = 1 / 4 + ((2 : ℤ) : ℝ) := by norm_num
  rw [this, Int.fract_add_intCast, Int.fract_eq_self]
  norm_num

/-! ## Random angles -/

/-- **C127** (random angles): whatever the spacing and the random numbers are (the angles from minus half a turn to half a turn), every line that is drawn is a part of a line of
the grid, moved to its place and turned about its middle by an angle of at most the one given. -/
theorem C127_jitter (eps : ℝ) (heps : 0 < eps) (log : ℝ → ℝ) (e : ℝ) (fuel : Nat) (rnd : Noise ℝ) (hr : ∀ k, |rnd.angle k| ≤ Real.pi) (c : LineArgs ℝ)
    (ls : List (Line ℝ)) (h : lineSet eps log e fuel rnd c = some (.ok ls)) (l : Line ℝ) (hl : l ∈ ls) :
    ∃ (d φ s t : ℝ), |φ| ≤ |c.angleJitter| ∧ 0 ≤ s ∧ s ≤ t ∧ t ≤ 1 ∧
      ∀ g, g = movedLine (lineVertical (lineAngle c.angle)) (startLine c.cliprect (lineAngle c.angle)) d →
        l = ⟨rotAbout (segPt g (1 / 2)) φ (segPt g s), rotAbout (segPt g (1 / 2)) φ (segPt g t)⟩ := by
  unfold lineSet at h
  dsimp only at h
  cases ha : axisSpacing eps c.spacing (lineAngle c.angle) with
  | error x => rw [ha] at h; cases h
  | ok axis =>
    rw [ha] at h
    obtain ⟨k, d, hk⟩ := loop_mem eps log e c rnd _ axis _ _ _ fuel _ _ _ ls h l hl
    obtain ⟨-, -, s, t, h0, h01, h1, hlr⟩ := kept_within eps heps _ _ _ hk
    have hturn : ∀ (φ : ℝ) (g : Line ℝ) (u : ℝ), segPt (⟨rotAbout (segPt g (1 / 2)) φ g.p1, rotAbout (segPt g (1 / 2)) φ g.p2⟩ : Line ℝ) u = rotAbout (segPt g (1 / 2)) φ (segPt g u) := by
      intro φ g u
      unfold segPt rotAbout
      dsimp only
      apply P.ext_real <;> ring
    have h0rot : ∀ (o p : P ℝ), rotAbout o 0 p = p := by
      intro o p
      unfold rotAbout
      rw [Real.cos_zero, Real.sin_zero]
      apply P.ext_real <;> simp
    have hp := Real.pi_pos
    refine ⟨d, if isZero eps c.angleJitter then 0 else if isZero eps (rnd.angle k *. c.angleJitter /. pi) then 0 else rnd.angle k * c.angleJitter / Real.pi, s, t, ?_, h0, h01, h1, ?_⟩
    · split
      · simp
      · split
        · simp
        · rw [abs_div, abs_mul, abs_of_pos hp, div_le_iff₀ hp, mul_comm]
          exact mul_le_mul_of_nonneg_left (hr k) (abs_nonneg _)
    · intro g hg
      rw [← hg] at hlr
      rw [hlr]
      unfold jitteredLine
      split
      · rw [h0rot, h0rot]
      · dsimp only
        split
        · rw [h0rot, h0rot]
        · have hm : g.midpoint = segPt g (1 / 2) := midpoint_segPt g
          have : g.transform (Mat.rotate (rnd.angle k *. c.angleJitter /. pi) g.midpoint) =
              ⟨rotAbout (segPt g (1 / 2)) (rnd.angle k * c.angleJitter / Real.pi) g.p1, rotAbout (segPt g (1 / 2)) (rnd.angle k * c.angleJitter / Real.pi) g.p2⟩ := by
            unfold Line.transform P.transform
            rw [rotate_apply, rotate_apply, hm]
            rfl
          rw [this, hturn, hturn]

end Verif.Ext
