import Verif.Cam.Props11
import Verif.Geom.Props7
import Mathlib.Analysis.Real.Pi.Bounds

/-!
# C100, arcs: tool marks along arcs in the preview
-/

set_option linter.unusedSectionVars false

namespace Verif.Cam
open Verif PyFloat PyTrig Geom GCode

/-- The marks of a segment of positive length. -/
theorem maybeMarks_exact (c : PlotCfg ℝ) (pl : Plotter ℝ) (len a0 a1 : ℝ) (pa : ℝ → P ℝ) (hshow : c.showMarks = true)
    (heps : 0 < c.eps) (hint : 0 < c.lineInterval) (ha0 : pl.a = some a0) (hlpos : 0 < len)
    (hn : c.eps * intervals len c.lineInterval ≤ 1) (hf : intervals len c.lineInterval + 1 < c.fuel) :
    pl.maybeMarks c len pa (some a1) = .ok (((List.range (intervals len c.lineInterval + 1)).map fun i : ℕ =>
      ((i : ℝ) / intervals len c.lineInterval, a0 + (i : ℝ) * ((a1 - a0) / intervals len c.lineInterval))).foldl (fun p ua => p.mark c (pa ua.1) ua.2) pl) := by
  set n := intervals len c.lineInterval with hnn
  have hnum : numMarkers c len (a1 -. a0) = .ok (n : ℤ) := by
    unfold numMarkers
    rw [if_pos (by simpa using hlpos)]
    have : pdiv len c.lineInterval = .ok (len / c.lineInterval) := by
      unfold pdiv
      rw [if_neg (by simpa using hint.ne')]
      rfl
    rw [this]
    simp only [bind, Except.bind, pure, Except.pure]
    congr 1
    have ht : (trunc (len / c.lineInterval) : ℤ) = ((⌊len / c.lineInterval⌋₊ : ℕ) : ℤ) := by
      have h0 : 0 ≤ len / c.lineInterval := (div_pos hlpos hint).le
      show (if 0 ≤ len / c.lineInterval then ⌊len / c.lineInterval⌋ else ⌈len / c.lineInterval⌉) = _
      rw [if_pos h0]
      exact (Int.natCast_floor_eq_floor h0).symm
    rw [ht, hnn]
    unfold intervals
    push_cast
    rfl
  have hnpos : 0 < n := by rw [hnn]; unfold intervals; omega
  have hsteps := markSteps_exact c.eps heps n hnpos hn a0 (a1 - a0) (n + 1) 0 c.fuel (by omega) hf
  simp only [Nat.cast_zero, zero_div, zero_mul, add_zero, Nat.zero_add] at hsteps
  unfold Plotter.maybeMarks
  rw [if_pos hshow]
  unfold Plotter.marks
  rw [ha0]
  dsimp only
  rw [hnum]
  simp only [bind, Except.bind]
  have : markSteps c.eps (one /. ofInt (n : ℤ)) ((a1 -. a0) /. ofInt (n : ℤ)) c.fuel zero a0 =
      some ((List.range (n + 1)).map fun i : ℕ => ((i : ℝ) / n, a0 + (i : ℝ) * ((a1 - a0) / n))) := by
    simpa using hsteps
  rw [this]

/-- Specification: the marks of a tool that goes from `p` around `center` by `δ` in `n` equal steps, turning evenly from `a0` to `a1`. -/
noncomputable def arcMarks (w off : ℝ) (center p : P ℝ) (δ a0 a1 : ℝ) (n : ℕ) : List (Line ℝ) :=
  (List.range (n + 1)).map fun k : ℕ => toolMark w off (rotAbout center (k / n * δ) p) (a0 + k / n * (a1 - a0))

/-- The angle measured between the ends is the machine's angle or its complement to a whole turn. -/
theorem angle2_turn (eps : ℝ) (c p q : P ℝ) (δ : ℝ) (hp : 0 < sqDist p c) (h : rotAbout c δ p = q) (hfar : eps ^ 2 ≤ sqDist p q) (hlo : -Real.pi < δ) (hhi : δ ≤ Real.pi) :
    c.angle2 eps p q = δ := by
  rw [angle2_real eps c p q hfar, ← h]
  have e1 : (p.x - c.x) * ((rotAbout c δ p).y - c.y) - ((rotAbout c δ p).x - c.x) * (p.y - c.y) = sqDist p c * Real.sin δ := by
    simp only [rotAbout, sqDist]; ring
  have e2 : (p.x - c.x) * ((rotAbout c δ p).x - c.x) + (p.y - c.y) * ((rotAbout c δ p).y - c.y) = sqDist p c * Real.cos δ := by
    simp only [rotAbout, sqDist]; ring
  rw [e1, e2]
  show Complex.arg _ = δ
  have : (⟨sqDist p c * Real.cos δ, sqDist p c * Real.sin δ⟩ : ℂ) = (sqDist p c : ℂ) * (Complex.cos δ + Complex.sin δ * Complex.I) := by
    apply Complex.ext <;> simp [← Complex.ofReal_cos, ← Complex.ofReal_sin]
  rw [this]
  exact Complex.arg_mul_cos_add_sin_mul_I hp ⟨hlo, hhi⟩

/-- The marks along an arc whose measured angle is `σ`. -/
theorem arc_marks (c : PlotCfg ℝ) (pl : Plotter ℝ) (center : P ℝ) (e : Endp ℝ) (cw : Bool) (x y a0 a1 σ : ℝ) (hshow : c.showMarks = true)
    (heps : 0 < c.eps) (htol : 0 < c.tol) (hoff : c.toolOffset = 0 ∨ c.tol ≤ |c.toolOffset|) (hint : 0 < c.lineInterval)
    (hex : e.x = some x) (hey : e.y = some y) (ha0 : pl.a = some a0) (ha1 : e.a = some a1) (hr : 0 < sqDist pl.cur center)
    (hσ : center.angle2 c.eps pl.cur ⟨x, y⟩ = σ) (hrot : rotAbout center σ pl.cur = ⟨x, y⟩) (hσ0 : σ ≠ 0)
    (hn : c.eps * intervals (√(sqDist pl.cur center) * |σ|) c.lineInterval ≤ 1) (hf : intervals (√(sqDist pl.cur center) * |σ|) c.lineInterval + 1 < c.fuel) :
    ∃ pl', pl.plotArc c center e cw = .ok pl' ∧
      pl'.toolmarks = pl.toolmarks ++ arcMarks c.toolWidth c.toolOffset center pl.cur σ a0 a1 (intervals (√(sqDist pl.cur center) * |σ|) c.lineInterval) := by
  set r := √(sqDist pl.cur center) with hrdef
  have hr0 : 0 < r := Real.sqrt_pos.2 hr
  have hrr : r ^ 2 = sqDist pl.cur center := Real.sq_sqrt hr.le
  have hdist : center.distance pl.cur = r := by
    rw [distance_real, hrdef]; congr 1; unfold sqDist; ring
  have hgeom : plotArcGeom c pl.cur center x y = ⟨pl.cur, ⟨x, y⟩, r, σ, center⟩ := by
    unfold plotArcGeom; rw [hdist, hσ]
  have hon : Arc.OnCircle ⟨pl.cur, ⟨x, y⟩, r, σ, center⟩ := by
    refine ⟨hr0.le, hrr.symm, ?_⟩
    show sqDist ⟨x, y⟩ center = r ^ 2
    rw [← hrot, sqDist_rotAbout, hrr]
  have hlen : Arc.length (⟨pl.cur, ⟨x, y⟩, r, σ, center⟩ : Arc ℝ) = r * |σ| := by
    unfold Arc.length
    simp only [real_abs, real_mul, abs_mul, abs_of_pos hr0]
  have hlpos : 0 < r * |σ| := mul_pos hr0 (abs_pos.2 hσ0)
  set n := intervals (r * |σ|) c.lineInterval with hnn
  have hnpos : 0 < n := by rw [hnn]; unfold intervals; omega
  have hn' : (0 : ℝ) < n := by exact_mod_cast hnpos
  have key : ∀ (q : Plotter ℝ) (d : List (Drawn ℝ)), (Plotter.moveTo { q with drawn := d } e ⟨x, y⟩).toolmarks = q.toolmarks := fun q d => rfl
  unfold Plotter.plotArc
  rw [hex, hey, ha1]
  dsimp only
  rw [hgeom, hlen, maybeMarks_exact c pl _ a0 a1 _ hshow heps hint ha0 hlpos hn hf]
  dsimp only
  refine ⟨_, rfl, ?_⟩
  rw [key, foldl_marks, List.map_map]
  congr 1
  unfold arcMarks
  apply List.map_congr_left
  intro i hi
  have hin : i ≤ n := by have := List.mem_range.1 hi; omega
  simp only [Function.comp_apply]
  rw [markLine_real c hoff _ _ htol]
  have hpt : Arc.pointAt (⟨pl.cur, ⟨x, y⟩, r, σ, center⟩ : Arc ℝ) ((i : ℝ) / n) = rotAbout center (i / n * σ) pl.cur := by
    obtain ⟨-, -, hhigh, hmid, -⟩ := C62_points_on_arc _ hon ((i : ℝ) / n)
    rcases lt_or_eq_of_le hin with h | h
    · exact hmid hσ0 (by positivity) ((div_lt_one hn').2 (by exact_mod_cast h))
    · rw [hhigh hσ0 (by rw [h, div_self hn'.ne']), h, div_self hn'.ne', one_mul, hrot]
  rw [hpt]
  congr 1
  ring

/-- **C100** (arcs): with tool marks on, a feed along an arc of less than half a turn adds `n + 1` marks: at the two ends and at the points that divide the arc of the
machine in `n` equal parts, turned evenly from the angle before to the angle after, where `n` is the length of the arc over the marking interval, rounded down, at
least one.  Missing: longer arcs (`C100_refuted_long`). -/
theorem C100_arc_marks_partial (c : PlotCfg ℝ) (pl : Plotter ℝ) (center : P ℝ) (e : Endp ℝ) (cw : Bool) (x y a0 a1 δ : ℝ) (hshow : c.showMarks = true)
    (heps : 0 < c.eps) (htol : 0 < c.tol) (hoff : c.toolOffset = 0 ∨ c.tol ≤ |c.toolOffset|) (hint : 0 < c.lineInterval)
    (hex : e.x = some x) (hey : e.y = some y) (ha0 : pl.a = some a0) (ha1 : e.a = some a1) (hr : 0 < sqDist pl.cur center)
    (hm : MachineArc cw center pl.cur ⟨x, y⟩ δ) (hδ : |δ| < Real.pi) (hfar : c.eps ^ 2 ≤ sqDist pl.cur ⟨x, y⟩)
    (hn : c.eps * intervals (√(sqDist pl.cur center) * |δ|) c.lineInterval ≤ 1) (hf : intervals (√(sqDist pl.cur center) * |δ|) c.lineInterval + 1 < c.fuel) :
    ∃ pl', pl.plotArc c center e cw = .ok pl' ∧
      pl'.toolmarks = pl.toolmarks ++ arcMarks c.toolWidth c.toolOffset center pl.cur δ a0 a1 (intervals (√(sqDist pl.cur center) * |δ|) c.lineInterval) := by
  rw [abs_lt] at hδ
  refine arc_marks c pl center e cw x y a0 a1 δ hshow heps htol hoff hint hex hey ha0 ha1 hr (angle2_turn _ _ _ _ _ hr hm.1 hfar hδ.1 hδ.2.le) hm.1 ?_ hn hf
  have h2 := hm.2
  cases cw <;> simp only [Bool.false_eq_true, if_true, if_false] at h2
  · exact h2.1.ne'
  · exact h2.2.ne

/-- The part of **C100** that fails: for every arc of more than half a turn (and less than a whole one) the marks are along the rest of the circle, on the other side of the
chord, from the start to the end in the opposite direction. -/
theorem C100_refuted_long (c : PlotCfg ℝ) (pl : Plotter ℝ) (center : P ℝ) (e : Endp ℝ) (cw : Bool) (x y a0 a1 δ : ℝ) (hshow : c.showMarks = true)
    (heps : 0 < c.eps) (htol : 0 < c.tol) (hoff : c.toolOffset = 0 ∨ c.tol ≤ |c.toolOffset|) (hint : 0 < c.lineInterval)
    (hex : e.x = some x) (hey : e.y = some y) (ha0 : pl.a = some a0) (ha1 : e.a = some a1) (hr : 0 < sqDist pl.cur center)
    (hm : MachineArc cw center pl.cur ⟨x, y⟩ δ) (hδ : Real.pi < |δ|) (hδ2 : |δ| < 2 * Real.pi) (hfar : c.eps ^ 2 ≤ sqDist pl.cur ⟨x, y⟩)
    (hn : c.eps * intervals (√(sqDist pl.cur center) * (2 * Real.pi - |δ|)) c.lineInterval ≤ 1)
    (hf : intervals (√(sqDist pl.cur center) * (2 * Real.pi - |δ|)) c.lineInterval + 1 < c.fuel) :
    ∃ pl' δ', |δ'| = 2 * Real.pi - |δ| ∧ δ' * δ < 0 ∧ pl.plotArc c center e cw = .ok pl' ∧
      pl'.toolmarks = pl.toolmarks ++ arcMarks c.toolWidth c.toolOffset center pl.cur δ' a0 a1 (intervals (√(sqDist pl.cur center) * (2 * Real.pi - |δ|)) c.lineInterval) := by
  have hpi := Real.pi_pos
  have h2 := hm.2
  have main : ∀ σ : ℝ, |σ| = 2 * Real.pi - |δ| → σ * δ < 0 → rotAbout center σ pl.cur = ⟨x, y⟩ →
      ∃ pl' δ', |δ'| = 2 * Real.pi - |δ| ∧ δ' * δ < 0 ∧ pl.plotArc c center e cw = .ok pl' ∧
      pl'.toolmarks = pl.toolmarks ++ arcMarks c.toolWidth c.toolOffset center pl.cur δ' a0 a1 (intervals (√(sqDist pl.cur center) * (2 * Real.pi - |δ|)) c.lineInterval) := by
    intro σ hab hneg hrot
    have hσ0 : σ ≠ 0 := by rintro rfl; simp at hneg
    have hlt : |σ| < Real.pi := by rw [hab]; linarith
    rw [abs_lt] at hlt
    obtain ⟨pl', g1, g2⟩ := arc_marks c pl center e cw x y a0 a1 σ hshow heps htol hoff hint hex hey ha0 ha1 hr (angle2_turn _ _ _ _ _ hr hrot hfar hlt.1 hlt.2.le) hrot hσ0
      (by rw [hab]; exact hn) (by rw [hab]; exact hf)
    exact ⟨pl', σ, hab, hneg, g1, by rw [g2, hab]⟩
  cases cw <;> simp only [Bool.false_eq_true, if_true, if_false] at h2
  · rw [abs_of_pos h2.1] at hδ hδ2
    refine main (δ - 2 * Real.pi) ?_ ?_ ?_
    · rw [abs_of_neg (by linarith), abs_of_pos h2.1]; ring
    · nlinarith
    · rw [← hm.1]; unfold rotAbout; rw [Real.cos_sub_two_pi, Real.sin_sub_two_pi]
  · rw [abs_of_neg h2.2] at hδ hδ2
    refine main (δ + 2 * Real.pi) ?_ ?_ ?_
    · rw [abs_of_pos (by linarith), abs_of_neg h2.2]; ring
    · nlinarith
    · rw [← hm.1]; unfold rotAbout; rw [Real.cos_add_two_pi, Real.sin_add_two_pi]

/-- Non-vacuity: a quarter turn against the clock from (1, 0) around the origin gets two marks. -/
example : ∃ pl', ({ (Plotter.start : Plotter ℝ) with cur := ⟨1, 0⟩ }).plotArc demoMarks ⟨0, 0⟩ ⟨some 0, some 1, some 0, some (Real.pi / 2)⟩ false = .ok pl' ∧
    pl'.toolmarks.length = 2 := by
  have hpi := Real.pi_pos
  have hsq : sqDist (⟨1, 0⟩ : P ℝ) ⟨0, 0⟩ = 1 := by norm_num [sqDist]
  have hint : intervals (√(sqDist (⟨1, 0⟩ : P ℝ) ⟨0, 0⟩) * |Real.pi / 2|) demoMarks.lineInterval = 1 := by
    rw [hsq, Real.sqrt_one, one_mul, abs_of_pos (by linarith)]
    unfold intervals demoMarks
    have : ⌊Real.pi / 2 / 2⌋₊ = 0 := by
      rw [Nat.floor_eq_zero]; linarith [Real.pi_lt_d2]
    dsimp only
    rw [this]; rfl
  obtain ⟨pl', h1, h2⟩ := C100_arc_marks_partial demoMarks ({ (Plotter.start : Plotter ℝ) with cur := ⟨1, 0⟩ }) ⟨0, 0⟩ ⟨some 0, some 1, some 0, some (Real.pi / 2)⟩ false 0 1 0
    (Real.pi / 2) (Real.pi / 2) rfl (by unfold demoMarks; norm_num) (by unfold demoMarks; norm_num) (.inl rfl) (by unfold demoMarks; norm_num) rfl rfl
    (by unfold Plotter.start; simp) rfl (by dsimp only; rw [hsq]; norm_num)
    ⟨by apply P.ext_real <;> simp [rotAbout], by simp only [Bool.false_eq_true, if_false]; constructor <;> linarith⟩
    (by rw [abs_of_pos (by linarith)]; linarith) (by unfold demoMarks sqDist; norm_num)
    (by dsimp only; rw [hint]; unfold demoMarks; norm_num) (by dsimp only; rw [hint]; unfold demoMarks; norm_num)
  refine ⟨pl', h1, ?_⟩
  rw [h2]
  unfold arcMarks
  dsimp only
  rw [hint]
  rfl

end Verif.Cam
