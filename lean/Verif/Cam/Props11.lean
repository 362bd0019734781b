import Verif.Cam.Props10
import Verif.Geom.Props6

/-!
# C99, C100: arcs and tool marks in the preview
-/

set_option linter.unusedSectionVars false

namespace Verif.Cam
open Verif PyFloat PyTrig Geom GCode

/-! ## C99 -/

/-- Specification: the machine moves from `p` around `c` to `q`, turning by `δ`: at most once around, against the clock for G3,
with the clock for G2. -/
def MachineArc (cw : Bool) (c p q : P ℝ) (δ : ℝ) : Prop :=
  rotAbout c δ p = q ∧ if cw then -(2 * Real.pi) ≤ δ ∧ δ < 0 else 0 < δ ∧ δ ≤ 2 * Real.pi

/-- Specification: the SVG arc (SVG 1.1, section 8.3.8) from `p` to `q` with equal radii `r`, the large-arc flag 0 and the given sweep
flag: around a point `c` at distance `r`, turning by an angle `δ` of at most half a turn, positive iff the sweep flag is set. -/
def SvgArc (r : ℝ) (sweep : Bool) (p q c : P ℝ) (δ : ℝ) : Prop :=
  sqDist c p = r ^ 2 ∧ rotAbout c δ p = q ∧ if sweep then 0 < δ ∧ δ ≤ Real.pi else -Real.pi ≤ δ ∧ δ < 0

theorem chord_cos (c p : P ℝ) (δ : ℝ) : sqDist p (rotAbout c δ p) = 2 * sqDist c p * (1 - Real.cos δ) := by
  unfold sqDist rotAbout
  dsimp only
  have := Real.sin_sq_add_cos_sq δ
  linear_combination ((p.x - c.x) ^ 2 + (p.y - c.y) ^ 2) * this

theorem centre_unique {c c' p : P ℝ} {δ : ℝ} (hδ : Real.cos δ ≠ 1) (h : rotAbout c δ p = rotAbout c' δ p) : c = c' := by
  unfold rotAbout at h
  injection h with h1 h2
  have hs := Real.sin_sq_add_cos_sq δ
  have hne : 1 - Real.cos δ ≠ 0 := fun h => hδ (by linarith)
  have hx : (1 - Real.cos δ) * (c.x - c'.x) = 0 := by
    have : (1 - Real.cos δ) * (2 * (c.x - c'.x)) = 0 := by
      linear_combination (1 - Real.cos δ) * h1 - Real.sin δ * h2 - (c.x - c'.x) * hs
    linarith
  have hy : (1 - Real.cos δ) * (c.y - c'.y) = 0 := by
    have : (1 - Real.cos δ) * (2 * (c.y - c'.y)) = 0 := by
      linear_combination Real.sin δ * h1 + (1 - Real.cos δ) * h2 - (c.y - c'.y) * hs
    linarith
  apply P.ext_real
  · have := (mul_eq_zero.1 hx).resolve_left hne; linarith
  · have := (mul_eq_zero.1 hy).resolve_left hne; linarith

theorem cos_ne_one {δ : ℝ} (h0 : δ ≠ 0) (h1 : |δ| < 2 * Real.pi) : Real.cos δ ≠ 1 := by
  intro h
  rw [abs_lt] at h1
  exact h0 ((Real.cos_eq_one_iff_of_lt_of_lt h1.1 h1.2).1 h)

/-- SVG arcs are determined by the element. -/
theorem svgArc_unique {r : ℝ} {sweep : Bool} {p q c c' : P ℝ} {δ δ' : ℝ} (hr : r ≠ 0) (h : SvgArc r sweep p q c δ)
    (h' : SvgArc r sweep p q c' δ') : c' = c ∧ δ' = δ := by
  obtain ⟨h1, h2, h3⟩ := h
  obtain ⟨g1, g2, g3⟩ := h'
  have e1 := chord_cos c p δ
  have e2 := chord_cos c' p δ'
  rw [h2, h1] at e1
  rw [g2, g1] at e2
  have hcos : Real.cos δ' = Real.cos δ := by
    have : 2 * r ^ 2 * (1 - Real.cos δ') = 2 * r ^ 2 * (1 - Real.cos δ) := by rw [← e1, ← e2]
    have hr2 : 2 * r ^ 2 ≠ 0 := by positivity
    have := mul_left_cancel₀ hr2 this
    linarith
  have hpi := Real.pi_pos
  have hδ : δ' = δ ∧ δ ≠ 0 ∧ |δ| < 2 * Real.pi := by
    cases sweep
    · simp only [Bool.false_eq_true, if_false] at h3 g3
      refine ⟨?_, by linarith, by rw [abs_lt]; constructor <;> linarith⟩
      have := Real.injOn_cos (x₁ := -δ') (x₂ := -δ) ⟨by linarith, by linarith⟩ ⟨by linarith, by linarith⟩
        (by rw [Real.cos_neg, Real.cos_neg]; exact hcos)
      linarith
    · simp only [if_true] at h3 g3
      refine ⟨?_, by linarith, by rw [abs_lt]; constructor <;> linarith⟩
      exact Real.injOn_cos ⟨by linarith, by linarith⟩ ⟨by linarith, by linarith⟩ hcos
  refine ⟨?_, hδ.1⟩
  have := hδ.1
  subst this
  exact (centre_unique (cos_ne_one hδ.2.1 hδ.2.2) (h2.trans g2.symm)).symm

/-- What a successful arc call draws when the preview shows the tool where it is. -/
theorem arc_drawn {c : PlotCfg ℝ} {s s' : Session ℝ} {cw : Bool} {x y i j : ℝ} {a z f : Option ℝ} {com : Option Str}
    (h : s.step c (.feedArc cw x y i j a z f com) = .ok s') (hx : s.gen.last 'X' = some s.pl.cur.x)
    (hy : s.gen.last 'Y' = some s.pl.cur.y) :
    ∃ r, r = Real.sqrt (i ^ 2 + j ^ 2) ∧ s'.pl.drawn.filter Drawn.isPath = s.pl.drawn.filter Drawn.isPath ++
      [.arc s.pl.cur ⟨x, y⟩ r (!cw)] := by
  obtain ⟨hg, ⟨d, hd, gx, gy, ex, ey, hs⟩, -, ht⟩ := step_plot (call := .feedArc cw x y i j a z f com) trivial h
  have hcur : s'.pl.cur = ⟨x, y⟩ := by
    obtain ⟨h1, h2⟩ := ht trivial
    apply P.ext_real
    · have : some x = some s'.pl.cur.x := h1
      injection this with this; exact this.symm
    · have : some y = some s'.pl.cur.y := h2
      injection this with this; exact this.symm
  rw [hx] at ex
  rw [hy] at ey
  injection ex with ex
  injection ey with ey
  refine ⟨_, ?_, by rw [hd, hs, hcur]⟩
  rw [distance_real]
  unfold sqDist
  rw [← ex, ← ey]
  congr 1
  simp only [real_add]
  ring

/-- **C99**, the part that holds: if the preview shows the tool where it is, and an arc turns by at most half a turn, then the
element drawn for it is an SVG arc which is exactly the arc of the machine: the same centre and the same angle.  Missing: arcs of
more than half a turn (`C99_refuted_long`). -/
theorem C99_drawn_arc_partial (c : PlotCfg ℝ) (s s' : Session ℝ) (cw : Bool) (x y i j : ℝ) (a z f : Option ℝ) (com : Option Str)
    (h : s.step c (.feedArc cw x y i j a z f com) = .ok s') (hx : s.gen.last 'X' = some s.pl.cur.x)
    (hy : s.gen.last 'Y' = some s.pl.cur.y) (hij : i ≠ 0 ∨ j ≠ 0) (δ : ℝ)
    (hm : MachineArc cw ⟨s.pl.cur.x + i, s.pl.cur.y + j⟩ s.pl.cur ⟨x, y⟩ δ) (hδ : |δ| ≤ Real.pi) :
    ∃ r sweep, s'.pl.drawn.filter Drawn.isPath = s.pl.drawn.filter Drawn.isPath ++ [.arc s.pl.cur ⟨x, y⟩ r sweep] ∧
      ∀ c' δ', SvgArc r sweep s.pl.cur ⟨x, y⟩ c' δ' ↔ c' = ⟨s.pl.cur.x + i, s.pl.cur.y + j⟩ ∧ δ' = δ := by
  obtain ⟨r, hr, hd⟩ := arc_drawn h hx hy
  refine ⟨r, !cw, hd, ?_⟩
  have hpos : 0 < i ^ 2 + j ^ 2 := by rcases hij with h | h <;> positivity
  have hr0 : r ≠ 0 := by rw [hr]; exact (Real.sqrt_pos.2 hpos).ne'
  have hsvg : SvgArc r (!cw) s.pl.cur ⟨x, y⟩ ⟨s.pl.cur.x + i, s.pl.cur.y + j⟩ δ := by
    refine ⟨?_, hm.1, ?_⟩
    · rw [hr, Real.sq_sqrt hpos.le]; unfold sqDist; dsimp only; ring
    · have h2 := hm.2
      rw [abs_le] at hδ
      cases cw <;> simp only [Bool.not_false, Bool.not_true, Bool.false_eq_true, if_true, if_false] at h2 ⊢
      · exact ⟨h2.1, hδ.2⟩
      · exact ⟨hδ.1, h2.2⟩
  intro c' δ'
  constructor
  · exact svgArc_unique hr0 hsvg
  · rintro ⟨rfl, rfl⟩; exact hsvg

/-- The part of **C99** that fails, for every arc of more than half a turn and less than a whole one: what is drawn is an
arc around another centre. -/
theorem C99_refuted_long (c : PlotCfg ℝ) (s s' : Session ℝ) (cw : Bool) (x y i j : ℝ) (a z f : Option ℝ) (com : Option Str)
    (h : s.step c (.feedArc cw x y i j a z f com) = .ok s') (hx : s.gen.last 'X' = some s.pl.cur.x)
    (hy : s.gen.last 'Y' = some s.pl.cur.y) (hij : i ≠ 0 ∨ j ≠ 0) (δ : ℝ)
    (hm : MachineArc cw ⟨s.pl.cur.x + i, s.pl.cur.y + j⟩ s.pl.cur ⟨x, y⟩ δ) (h1 : Real.pi < |δ|) (h2 : |δ| < 2 * Real.pi) :
    ∃ r sweep, s'.pl.drawn.filter Drawn.isPath = s.pl.drawn.filter Drawn.isPath ++ [.arc s.pl.cur ⟨x, y⟩ r sweep] ∧
      ∀ δ', ¬ SvgArc r sweep s.pl.cur ⟨x, y⟩ ⟨s.pl.cur.x + i, s.pl.cur.y + j⟩ δ' := by
  obtain ⟨r, hr, hd⟩ := arc_drawn h hx hy
  refine ⟨r, !cw, hd, ?_⟩
  rintro δ' ⟨g1, g2, g3⟩
  have hpi := Real.pi_pos
  have hpos : 0 < i ^ 2 + j ^ 2 := by rcases hij with h | h <;> positivity
  have hrot := hm.1.trans g2.symm
  unfold rotAbout at hrot
  injection hrot with e1 e2
  dsimp only at e1 e2
  have hc : Real.cos δ = Real.cos δ' := by
    have : (i ^ 2 + j ^ 2) * (Real.cos δ - Real.cos δ') = 0 := by linear_combination (-i) * e1 - j * e2
    have := (mul_eq_zero.1 this).resolve_left hpos.ne'
    linarith
  have hs : Real.sin δ = Real.sin δ' := by
    have : (i ^ 2 + j ^ 2) * (Real.sin δ - Real.sin δ') = 0 := by linear_combination j * e1 - i * e2
    have := (mul_eq_zero.1 this).resolve_left hpos.ne'
    linarith
  have h3 := hm.2
  cases cw <;> simp only [Bool.not_false, Bool.not_true, Bool.false_eq_true, if_true, if_false] at h3 g3
  · rw [abs_of_pos h3.1] at h1 h2
    have n1 : Real.sin δ < 0 := by
      have : Real.sin (δ - 2 * Real.pi) < 0 := Real.sin_neg_of_neg_of_neg_pi_lt (by linarith) (by linarith)
      rwa [Real.sin_sub_two_pi] at this
    have n2 : 0 ≤ Real.sin δ' := Real.sin_nonneg_of_nonneg_of_le_pi g3.1.le g3.2
    linarith
  · rw [abs_of_neg h3.2] at h1 h2
    have n1 : 0 < Real.sin δ := by
      have : 0 < Real.sin (δ + 2 * Real.pi) := Real.sin_pos_of_pos_of_lt_pi (by linarith) (by linarith)
      rwa [Real.sin_add_two_pi] at this
    have n2 : Real.sin δ' ≤ 0 := Real.sin_nonpos_of_nonpos_of_neg_pi_le g3.2.le g3.1
    linarith

/-! ## C100 -/

/-- Specification: the mark of a tool of width `w` at the point `p`, trailing by `off`, pointing in the direction `a`: the line across the
direction, whose middle is behind the point by the offset. -/
noncomputable def toolMark (w off : ℝ) (p : P ℝ) (a : ℝ) : Line ℝ :=
  ⟨⟨p.x - off * Real.cos a - w / 2 * Real.sin a, p.y - off * Real.sin a + w / 2 * Real.cos a⟩,
   ⟨p.x - off * Real.cos a + w / 2 * Real.sin a, p.y - off * Real.sin a - w / 2 * Real.cos a⟩⟩

theorem markLine_real (c : PlotCfg ℝ) (hoff : c.toolOffset = 0 ∨ c.tol ≤ |c.toolOffset|) (p : P ℝ) (a : ℝ) (htol : 0 < c.tol) :
    (markLine c p a).2 = toolMark c.toolWidth c.toolOffset p a := by
  have hh : Real.cos (a - Real.pi) = -Real.cos a ∧ Real.sin (a - Real.pi) = -Real.sin a := ⟨Real.cos_sub_pi a, Real.sin_sub_pi a⟩
  have q1 : Real.cos (a + Real.pi / 2) = -Real.sin a ∧ Real.sin (a + Real.pi / 2) = Real.cos a :=
    ⟨Real.cos_add_pi_div_two a, Real.sin_add_pi_div_two a⟩
  have q2 : Real.cos (a - Real.pi / 2) = Real.sin a ∧ Real.sin (a - Real.pi / 2) = -Real.cos a :=
    ⟨Real.cos_sub_pi_div_two a, Real.sin_sub_pi_div_two a⟩
  unfold markLine toolMark
  dsimp only
  simp only [real_abs, real_sub, real_zero, sub_zero, real_lt, decide_eq_true_eq]
  rcases hoff with h0 | h0
  · rw [if_pos (by rw [h0, abs_zero]; exact htol), h0]
    simp only [P.add, P.fromPolar, real_add, real_sub, real_mul, real_div, real_cos, real_sin, real_pi, real_ofInt, Int.cast_ofNat, q1, q2]
    congr 1 <;> apply P.ext_real <;> dsimp only <;> ring
  · rw [if_neg (by linarith)]
    simp only [P.add, P.fromPolar, real_add, real_sub, real_mul, real_div, real_cos, real_sin, real_pi, real_ofInt, Int.cast_ofNat, q1, q2, hh]
    congr 1 <;> apply P.ext_real <;> dsimp only <;> ring

theorem markSteps_exact (eps : ℝ) (heps : 0 < eps) (n : ℕ) (hn : 0 < n) (hne : eps * n ≤ 1) (a0 rot : ℝ) :
    ∀ (m k fuel : ℕ), k + m = n + 1 → m < fuel →
      markSteps eps (1 / (n : ℝ)) (rot / n) fuel (k / n) (a0 + k * (rot / n)) =
        some ((List.range m).map fun i => (((k + i : ℕ) : ℝ) / n, a0 + ((k + i : ℕ) : ℝ) * (rot / n))) := by
  have hn' : (0 : ℝ) < n := by exact_mod_cast hn
  intro m
  induction m with
  | zero =>
    intro k fuel hk hf
    obtain ⟨f, rfl⟩ : ∃ f, fuel = f + 1 := ⟨fuel - 1, by omega⟩
    have hk : k = n + 1 := by omega
    unfold markSteps
    rw [if_neg]
    · rfl
    · simp only [real_lt, real_add, real_one, decide_eq_true_eq, not_lt]
      rw [hk, le_div_iff₀ hn']
      push_cast
      nlinarith
  | succ m ih =>
    intro k fuel hk hf
    obtain ⟨f, rfl⟩ : ∃ f, fuel = f + 1 := ⟨fuel - 1, by omega⟩
    have hkn : k ≤ n := by omega
    unfold markSteps
    rw [if_pos]
    · have := ih (k + 1) f (by omega) (by omega)
      simp only [real_add]
      rw [show (k : ℝ) / n + 1 / n = ((k + 1 : ℕ) : ℝ) / n by push_cast; ring,
        show a0 + k * (rot / n) + rot / n = a0 + ((k + 1 : ℕ) : ℝ) * (rot / n) by push_cast; ring, this]
      rw [List.range_succ_eq_map]
      simp only [Option.map_some, List.map_cons, List.map_map, Nat.add_zero]
      congr 2
      apply List.map_congr_left
      intro i _
      simp only [Function.comp_apply, Nat.succ_eq_add_one]
      rw [show k + 1 + i = k + (i + 1) by omega]
    · simp only [real_lt, real_add, real_one, decide_eq_true_eq]
      have : (k : ℝ) / n ≤ 1 := by rw [div_le_one hn']; exact_mod_cast hkn
      linarith

theorem foldl_marks (c : PlotCfg ℝ) (pa : ℝ → P ℝ) (l : List (ℝ × ℝ)) (pl : Plotter ℝ) :
    (l.foldl (fun pl ua => pl.mark c (pa ua.1) ua.2) pl).toolmarks = pl.toolmarks ++ l.map fun ua => (markLine c (pa ua.1) ua.2).2 := by
  induction l generalizing pl with
  | nil => simp
  | cons u l ih =>
    rw [List.foldl_cons, ih, List.map_cons]
    show pl.toolmarks ++ [_] ++ _ = _
    simp

/-- Number of intervals along a segment: its length over the interval wished, rounded down, at least one. -/
noncomputable def intervals (len wish : ℝ) : ℕ := max 1 ⌊len / wish⌋₊

/-- **C100** (lines): with tool marks on, a feed along a line of positive length adds `n + 1` marks: at the two ends and
at the points that divide the line in `n` equal parts, turned evenly from the angle before to the angle after, where `n` is the
length over the marking interval, rounded down, at least one.  (`n` up to the inverse of the resolution.)
Arcs: `C100_arc_marks_partial`.  Missing: the marks that are stored but not drawn because they coincide with the one before. -/
theorem C100_marks_partial (c : PlotCfg ℝ) (pl : Plotter ℝ) (e : Endp ℝ) (x y a0 a1 : ℝ) (hshow : c.showMarks = true)
    (heps : 0 < c.eps) (htol : 0 < c.tol) (hoff : c.toolOffset = 0 ∨ c.tol ≤ |c.toolOffset|) (hint : 0 < c.lineInterval)
    (hex : e.x = some x) (hey : e.y = some y) (ha0 : pl.a = some a0) (ha1 : e.a = some a1) (hne : pl.cur ≠ ⟨x, y⟩)
    (hn : c.eps * intervals (segLen ⟨pl.cur, ⟨x, y⟩⟩) c.lineInterval ≤ 1)
    (hf : intervals (segLen ⟨pl.cur, ⟨x, y⟩⟩) c.lineInterval + 1 < c.fuel) :
    ∃ pl', pl.plotFeed c e = .ok pl' ∧ pl'.toolmarks = pl.toolmarks ++
      (List.range (intervals (segLen ⟨pl.cur, ⟨x, y⟩⟩) c.lineInterval + 1)).map fun k : ℕ =>
        toolMark c.toolWidth c.toolOffset
          (segPt ⟨pl.cur, ⟨x, y⟩⟩ (k / intervals (segLen ⟨pl.cur, ⟨x, y⟩⟩) c.lineInterval))
          (a0 + k / intervals (segLen ⟨pl.cur, ⟨x, y⟩⟩) c.lineInterval * (a1 - a0)) := by
  set len := segLen ⟨pl.cur, ⟨x, y⟩⟩ with hlen
  set n := intervals len c.lineInterval with hnn
  have hlpos : 0 < len := by
    rw [hlen]
    unfold segLen
    apply Real.sqrt_pos.2
    rcases lt_or_eq_of_le (sqDist_nonneg pl.cur ⟨x, y⟩) with h | h
    · exact h
    · exfalso
      apply hne
      unfold sqDist at h
      apply P.ext_real
      · nlinarith [sq_nonneg (pl.cur.x - x), sq_nonneg (pl.cur.y - y)]
      · nlinarith [sq_nonneg (pl.cur.x - x), sq_nonneg (pl.cur.y - y)]
  have hnum : numMarkers c len (a1 -. a0) = .ok (n : ℤ) := by
    unfold numMarkers
    rw [if_pos (by simpa using hlpos)]
    have : pdiv len c.lineInterval = .ok (len / c.lineInterval) := by
      unfold pdiv
      rw [if_neg (by simpa using hint.ne')]
      rfl
    rw [this]
    simp only [bind, Except.bind, pure, Except.pure]
    congr 1
    have ht : (trunc (len / c.lineInterval) : ℤ) = ((⌊len / c.lineInterval⌋₊ : ℕ) : ℤ) := by
      have h0 : 0 ≤ len / c.lineInterval := (div_pos hlpos hint).le
      show (if 0 ≤ len / c.lineInterval then ⌊len / c.lineInterval⌋ else ⌈len / c.lineInterval⌉) = _
      rw [if_pos h0]
      exact (Int.natCast_floor_eq_floor h0).symm
    rw [ht, hnn]
    unfold intervals
    push_cast
    rfl
  have hnpos : 0 < n := by rw [hnn]; unfold intervals; omega
  have hsteps := markSteps_exact c.eps heps n hnpos hn a0 (a1 - a0) (n + 1) 0 c.fuel (by omega) hf
  simp only [Nat.cast_zero, zero_div, zero_mul, add_zero, Nat.zero_add] at hsteps
  have hmarks : pl.maybeMarks c len (Line.pointAt ⟨pl.cur, ⟨x, y⟩⟩) (some a1) =
      .ok (((List.range (n + 1)).map fun i : ℕ => ((i : ℝ) / n, a0 + (i : ℝ) * ((a1 - a0) / n))).foldl
        (fun p ua => p.mark c (Line.pointAt ⟨pl.cur, ⟨x, y⟩⟩ ua.1) ua.2) pl) := by
    unfold Plotter.maybeMarks
    rw [if_pos hshow]
    unfold Plotter.marks
    rw [ha0]
    dsimp only
    rw [hnum]
    simp only [bind, Except.bind]
    have : markSteps c.eps (one /. ofInt (n : ℤ)) ((a1 -. a0) /. ofInt (n : ℤ)) c.fuel zero a0 =
        some ((List.range (n + 1)).map fun i : ℕ => ((i : ℝ) / n, a0 + (i : ℝ) * ((a1 - a0) / n))) := by
      simpa using hsteps
    rw [this]
  have hl : Line.length (⟨pl.cur, ⟨x, y⟩⟩ : Line ℝ) = len := length_real _
  have key : ∀ (q : Plotter ℝ) (b : Bool) (d : List (Drawn ℝ)),
      (Plotter.moveTo (if b then { q with drawn := d } else q) e ⟨x, y⟩).toolmarks = q.toolmarks := by
    intro q b d; unfold Plotter.moveTo; cases b <;> rfl
  unfold Plotter.plotFeed
  rw [hex, hey, ha1]
  dsimp only
  rw [hl, hmarks]
  dsimp only
  refine ⟨_, rfl, ?_⟩
  rw [key]
  rw [foldl_marks, List.map_map]
  congr 1
  apply List.map_congr_left
  intro i _
  simp only [Function.comp_apply]
  rw [markLine_real c hoff _ _ htol, pointAt_real]
  congr 1
  ring

/-- Settings for the examples: marks every 2 along lines; tool of width 1 without offset. -/
noncomputable def demoMarks : PlotCfg ℝ := ⟨1/100000, 1/1000000, true, 2, 1, 0, 1, 100⟩

/-- Non-vacuity of C100: a feed from the origin to (5, 0), turning from 0 to a quarter turn, gets three marks. -/
example : ∃ pl', (Plotter.start : Plotter ℝ).plotFeed demoMarks ⟨some 5, some 0, some 0, some (Real.pi / 2)⟩ = .ok pl' ∧
    pl'.toolmarks.length = 3 := by
  have hlen : segLen (⟨(Plotter.start : Plotter ℝ).cur, ⟨5, 0⟩⟩ : Line ℝ) = 5 := by
    unfold segLen sqDist Plotter.start
    simp only [real_zero]
    rw [show ((0 : ℝ) - 5) ^ 2 + (0 - 0) ^ 2 = 5 ^ 2 by norm_num]
    exact Real.sqrt_sq (by norm_num)
  have hint : intervals 5 demoMarks.lineInterval = 2 := by
    unfold intervals demoMarks
    have : ⌊(5 : ℝ) / 2⌋₊ = 2 := by
      rw [Nat.floor_eq_iff (by norm_num)]; norm_num
    rw [this]; rfl
  obtain ⟨pl', h1, h2⟩ := C100_marks_partial demoMarks Plotter.start ⟨some 5, some 0, some 0, some (Real.pi / 2)⟩ 5 0 0 (Real.pi / 2) rfl
    (by unfold demoMarks; norm_num) (by unfold demoMarks; norm_num) (.inl rfl) (by unfold demoMarks; norm_num) rfl rfl
    (by unfold Plotter.start; simp) rfl
    (by unfold Plotter.start; intro h; injection h with h; simp at h)
    (by rw [hlen, hint]; unfold demoMarks; norm_num) (by rw [hlen, hint]; unfold demoMarks; norm_num)
  refine ⟨pl', h1, ?_⟩
  rw [h2, hlen, hint]
  rfl

/-- Non-vacuity of C99: from (1, 0), an arc around the origin: a quarter turn against the clock to (0, 1), which is drawn
right, and three quarter turns with the clock to the same point, which are not. -/
example : MachineArc false ⟨1 + -1, 0 + 0⟩ ⟨1, 0⟩ ⟨0, 1⟩ (Real.pi / 2) ∧ |Real.pi / 2| ≤ Real.pi ∧
    MachineArc true ⟨1 + -1, 0 + 0⟩ ⟨1, 0⟩ ⟨0, 1⟩ (Real.pi / 2 - 2 * Real.pi) ∧ Real.pi < |Real.pi / 2 - 2 * Real.pi| ∧
    |Real.pi / 2 - 2 * Real.pi| < 2 * Real.pi := by
  have hpi := Real.pi_pos
  refine ⟨⟨?_, ?_⟩, ?_, ⟨?_, ?_⟩, ?_, ?_⟩
  · apply P.ext_real <;> simp [rotAbout]
  · simp only [Bool.false_eq_true, if_false]; constructor <;> linarith
  · rw [abs_of_pos (by linarith)]; linarith
  · apply P.ext_real <;> simp [rotAbout, Real.cos_sub_two_pi, Real.sin_sub_two_pi]
  · simp only [if_true]; constructor <;> linarith
  · rw [abs_of_neg (by linarith)]; linarith
  · rw [abs_of_neg (by linarith)]; linarith

/-- Non-vacuity of the hypotheses of C99 about the session: the arc of the examples of C98 (over ℚ), drawn from the reported position. -/
example : ∃ s, Session.run demoPlot ⟨demo, Plotter.start⟩ (demoCalls.take 3) = .ok s ∧ s.gen.last 'X' = some s.pl.cur.x ∧
    s.gen.last 'Y' = some s.pl.cur.y ∧ (s.step demoPlot (.feedArc true 5 2 1 0 none none none none)).toOption.isSome := by
  cases h : Session.run demoPlot ⟨demo, Plotter.start⟩ (demoCalls.take 3) with
  | error e =>
    exfalso
    have : (Session.run demoPlot ⟨demo, Plotter.start⟩ (demoCalls.take 3)).toOption.isSome = true := by decide +kernel
    rw [h] at this; cases this
  | ok s =>
    have : (Session.run demoPlot ⟨demo, Plotter.start⟩ (demoCalls.take 3)).toOption.all (fun s => decide (s.gen.last 'X' = some s.pl.cur.x ∧
      s.gen.last 'Y' = some s.pl.cur.y ∧ (s.step demoPlot (.feedArc true 5 2 1 0 none none none none)).toOption.isSome = true)) = true := by
      decide +kernel
    rw [h] at this
    exact ⟨s, rfl, of_decide_eq_true this⟩

end Verif.Cam
