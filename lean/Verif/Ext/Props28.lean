import Verif.Ext.QMarks
import Verif.Geom.Props20
import Verif.Geom.Props16

/-!
# C165: the ellipses drawn in the tiles; C167: the margins and the frame
-/

set_option linter.unusedSectionVars false
set_option linter.unusedVariables false

namespace Verif.Ext
open Verif PyFloat PyTrig Geom

/-! ## Specification -/

/-- Specification: the tile is a rhombus that is not flat. -/
def IsRhombus (v0 v1 v2 v3 : P ℝ) : Prop := Par4 v0 v1 v2 v3 ∧ parArea v0 v1 v3 ≠ 0 ∧ sqDist v0 v1 = sqDist v0 v3

/-- Specification: the point is on a side of the closed polygon. -/
def OnOutline (vs : List (P ℝ)) (p : P ℝ) : Prop := ∃ s ∈ sides vs, OnSeg p ⟨s.1, s.2⟩

/-- Specification: the point is on the edge of the box. -/
def OnBoxEdge (b : Box ℝ) (p : P ℝ) : Prop := b.Contains p ∧ (p.x = b.p1.x ∨ p.x = b.p2.x ∨ p.y = b.p1.y ∨ p.y = b.p2.y)

/-- Specification: what `create_polygon` and `create_ellipse` show: the outline of the polygon, the points of the ellipse (a negative semi-axis is drawn as
its absolute value). -/
def Mark.Shows : Mark ℝ → P ℝ → Prop
  | .polygon vs, p => OnOutline vs p
  | .ellipse e, p => e.On p

/-- Specification: the box of a size around a centre. -/
noncomputable def boxAround (c : P ℝ) (w h : ℝ) : Box ℝ := ⟨⟨c.x - w / 2, c.y - h / 2⟩, ⟨c.x + w / 2, c.y + h / 2⟩⟩

/-! ## C165 -/

/-- Making both semi-axes shorter keeps the ellipse inside. -/
theorem level_shrink {e : Ell ℝ} {i : ℝ} (h0 : 0 ≤ i) (h1 : i < e.ry) (h2 : e.ry ≤ e.rx) (p : P ℝ) :
    e.level p ≤ (⟨e.center, e.rx - i, e.ry - i, e.phi⟩ : Ell ℝ).level p := by
  have key : ∀ x a : ℝ, i < a → (x / a) ^ 2 ≤ (x / (a - i)) ^ 2 := by
    intro x a ha
    rw [div_pow, div_pow]
    apply div_le_div_of_nonneg_left (sq_nonneg x)
    · have : 0 < a - i := by linarith
      positivity
    · apply pow_le_pow_left₀ <;> linarith
  exact add_le_add (key _ _ (by linarith)) (key _ _ h1)

/-- **C165**, what is drawn in a tile: for every rhombic tile that is not flat, an ellipse is drawn around the middle of the tile; it is the inscribed one
with both semi-axes made shorter by the inset, and if the inset is shorter than the semi-axes (and these are not mistaken for equal) no point of it is outside the
tile. -/
theorem C165_drawn_partial (eps inset : ℝ) (v0 v1 v2 v3 : P ℝ) (ht : IsRhombus v0 v1 v2 v3) (he : eps ^ 2 ≤ sqDist v1 v3) (hi : 0 ≤ inset) :
    ∃ e, tileEllipse eps inset [v0, v1, v2, v3] = .ok (.ellipse ⟨middle v0 v2, e.rx - inset, e.ry - inset, e.phi⟩) ∧ 0 < e.ry ∧ e.ry ≤ e.rx ∧
      e.rx * e.ry = |parArea v0 v1 v3| / 4 ∧
      (eps ≤ e.rx - e.ry ∨ e.rx = e.ry → InscribedIn e v0 v1 v2 v3 ∧
        (inset < e.ry → ∀ p, Mark.Shows (.ellipse ⟨middle v0 v2, e.rx - inset, e.ry - inset, e.phi⟩) p → InPar v0 v1 v3 p)) := by
  obtain ⟨hp, ha, hs⟩ := ht
  obtain ⟨e, h1, h2, h3, h4, -, h5⟩ := C165_rhombus_partial eps 1 v0 v1 v2 v3 hp ha hs he
  obtain ⟨e', g1, -, -, g2⟩ := C165_area eps 1 v0 v1 v2 v3 hp ha he
  rw [h1] at g1
  obtain rfl := Except.ok.inj g1
  refine ⟨e, ?_, h3, h4, ?_, fun hc => ⟨(h5 hc).1, fun hlt p hs => ?_⟩⟩
  · unfold tileEllipse
    simp only [real_one]
    rw [h1]
    simp only [bind, Except.bind, pure, Except.pure, real_sub, h2]
  · have := g2 (Or.inl le_rfl)
    have har : e.area = Real.pi * (e.rx * e.ry) := by simp [Ell.area]; ring
    rw [har] at this
    have hpi := Real.pi_pos
    have : Real.pi * (e.rx * e.ry - |parArea v0 v1 v3| / 4) = 0 := by linear_combination this
    rcases mul_eq_zero.mp this with h6 | h6
    · exact absurd h6 hpi.ne'
    · linarith
  · apply (h5 hc).1.2.2.2.2
    have hs' : (⟨e.center, e.rx - inset, e.ry - inset, e.phi⟩ : Ell ℝ).level p = 1 := by rw [h2]; exact hs
    rw [← hs']
    exact level_shrink hi hlt h4 p

/-- Every tile of a list is given its ellipse, in order. -/
theorem C165_all_drawn (eps inset : ℝ) (polys : List (List (P ℝ))) (ms : List (Mark ℝ)) (h : drawPolygonEllipses eps inset polys = .ok ms) :
    List.Forall₂ (fun poly m => tileEllipse eps inset poly = .ok m) polys ms := by
  induction polys generalizing ms with
  | nil => cases h; exact .nil
  | cons poly rest ih =>
    unfold drawPolygonEllipses at h
    cases ht : tileEllipse eps inset poly with
    | error x => rw [ht] at h; simp [bind, Except.bind] at h
    | ok m =>
      rw [ht] at h
      cases hr : drawPolygonEllipses eps inset rest with
      | error x => rw [hr] at h; simp [bind, Except.bind] at h
      | ok ms' =>
        rw [hr] at h
        simp only [bind, Except.bind, pure, Except.pure] at h
        cases h
        exact .cons ht (ih ms' hr)

/-- The circle that `_draw_polygon_circles` would draw in a rhombic tile is the inscribed circle. -/
theorem C165_circle (eps : ℝ) (v0 v1 v2 v3 : P ℝ) (ht : IsRhombus v0 v1 v2 v3) (he : eps ^ 2 ≤ sqDist v0 v2) :
    ∃ e, tileCircle eps [v0, v1, v2, v3] = .ok (.ellipse e) ∧ e.rx = e.ry ∧ 0 < e.rx ∧ InscribedIn e v0 v1 v2 v3 := by
  obtain ⟨hp, ha, hs⟩ := ht
  obtain ⟨h1, h2, h3, h4⟩ := cos_cornerTheta (eps := eps) (v0 := v1) (v1 := v0) (v3 := v2) he
  have d12 : sqDist v1 v2 = sqDist v0 v1 := by rw [hs]; unfold sqDist; rw [hp.1, hp.2]; ring
  have d10 : sqDist v1 v0 = sqDist v0 v1 := by unfold sqDist; ring
  have har : parArea v1 v0 v2 = -parArea v0 v1 v3 := by unfold parArea; rw [hp.1, hp.2]; ring
  rw [d12, d10, har, abs_neg, Real.mul_self_sqrt (sqDist_nonneg _ _)] at h2
  have hmid : (Line.midpoint ⟨v0, v2⟩ : P ℝ) = middle v0 v2 := by
    unfold Line.midpoint middle
    apply P.ext_real <;> simp [P.add, P.mul] <;> ring
  obtain ⟨c1, c2, -, -⟩ := rhombus_coords hp ha hs 0 1 1 0 0
  have hS : 0 < sqDist v0 v1 := by linarith
  have hsp := Real.sqrt_pos.mpr hS
  have hss := Real.sq_sqrt hS.le
  obtain ⟨r, hr⟩ : ∃ r, r = Real.sin (cornerTheta eps v1 v0 v2) * √(sqDist v0 v1) / 2 := ⟨_, rfl⟩
  have hX : sqDist v0 v1 ^ 2 = parArea v0 v1 v3 ^ 2 + parDot v0 v1 v3 ^ 2 := by
    have : sqDist v0 v1 * sqDist v0 v3 = parArea v0 v1 v3 ^ 2 + parDot v0 v1 v3 ^ 2 := by unfold sqDist parArea parDot; ring
    rw [← hs] at this
    linarith
  have hr2 : r * (2 * √(sqDist v0 v1)) = |parArea v0 v1 v3| := by
    rw [hr, ← h2]
    linear_combination (Real.sin (cornerTheta eps v1 v0 v2)) * hss
  have hrpos : 0 < r := by
    have h5 : 0 < |parArea v0 v1 v3| := abs_pos.mpr ha
    rw [← hr2] at h5
    exact (pos_iff_pos_of_mul_pos h5).mpr (by positivity)
  have hrs : r ^ 2 * (4 * sqDist v0 v1) = (sqDist v0 v1 - parDot v0 v1 v3) * (sqDist v0 v1 + parDot v0 v1 v3) := by
    have := congrArg (· ^ 2) hr2
    simp only [mul_pow, sq_abs, hss] at this
    linear_combination this - hX
  refine ⟨⟨middle v0 v2, r, r, 0⟩, ?_, rfl, hrpos, ?_⟩
  · unfold tileCircle
    simp only [distance_real, d12, hmid, real_mul, real_sin, real_div, real_ofInt, real_zero, hr]
    rfl
  · refine (inscribed_of_level hp ha (a := (sqDist v0 v1 - parDot v0 v1 v3) / (2 * sqDist v0 v1)) (b := (sqDist v0 v1 + parDot v0 v1 v3) / (2 * sqDist v0 v1))
      (by positivity) (by positivity) (by field_simp; ring) ?_).1
    intro s t
    rw [level_circle _ rfl (P.angle (v2.sub v0))]
    obtain ⟨-, -, c3, c4⟩ := rhombus_coords hp ha hs 0 r r s t
    unfold Ell.level
    dsimp only
    rw [div_pow, div_pow, c3, c4]
    have hr2' : r ^ 2 = (sqDist v0 v1 - parDot v0 v1 v3) * (sqDist v0 v1 + parDot v0 v1 v3) / (4 * sqDist v0 v1) := by
      rw [eq_div_iff (by positivity)]; exact hrs
    rw [hr2']
    field_simp
    norm_num

/-- A square of side 2 meets the hypotheses of both. -/
theorem square_rhombus : IsRhombus (⟨0, 0⟩ : P ℝ) ⟨2, 0⟩ ⟨2, 2⟩ ⟨0, 2⟩ := by
  refine ⟨?_, ?_, ?_⟩
  · unfold Par4; norm_num
  · unfold parArea; norm_num
  · unfold sqDist; norm_num

example : ∃ e, tileCircle (1 / 10 ^ 6 : ℝ) [⟨0, 0⟩, ⟨2, 0⟩, ⟨2, 2⟩, ⟨0, 2⟩] = .ok (.ellipse e) ∧ InscribedIn e ⟨0, 0⟩ ⟨2, 0⟩ ⟨2, 2⟩ ⟨0, 2⟩ := by
  obtain ⟨e, h1, -, -, h2⟩ := C165_circle (1 / 10 ^ 6) _ _ _ _ square_rhombus (by unfold sqDist; norm_num)
  exact ⟨e, h1, h2⟩

theorem square_tile (inset : ℝ) : ∃ phi, tileEllipse (1 / 10 ^ 6 : ℝ) inset [⟨0, 0⟩, ⟨2, 0⟩, ⟨2, 2⟩, ⟨0, 2⟩] = .ok (.ellipse ⟨⟨1, 1⟩, 1 - inset, 1 - inset, phi⟩) := by
  obtain ⟨k, d, h, y, e, hk, hd, hh, h1, h2, h3, hy, hy0, hy1, g1, g2, g3, g4, -, g6, -⟩ := inscribed_spec (eps := 1 / 10 ^ 6) (ecc := 1)
    (v0 := ⟨0, 0⟩) (v1 := ⟨2, 0⟩) (v2 := ⟨2, 2⟩) (v3 := ⟨0, 2⟩) (by unfold Par4; norm_num) (by unfold parArea; norm_num) (by unfold sqDist; norm_num)
  have hh1 : h = 2 := by
    norm_num [parDot, sqDist] at h3
    nlinarith
  subst hh1
  have hk1 : k = 2 := by
    norm_num [parArea] at h1
    linarith
  subst hk1
  have hd0 : d = 0 := by
    norm_num [parDot] at h2
    linarith
  subst hd0
  have hyq : y = 1 / 2 := by rw [hy]; exact if_pos (Or.inl le_rfl)
  subst hyq
  obtain ⟨g7, g8⟩ := g6 (by norm_num) (by norm_num)
  have hx : e.rx = 1 := by norm_num at g7; rcases g7 with h | h <;> linarith
  have hy : e.ry = 1 := by norm_num at g8; rcases g8 with h | h <;> linarith
  refine ⟨e.phi, ?_⟩
  unfold tileEllipse
  simp only [real_one]
  rw [g1]
  simp only [bind, Except.bind, pure, Except.pure, real_sub, hx, hy, g2, middle]
  norm_num

/-- A square tile meets the hypotheses of `C165_drawn_partial`, with an inset shorter than the semi-axes: the circle drawn stays in the tile. -/
example : ∃ e, tileEllipse (1 / 10 ^ 6 : ℝ) (1 / 4) [⟨0, 0⟩, ⟨2, 0⟩, ⟨2, 2⟩, ⟨0, 2⟩] = .ok (.ellipse e) ∧ e.rx = 3 / 4 ∧
    ∀ p, Mark.Shows (.ellipse e) p → InPar ⟨0, 0⟩ ⟨2, 0⟩ ⟨0, 2⟩ p := by
  obtain ⟨e, h1, h2, h3, -, h4⟩ := C165_drawn_partial (1 / 10 ^ 6) (1 / 4) _ _ _ _ square_rhombus (by unfold sqDist; norm_num) (by norm_num)
  obtain ⟨phi, h5⟩ := square_tile (1 / 4)
  rw [h1] at h5
  have h6 := Mark.ellipse.inj (Except.ok.inj h5)
  have hx : e.rx = 1 := by have := congrArg Ell.rx h6; simp only at this; linarith
  have hy : e.ry = 1 := by have := congrArg Ell.ry h6; simp only at this; linarith
  exact ⟨_, h1, by simp only [hx]; norm_num, (h4 (Or.inr (by rw [hx, hy]))).2 (by rw [hy]; norm_num)⟩

/-- **C165** refuted for large insets: nothing is left out when the inset is longer than a semi-axis. In a square tile of side 2 with inset 3 a circle of radius
2 is drawn, outside the tile. -/
theorem C165_inset_refuted : ¬ ∀ (eps inset : ℝ) (v0 v1 v2 v3 : P ℝ), IsRhombus v0 v1 v2 v3 → 0 < eps → eps ^ 2 ≤ sqDist v1 v3 → 0 ≤ inset →
    ∀ m, tileEllipse eps inset [v0, v1, v2, v3] = .ok m → ∀ p, m.Shows p → InPar v0 v1 v3 p := by
  intro hall
  obtain ⟨phi, h⟩ := square_tile 3
  obtain ⟨s, t, h1, h2, h3, h4, h5⟩ := hall (1 / 10 ^ 6) 3 _ _ _ _ square_rhombus (by norm_num) (by unfold sqDist; norm_num) (by norm_num) _ h ⟨3, 1⟩ (by
    show Ell.On _ _
    unfold Ell.On
    rw [level_circle _ rfl 0]
    unfold Ell.level Ell.u Ell.v
    norm_num)
  have := congrArg P.x h5
  simp only [parPt] at this
  norm_num at this
  linarith

/-! ## C167 -/

theorem onSeg_vert {x y1 y2 : ℝ} (h : y1 ≤ y2) (p : P ℝ) : (OnSeg p ⟨⟨x, y1⟩, ⟨x, y2⟩⟩ ↔ p.x = x ∧ y1 ≤ p.y ∧ p.y ≤ y2) ∧
    (OnSeg p ⟨⟨x, y2⟩, ⟨x, y1⟩⟩ ↔ p.x = x ∧ y1 ≤ p.y ∧ p.y ≤ y2) := by
  have key : ∀ p : P ℝ, OnSeg p ⟨⟨x, y1⟩, ⟨x, y2⟩⟩ ↔ p.x = x ∧ y1 ≤ p.y ∧ p.y ≤ y2 := by
    intro p
    constructor
    · rintro ⟨t, h1, h2, rfl⟩
      simp only [segPt]
      refine ⟨by ring, ?_, ?_⟩ <;> nlinarith
    · rintro ⟨h1, h2, h3⟩
      rcases h.lt_or_eq with hlt | heq
      · refine ⟨(p.y - y1) / (y2 - y1), div_nonneg (by linarith) (by linarith), (div_le_one (by linarith)).mpr (by linarith), ?_⟩
        apply P.ext_real
        · simp [segPt, h1]
        · have : y2 - y1 ≠ 0 := by linarith
          simp only [segPt]
          field_simp
          ring
      · refine ⟨0, le_rfl, zero_le_one, ?_⟩
        apply P.ext_real
        · simp [segPt, h1]
        · simp only [segPt]; linarith
  refine ⟨key p, ?_⟩
  rw [← key p]
  constructor
  · rintro ⟨t, h1, h2, rfl⟩
    refine ⟨1 - t, by linarith, by linarith, ?_⟩
    apply P.ext_real <;> simp only [segPt] <;> ring
  · rintro ⟨t, h1, h2, rfl⟩
    refine ⟨1 - t, by linarith, by linarith, ?_⟩
    apply P.ext_real <;> simp only [segPt] <;> ring

theorem onSeg_horiz {y x1 x2 : ℝ} (h : x1 ≤ x2) (p : P ℝ) : (OnSeg p ⟨⟨x1, y⟩, ⟨x2, y⟩⟩ ↔ p.y = y ∧ x1 ≤ p.x ∧ p.x ≤ x2) ∧
    (OnSeg p ⟨⟨x2, y⟩, ⟨x1, y⟩⟩ ↔ p.y = y ∧ x1 ≤ p.x ∧ p.x ≤ x2) := by
  have swap : ∀ a b c d : ℝ, ∀ p : P ℝ, OnSeg p ⟨⟨a, b⟩, ⟨c, d⟩⟩ ↔ OnSeg ⟨p.y, p.x⟩ ⟨⟨b, a⟩, ⟨d, c⟩⟩ := by
    intro a b c d p
    constructor
    · rintro ⟨t, h1, h2, rfl⟩; exact ⟨t, h1, h2, rfl⟩
    · rintro ⟨t, h1, h2, h3⟩
      refine ⟨t, h1, h2, ?_⟩
      have hx := congrArg P.y h3
      have hy := congrArg P.x h3
      apply P.ext_real
      · exact hx
      · exact hy
  rw [swap x1 y x2 y p, swap x2 y x1 y p]
  exact onSeg_vert h ⟨p.y, p.x⟩

theorem boxOutline_spec {b : Box ℝ} (hb : b.Valid) (p : P ℝ) : OnOutline (boxOutline b) p ↔ OnBoxEdge b p := by
  obtain ⟨⟨x1, y1⟩, ⟨x2, y2⟩⟩ := b
  obtain ⟨hx, hy⟩ := hb
  dsimp only at hx hy
  have e : sides (boxOutline (⟨⟨x1, y1⟩, ⟨x2, y2⟩⟩ : Box ℝ)) =
      [(⟨x1, y1⟩, ⟨x1, y2⟩), (⟨x1, y2⟩, ⟨x2, y2⟩), (⟨x2, y2⟩, ⟨x2, y1⟩), (⟨x2, y1⟩, ⟨x1, y1⟩)] := rfl
  unfold OnOutline
  rw [e]
  simp only [List.mem_cons, List.not_mem_nil, or_false, exists_eq_or_imp, exists_eq_left]
  rw [(onSeg_vert hy p).1, (onSeg_horiz hx p).1, (onSeg_vert hy p).2, (onSeg_horiz hx p).2]
  unfold OnBoxEdge Box.Contains
  dsimp only
  constructor
  · rintro (⟨h1, h2, h3⟩ | ⟨h1, h2, h3⟩ | ⟨h1, h2, h3⟩ | ⟨h1, h2, h3⟩)
    · exact ⟨⟨by linarith, by linarith, h2, h3⟩, .inl h1⟩
    · exact ⟨⟨h2, h3, by linarith, by linarith⟩, .inr (.inr (.inr h1))⟩
    · exact ⟨⟨by linarith, by linarith, h2, h3⟩, .inr (.inl h1)⟩
    · exact ⟨⟨h2, h3, by linarith, by linarith⟩, .inr (.inr (.inl h1))⟩
  · rintro ⟨⟨h1, h2, h3, h4⟩, h | h | h | h⟩
    · exact .inl ⟨h, h3, h4⟩
    · exact .inr (.inr (.inl ⟨h, h3, h4⟩))
    · exact .inr (.inr (.inr ⟨h, h1, h2⟩))
    · exact .inr (.inl ⟨h, h1, h2⟩)

theorem mk_valid (p q : P ℝ) : (Box.mk' p q).Valid := by
  unfold Box.Valid Box.mk'
  simp only [pmin_real, pmax_real]
  exact ⟨min_le_max, min_le_max⟩

theorem clipRect_valid {o : ClipOpts ℝ} {r : Box ℝ} (h : clipRect o = some r) : r.Valid := by
  unfold clipRect at h
  dsimp only at h
  split at h
  · unfold Box.intersection at h
    dsimp only at h
    split at h
    · cases h
    · cases h; exact mk_valid _ _
  · split at h
    · cases h; exact mk_valid _ _
    · split at h
      · cases h; exact mk_valid _ _
      · cases h

/-- **C167**, margins: whatever the options, if there is a clipping region, two figures are drawn: the first shows the edge of the region used for clipping,
the second the edge of the box around what was plotted. -/
theorem C167_margins_partial (o : ClipOpts ℝ) (bbox : Box ℝ) (hb : bbox.Valid) :
    (∀ b, clipRegion o = .box b → ∃ m1 m2, drawMargins (clipRegion o) bbox = .ok [m1, m2] ∧ (∀ p, m1.Shows p ↔ OnBoxEdge b p) ∧ ∀ p, m2.Shows p ↔ OnBoxEdge bbox p) ∧
    (∀ e, clipRegion o = .ellipse e → 0 < e.rx → ∃ m1 m2, drawMargins (clipRegion o) bbox = .ok [m1, m2] ∧ (∀ p, m1.Shows p ↔ sqDist p e.center = e.rx ^ 2) ∧
      ∀ p, m2.Shows p ↔ OnBoxEdge bbox p) := by
  constructor
  · intro b h
    rw [h]
    refine ⟨_, _, rfl, fun p => ?_, fun p => boxOutline_spec hb p⟩
    apply boxOutline_spec
    unfold clipRegion at h
    cases hr : clipRect o with
    | none => rw [hr] at h; simp at h
    | some r =>
      rw [hr] at h
      dsimp only at h
      split at h
      · cases h
      · cases h; exact clipRect_valid hr
  · intro e h hpos
    rw [h]
    refine ⟨_, _, rfl, fun p => ?_, fun p => boxOutline_spec hb p⟩
    have hxy : e.rx = e.ry := by
      unfold clipRegion at h
      cases hr : clipRect o with
      | none => rw [hr] at h; simp at h
      | some r =>
        rw [hr] at h
        dsimp only at h
        split at h
        · cases h
          simp [Ell.mk', pmax_real, pmin_real]
        · cases h
    show Ell.On _ p ↔ _
    unfold Ell.On Ell.level Ell.u Ell.v
    simp only [real_zero, Real.cos_zero, Real.sin_zero, ← hxy, sqDist]
    rw [div_pow, div_pow, ← add_div, div_eq_one_iff_eq (by positivity)]
    constructor <;> intro hh <;> linarith

/-- **C167** refuted, no clipping: asking for the margins to be drawn without asking for clipping ends in an `AttributeError`. -/
theorem C167_unclipped_refuted (o : ClipOpts ℝ) (bbox : Box ℝ) (h1 : o.toDoc = false) (h2 : o.toMargins = false) :
    drawMargins (clipRegion o) bbox = .error .attributeError := by
  simp [clipRegion, clipRect, h1, h2, drawMargins]

/-- **C167** refuted, margins: what is drawn as the margins is not always the margins: clipping to the document only, the edge of the document is drawn. -/
theorem C167_margins_refuted : ¬ ∀ (o : ClipOpts ℝ) (bbox : Box ℝ), bbox.Valid → o.toCircle = false → ∀ m1 m2, drawMargins (clipRegion o) bbox = .ok [m1, m2] →
    ∀ p, m1.Shows p ↔ OnBoxEdge (marginRect o) p := by
  intro hall
  have ht : clipRegion (⟨0, 10, 10, 1, 1, 1, 1, true, false, false, false⟩ : ClipOpts ℝ) = .box ⟨⟨0, 0⟩, ⟨10, 10⟩⟩ := by
    simp [clipRegion, clipRect, Box.mk', pmin_real, pmax_real]
  obtain ⟨m1, m2, h1, h2, -⟩ := (C167_margins_partial ⟨0, 10, 10, 1, 1, 1, 1, true, false, false, false⟩ ⟨⟨2, 2⟩, ⟨8, 8⟩⟩ (by norm_num [Box.Valid])).1 _ ht
  have h3 := hall _ ⟨⟨2, 2⟩, ⟨8, 8⟩⟩ (by norm_num [Box.Valid]) rfl m1 m2 h1 ⟨0, 0⟩
  rw [h2] at h3
  have h4 := h3.mp (by norm_num [OnBoxEdge, Box.Contains])
  norm_num [OnBoxEdge, marginRect, Box.mk', Box.Contains, pmin_real, pmax_real, P.sub] at h4

/-- The hypotheses of `C167_margins_partial` are met: a page of 10 by 10 with margins of 1. -/
example : clipRegion (⟨0, 10, 10, 1, 1, 1, 1, false, true, false, false⟩ : ClipOpts ℝ) = .box ⟨⟨1, 1⟩, ⟨9, 9⟩⟩ := by
  norm_num [clipRegion, clipRect, marginRect, Box.mk', pmin_real, pmax_real, P.sub]

/-- **C167**, frame: if it is asked for and its size is positive, one figure is drawn, and it shows the edge of a box around the middle of the document; stroked
with its thickness the frame leaves open exactly the size asked for: no point strictly inside the box of that size around the middle is within half a thickness of
the figure, but every point on the edge of that box is. -/
theorem C167_frame (c : P ℝ) (w h t : ℝ) (hw : 0 < w) (hh : 0 < h) (ht : 0 ≤ t) :
    ∃ m, frameMarks true c w h t = [m] ∧ (∀ p, m.Shows p ↔ OnBoxEdge (boxAround c (w + t) (h + t)) p) ∧
      (∀ p q, m.Shows q → |p.x - c.x| < w / 2 → |p.y - c.y| < h / 2 → t / 2 < √(sqDist p q)) ∧
      (∀ p, OnBoxEdge (boxAround c w h) p → ∃ q, m.Shows q ∧ √(sqDist p q) ≤ t / 2) := by
  have hv : (boxAround c (w + t) (h + t)).Valid := by
    unfold boxAround Box.Valid
    constructor <;> dsimp only <;> linarith
  have hshow : ∀ p, (drawFrame c w h t).Shows p ↔ OnBoxEdge (boxAround c (w + t) (h + t)) p := by
    intro p
    rw [← boxOutline_spec hv]
    show OnOutline _ p ↔ _
    simp only [P.add, real_add, real_neg, real_div, real_ofInt]
    push_cast
    have e1 : c.x + (w / 2 + t / 2) = c.x + (w + t) / 2 := by ring
    have e2 : c.y + (h / 2 + t / 2) = c.y + (h + t) / 2 := by ring
    have e3 : c.x + -(w / 2 + t / 2) = c.x - (w + t) / 2 := by ring
    have e4 : c.y + -(h / 2 + t / 2) = c.y - (h + t) / 2 := by ring
    rw [e1, e2, e3, e4]
    unfold OnOutline boxOutline boxAround
    dsimp only
    have s1 : ∀ a b c d : P ℝ, sides [a, b, c, d] = [(a, b), (b, c), (c, d), (d, a)] := fun _ _ _ _ => rfl
    rw [s1, s1]
    simp only [List.mem_cons, List.not_mem_nil, or_false, exists_eq_or_imp, exists_eq_left]
    have hx : c.x - (w + t) / 2 ≤ c.x + (w + t) / 2 := by linarith
    have hy : c.y - (h + t) / 2 ≤ c.y + (h + t) / 2 := by linarith
    rw [(onSeg_vert hy p).1, (onSeg_vert hy p).2, (onSeg_horiz hx p).1, (onSeg_horiz hx p).2]
    tauto
  refine ⟨drawFrame c w h t, ?_, hshow, ?_, ?_⟩
  · unfold frameMarks
    simp [hw, hh]
  · intro p q hq hx hy
    rw [hshow] at hq
    rw [abs_lt] at hx hy
    have hpos : 0 ≤ t / 2 := by linarith
    apply Real.lt_sqrt_of_sq_lt
    unfold sqDist
    obtain ⟨-, h1 | h1 | h1 | h1⟩ := hq <;> simp only [boxAround] at h1
    · have : t / 2 < p.x - q.x := by linarith
      nlinarith [sq_nonneg (p.y - q.y)]
    · have : t / 2 < q.x - p.x := by linarith
      nlinarith [sq_nonneg (p.y - q.y)]
    · have : t / 2 < p.y - q.y := by linarith
      nlinarith [sq_nonneg (p.x - q.x)]
    · have : t / 2 < q.y - p.y := by linarith
      nlinarith [sq_nonneg (p.x - q.x)]
  · intro p hp
    obtain ⟨⟨b1, b2, b3, b4⟩, h1⟩ := hp
    simp only [boxAround] at b1 b2 b3 b4 h1
    have hpos : 0 ≤ t / 2 := by linarith
    have key : ∀ q : P ℝ, OnBoxEdge (boxAround c (w + t) (h + t)) q → sqDist p q = (t / 2) ^ 2 → ∃ q, (drawFrame c w h t).Shows q ∧ √(sqDist p q) ≤ t / 2 := by
      intro q hq hd
      exact ⟨q, (hshow q).mpr hq, by rw [hd, Real.sqrt_sq hpos]⟩
    rcases h1 with h1 | h1 | h1 | h1
    · refine key ⟨c.x - (w + t) / 2, p.y⟩ ⟨⟨?_, ?_, ?_, ?_⟩, .inl rfl⟩ ?_
      all_goals simp only [boxAround, sqDist]
      on_goal 5 => rw [h1]; ring
      all_goals linarith
    · refine key ⟨c.x + (w + t) / 2, p.y⟩ ⟨⟨?_, ?_, ?_, ?_⟩, .inr (.inl rfl)⟩ ?_
      all_goals simp only [boxAround, sqDist]
      on_goal 5 => rw [h1]; ring
      all_goals linarith
    · refine key ⟨p.x, c.y - (h + t) / 2⟩ ⟨⟨?_, ?_, ?_, ?_⟩, .inr (.inr (.inl rfl))⟩ ?_
      all_goals simp only [boxAround, sqDist]
      on_goal 5 => rw [h1]; ring
      all_goals linarith
    · refine key ⟨p.x, c.y + (h + t) / 2⟩ ⟨⟨?_, ?_, ?_, ?_⟩, .inr (.inr (.inr rfl))⟩ ?_
      all_goals simp only [boxAround, sqDist]
      on_goal 5 => rw [h1]; ring
      all_goals linarith

/-- No frame is drawn unless it is asked for, or without a positive width and height. -/
theorem C167_no_frame (draw : Bool) (c : P ℝ) (w h t : ℝ) (hn : draw = false ∨ w ≤ 0 ∨ h ≤ 0) : frameMarks draw c w h t = [] := by
  unfold frameMarks
  rw [if_neg]
  simp only [real_lt, real_zero, Bool.and_eq_true, decide_eq_true_eq, not_and]
  rcases hn with h1 | h1 | h1
  · simp [h1]
  · intro _ h2; linarith
  · intro _ _ h2; linarith

end Verif.Ext
