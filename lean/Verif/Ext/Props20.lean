import Verif.Geom.Props17
import Verif.Ext.Props12
import Verif.Ext.VoronoiExt
import Verif.Voronoi.Props2

/-!
# C157: the part of a Voronoi diagram that is drawn on the page
-/

set_option linter.unusedSectionVars false

namespace Verif.Ext
open Verif PyFloat PyTrig Geom

/-! ## Specification -/

/-- Specification: the point is on the line of the edge. -/
def OnEdgeLine (e : Voronoi.Edge ℝ) (z : P ℝ) : Prop := e.a * z.x + e.b * z.y = e.c

/-- Specification: the point belongs to an edge of the diagram.  As the documentation of `VoronoiEdge` has it: the edge goes on to the left if its first end point is missing, and to the right if the
second is. -/
def OnDiagramEdge : DEdge ℝ → P ℝ → Prop
  | (_, some p, some q), z => OnSeg z ⟨p, q⟩
  | (e, some p, none), z => OnEdgeLine e z ∧ p.x ≤ z.x
  | (e, none, some p), z => OnEdgeLine e z ∧ z.x ≤ p.x
  | (e, none, none), z => OnEdgeLine e z

/-- Specification: the point is inside the page, not on its border. -/
def StrictlyOn (box : Box ℝ) (p : P ℝ) : Prop := box.p1.x < p.x ∧ p.x < box.p2.x ∧ box.p1.y < p.y ∧ p.y < box.p2.y

/-- The edges for which the drawing is right: those with two end points, and those with one that is on the edge and on the page, unless they are upright. -/
def Drawable (eps : ℝ) (box : Box ℝ) : DEdge ℝ → Prop
  | (_, some _, some _) => True
  | (e, some p, none) => OnEdgeLine e p ∧ StrictlyOn box p ∧ eps ≤ |e.b|
  | (e, none, some p) => OnEdgeLine e p ∧ StrictlyOn box p ∧ eps ≤ |e.b|
  | (_, none, none) => False

/-- Specification: what is drawn of an edge, up to `tol` at the border of the page. -/
def ShowsEdge (tol : ℝ) (box : Box ℝ) (d : DEdge ℝ) (r : Option (Line ℝ)) : Prop :=
  (∀ l z, r = some l → OnSeg z l → OnDiagramEdge d z ∧ box.ContainsTol tol z) ∧
  ∀ z, OnDiagramEdge d z → box.ContainsTol (-tol) z → ∃ l, r = some l ∧ OnSeg z l

/-! ## Proof -/

theorem pointInside_iff (box : Box ℝ) (p : P ℝ) : box.pointInside p = true ↔ StrictlyOn box p := by
  unfold Box.pointInside StrictlyOn
  simp [and_assoc]

theorem farEnd_real (eps : ℝ) (heps : 0 < eps) (box : Box ℝ) (e : Voronoi.Edge ℝ) (p : P ℝ) (X : ℝ) (hb : eps ≤ |e.b|) :
    farEnd (isZero eps) box e p X = .ok ⟨X, (e.c - X * e.a) / e.b⟩ := by
  have h0 : isZero eps e.b = false := by
    rw [Bool.eq_false_iff]
    intro h
    have := (isZero_iff eps e.b).1 h
    linarith
  have hne : e.b ≠ 0 := by rintro h; rw [h, abs_zero] at hb; linarith
  unfold farEnd
  rw [h0]
  simp [pdiv, hne, bind, Except.bind, pure, Except.pure]

theorem segPt_onSeg (l : Line ℝ) {s e t : ℝ} (h0 : 0 ≤ s) (h1 : e ≤ 1) (h2 : s ≤ t) (h3 : t ≤ e) : OnSeg (segPt l t) ⟨segPt l s, segPt l e⟩ := by
  rcases eq_or_lt_of_le (h2.trans h3) with h | h
  · exact ⟨0, le_refl _, zero_le_one, by apply P.ext_real <;> simp [segPt] <;> left <;> linarith⟩
  · refine ⟨(t - s) / (e - s), div_nonneg (by linarith) (by linarith), (div_le_one (by linarith)).2 (by linarith), ?_⟩
    have hne : e - s ≠ 0 := by linarith
    apply P.ext_real <;> simp only [segPt] <;> field_simp <;> ring

theorem onSeg_segPt (l : Line ℝ) {s e : ℝ} (h : s ≤ e) {z : P ℝ} (hz : OnSeg z ⟨segPt l s, segPt l e⟩) : ∃ t, s ≤ t ∧ t ≤ e ∧ z = segPt l t := by
  obtain ⟨u, h0, h1, rfl⟩ := hz
  refine ⟨s + u * (e - s), by nlinarith, by nlinarith, ?_⟩
  apply P.ext_real <;> simp only [segPt] <;> ring

/-- The clipped segment shows the edge if the segment has the same points as the edge, as far as the page goes. -/
theorem shows_of_segment {eps : ℝ} (heps : 0 < eps) (box : Box ℝ) (d : DEdge ℝ) (l : Line ℝ) (h1 : ∀ z, OnSeg z l → OnDiagramEdge d z)
    (h2 : ∀ z, OnDiagramEdge d z → box.Contains z → OnSeg z l) : ShowsEdge eps box d (box.clipLine eps l) := by
  obtain ⟨c1, c2⟩ := C49_clip_within_eps eps heps box l
  have shrink : ∀ z, box.ContainsTol (-eps) z → box.Contains z := by
    rintro z ⟨a, b, c, d⟩
    exact ⟨by linarith, by linarith, by linarith, by linarith⟩
  constructor
  · intro r z hr hz
    obtain ⟨s, e, hs, hse, he, rfl, hin, -⟩ := c2 r hr
    obtain ⟨t, ht0, ht1, rfl⟩ := onSeg_segPt l hse hz
    exact ⟨h1 _ ⟨t, by linarith, by linarith, rfl⟩, hin t ht0 ht1⟩
  · intro z hz hb
    obtain ⟨t, ht0, ht1, rfl⟩ := h2 z hz (shrink z hb)
    cases hc : box.clipLine eps l with
    | none => exact absurd hb (c1 hc t ht0 ht1)
    | some r =>
      obtain ⟨s, e, hs, hse, he, rfl, -, hall⟩ := c2 r hc
      obtain ⟨g1, g2⟩ := hall t ht0 ht1 hb
      exact ⟨_, rfl, segPt_onSeg l hs he g1 g2⟩

theorem ray_points (e : Voronoi.Edge ℝ) (p : P ℝ) (X : ℝ) (hb : e.b ≠ 0) (hp : OnEdgeLine e p) (hX : X ≠ p.x) (z : P ℝ) :
    OnSeg z ⟨p, ⟨X, (e.c - X * e.a) / e.b⟩⟩ ↔ OnEdgeLine e z ∧ 0 ≤ (z.x - p.x) / (X - p.x) ∧ (z.x - p.x) / (X - p.x) ≤ 1 := by
  have hX' : X - p.x ≠ 0 := sub_ne_zero.2 hX
  have hy : p.y = (e.c - p.x * e.a) / e.b := by unfold OnEdgeLine at hp; field_simp; linarith
  constructor
  · rintro ⟨t, h0, h1, rfl⟩
    refine ⟨?_, ?_⟩
    · unfold OnEdgeLine
      simp only [segPt]
      rw [hy]
      field_simp
      ring
    · have : ((segPt ⟨p, ⟨X, (e.c - X * e.a) / e.b⟩⟩ t).x - p.x) / (X - p.x) = t := by
        simp only [segPt]
        field_simp
        ring
      rw [this]
      exact ⟨h0, h1⟩
  · rintro ⟨hz, h0, h1⟩
    refine ⟨_, h0, h1, ?_⟩
    have hzy : z.y = (e.c - z.x * e.a) / e.b := by unfold OnEdgeLine at hz; field_simp; linarith
    apply P.ext_real <;> simp only [segPt]
    · field_simp; ring
    · rw [hzy, hy]; field_simp; ring

/-- The segment to the right border shows an edge that goes on to the right. -/
theorem shows_right {eps : ℝ} (heps : 0 < eps) (box : Box ℝ) (e : Voronoi.Edge ℝ) (p : P ℝ) (hb : e.b ≠ 0) (hp : OnEdgeLine e p) (hX : p.x < box.p2.x) :
    ShowsEdge eps box (e, some p, none) (box.clipLine eps ⟨p, ⟨box.p2.x, (e.c - box.p2.x * e.a) / e.b⟩⟩) := by
  have hpos : 0 < box.p2.x - p.x := by linarith
  refine shows_of_segment heps box _ _ ?_ ?_
  · intro z hz
    obtain ⟨g1, g2, -⟩ := (ray_points e p _ hb hp (by linarith) z).1 hz
    exact ⟨g1, by have := (le_div_iff₀ hpos).1 g2; linarith⟩
  · rintro z ⟨g1, g2⟩ ⟨-, b2, -⟩
    exact (ray_points e p _ hb hp (by linarith) z).2 ⟨g1, div_nonneg (by linarith) hpos.le, (div_le_one hpos).2 (by linarith)⟩

/-- The segment to the left border shows an edge that goes on to the left. -/
theorem shows_left {eps : ℝ} (heps : 0 < eps) (box : Box ℝ) (e : Voronoi.Edge ℝ) (p : P ℝ) (hb : e.b ≠ 0) (hp : OnEdgeLine e p) (hX : box.p1.x < p.x) :
    ShowsEdge eps box (e, none, some p) (box.clipLine eps ⟨p, ⟨box.p1.x, (e.c - box.p1.x * e.a) / e.b⟩⟩) := by
  have hpos : 0 < p.x - box.p1.x := by linarith
  have hdiv : ∀ z : P ℝ, (z.x - p.x) / (box.p1.x - p.x) = (p.x - z.x) / (p.x - box.p1.x) := by
    intro z; rw [← neg_sub p.x z.x, ← neg_sub p.x box.p1.x, neg_div_neg_eq]
  refine shows_of_segment heps box _ _ ?_ ?_
  · intro z hz
    obtain ⟨g1, g2, -⟩ := (ray_points e p _ hb hp (by linarith) z).1 hz
    rw [hdiv] at g2
    exact ⟨g1, by have := (le_div_iff₀ hpos).1 g2; linarith⟩
  · rintro z ⟨g1, g2⟩ ⟨b1, -, -⟩
    refine (ray_points e p _ hb hp (by linarith) z).2 ⟨g1, ?_, ?_⟩
    · rw [hdiv]; exact div_nonneg (by linarith) hpos.le
    · rw [hdiv]; exact (div_le_one hpos).2 (by linarith)

theorem clipEdge_shows {eps : ℝ} (heps : 0 < eps) (box : Box ℝ) (d : DEdge ℝ) (h : Drawable eps box d) :
    ∃ r, clipEdge eps box d = .ok r ∧ ShowsEdge eps box d r := by
  obtain ⟨e, p, q⟩ := d
  cases p with
  | some p =>
    cases q with
    | some q => exact ⟨box.clipLine eps ⟨p, q⟩, rfl, shows_of_segment heps box _ ⟨p, q⟩ (fun z hz => hz) fun z hz _ => hz⟩
    | none =>
      obtain ⟨h1, h2, h3⟩ := h
      have hne : e.b ≠ 0 := by rintro h; rw [h, abs_zero] at h3; linarith
      refine ⟨_, ?_, shows_right heps box e p hne h1 h2.2.1⟩
      unfold clipEdge edgeSegment
      simp only [(pointInside_iff box p).2 h2, if_true, farEnd_real eps heps box e p _ h3]
      rfl
  | none =>
    cases q with
    | none => exact h.elim
    | some p =>
      obtain ⟨h1, h2, h3⟩ := h
      have hne : e.b ≠ 0 := by rintro h; rw [h, abs_zero] at h3; linarith
      refine ⟨_, ?_, shows_left heps box e p hne h1 h2.1⟩
      unfold clipEdge edgeSegment
      simp only [(pointInside_iff box p).2 h2, if_true, farEnd_real eps heps box e p _ h3]
      rfl

/-! ## C157 -/

/-- **C157**: for every page and every list of edges, in any number, each with two end points or with one on the page and not upright: what is drawn is, for each edge in turn, one segment or nothing; the
segment consists of points of the edge within the tolerance of the page, and every point of the edge that is on the page by at least the tolerance is on it. -/
theorem C157_drawn_partial (eps : ℝ) (heps : 0 < eps) (box : Box ℝ) (ds : List (DEdge ℝ)) (h : ∀ d ∈ ds, Drawable eps box d) :
    ∃ rs : List (Option (Line ℝ)), clippedVoronoi eps box ds = .ok (rs.filterMap id) ∧ List.Forall₂ (ShowsEdge eps box) ds rs := by
  have key : ∀ ds : List (DEdge ℝ), (∀ d ∈ ds, Drawable eps box d) → ∃ rs : List (Option (Line ℝ)), ds.mapM (clipEdge eps box) = .ok rs ∧ List.Forall₂ (ShowsEdge eps box) ds rs := by
    intro ds
    induction ds with
    | nil => intro _; exact ⟨[], rfl, .nil⟩
    | cons d ds ih =>
      intro h
      obtain ⟨r, h1, h2⟩ := clipEdge_shows heps box d (h d List.mem_cons_self)
      obtain ⟨rs, h3, h4⟩ := ih fun d hd => h d (List.mem_cons_of_mem _ hd)
      refine ⟨r :: rs, ?_, .cons h2 h4⟩
      rw [List.mapM_cons, h1, h3]
      rfl
  obtain ⟨rs, h1, h2⟩ := key ds h
  refine ⟨rs, ?_, h2⟩
  unfold clippedVoronoi
  rw [h1]
  rfl

/-- The edges for which `geom.voronoiclip` is right: the one end point may be off the page, above, below, or on the side away from the edge. -/
def Drawable0 (box : Box ℝ) : DEdge ℝ → Prop
  | (_, some _, some _) => True
  | (e, some p, none) => OnEdgeLine e p ∧ p.x < box.p2.x ∧ e.b ≠ 0
  | (e, none, some p) => OnEdgeLine e p ∧ box.p1.x < p.x ∧ e.b ≠ 0
  | (_, none, none) => False

/-- **C157**, `geom.voronoiclip.clip_voronoi_segments`: the same, and also for edges that come from off the page. -/
theorem C157_module_partial (eps : ℝ) (heps : 0 < eps) (box : Box ℝ) (ds : List (DEdge ℝ)) (h : ∀ d ∈ ds, Drawable0 box d) :
    ∃ rs : List (Option (Line ℝ)), clipVoronoi0 eps box ds = .ok (rs.filterMap id) ∧ List.Forall₂ (ShowsEdge eps box) ds rs := by
  have one : ∀ d, Drawable0 box d → ∃ l, edgeSegment0 box d = .ok l ∧ ShowsEdge eps box d (box.clipLine eps l) := by
    rintro ⟨e, p, q⟩ h
    cases p with
    | some p =>
      cases q with
      | some q => exact ⟨_, rfl, shows_of_segment heps box _ ⟨p, q⟩ (fun z hz => hz) fun z hz _ => hz⟩
      | none =>
        obtain ⟨h1, h2, h3⟩ := h
        refine ⟨_, ?_, shows_right heps box e p h3 h1 h2⟩
        simp [edgeSegment0, farEnd, pdiv, h3, Ne.symm h3, bind, Except.bind, pure, Except.pure]
    | none =>
      cases q with
      | none => exact h.elim
      | some p =>
        obtain ⟨h1, h2, h3⟩ := h
        refine ⟨_, ?_, shows_left heps box e p h3 h1 h2⟩
        simp [edgeSegment0, farEnd, pdiv, h3, Ne.symm h3, bind, Except.bind, pure, Except.pure]
  have key : ∀ ds : List (DEdge ℝ), (∀ d ∈ ds, Drawable0 box d) → ∃ ls : List (Line ℝ), ds.mapM (edgeSegment0 box) = .ok ls ∧
      List.Forall₂ (ShowsEdge eps box) ds (ls.map (box.clipLine eps)) := by
    intro ds
    induction ds with
    | nil => intro _; exact ⟨[], rfl, .nil⟩
    | cons d ds ih =>
      intro h
      obtain ⟨r, h1, h2⟩ := one d (h d List.mem_cons_self)
      obtain ⟨rs, h3, h4⟩ := ih fun d hd => h d (List.mem_cons_of_mem _ hd)
      refine ⟨r :: rs, ?_, .cons h2 h4⟩
      rw [List.mapM_cons, h1, h3]
      rfl
  obtain ⟨ls, h1, h2⟩ := key ds h
  refine ⟨_, ?_, h2⟩
  unfold clipVoronoi0
  rw [h1, List.filterMap_map]
  rfl

/-- **C157**, clipped to a polygon: without a polygon nothing is drawn in that layer; with one, and segments in general position to it, what is drawn are the parts of the segments inside the polygon, in
order (but see `C121_refuted_inside`). -/
theorem C157_polygon_partial (eps : ℝ) (heps : 0 < eps) (segs : List (Line ℝ)) :
    clippedPoly eps segs none = .ok [] ∧
    ∀ vs : List (P ℝ), vs ≠ [] → (∀ a b, vs.head? = some a → vs.getLast? = some b → a ≠ b → eps ^ 2 ≤ sqDist a b) →
      (∀ l ∈ segs, eps ^ 2 ≤ sqDist l.p1 l.p2 ∧ GeneralPosition eps vs l ∧
        (polyPointInside vs l.p1 = true → polyPointInside vs l.p2 = true → ∀ e ∈ sides vs, ¬ Meet l e)) →
      ∃ cuts : List (List (ℝ × ℝ)), clippedPoly eps segs (some vs) = .ok (List.zipWith (partsOf eps) segs cuts).flatten ∧
        List.Forall₂ (fun (l : Line ℝ) cs => ∀ t, 0 ≤ t → t ≤ 1 → (∀ e ∈ sides vs, ¬ OnSeg (segPt l t) ⟨e.1, e.2⟩) →
          (polyPointInside vs (segPt l t) = true ↔ ∃ c ∈ cs, InCut t c)) segs cuts := by
  refine ⟨rfl, ?_⟩
  intro vs hne hcl
  have key : ∀ segs : List (Line ℝ), (∀ l ∈ segs, eps ^ 2 ≤ sqDist l.p1 l.p2 ∧ GeneralPosition eps vs l ∧
        (polyPointInside vs l.p1 = true → polyPointInside vs l.p2 = true → ∀ e ∈ sides vs, ¬ Meet l e)) →
      ∃ cuts : List (List (ℝ × ℝ)), segs.mapM (polyIntersectLine eps vs) = .ok (List.zipWith (partsOf eps) segs cuts) ∧
        List.Forall₂ (fun (l : Line ℝ) cs => ∀ t, 0 ≤ t → t ≤ 1 → (∀ e ∈ sides vs, ¬ OnSeg (segPt l t) ⟨e.1, e.2⟩) →
          (polyPointInside vs (segPt l t) = true ↔ ∃ c ∈ cs, InCut t c)) segs cuts := by
    intro segs
    induction segs with
    | nil => intro _; exact ⟨[], rfl, .nil⟩
    | cons l segs ih =>
      intro h
      obtain ⟨a, b, c⟩ := h l List.mem_cons_self
      obtain ⟨cs, h1, h2⟩ := C121_clip_partial eps heps vs hne hcl l a b c
      obtain ⟨cuts, h3, h4⟩ := ih fun d hd => h d (List.mem_cons_of_mem _ hd)
      refine ⟨cs :: cuts, ?_, .cons h2 h4⟩
      rw [List.mapM_cons, h1, h3]
      rfl
  intro h
  obtain ⟨cuts, h1, h2⟩ := key segs h
  refine ⟨cuts, ?_, h2⟩
  unfold clippedPoly
  simp only [h1]
  rfl

/-- Parts of **C157** that fail, on every page.  An edge that ends off the page is not drawn, whatever part of it is on the page.  An upright edge is drawn in the same way whether its upper or its
lower end is missing.  And an edge without end points (points in a row have such edges) ends the run with an exception. -/
theorem C157_refuted (eps : ℝ) (box : Box ℝ) :
    (∀ (e : Voronoi.Edge ℝ) (p : P ℝ), ¬ StrictlyOn box p → clipEdge eps box (e, some p, none) = .ok none ∧ clipEdge eps box (e, none, some p) = .ok none) ∧
    (∀ (e : Voronoi.Edge ℝ) (p : P ℝ), |e.b| < eps → clipEdge eps box (e, some p, none) = clipEdge eps box (e, none, some p)) ∧
    ∀ (e : Voronoi.Edge ℝ) (ds : List (DEdge ℝ)), (e, none, none) ∈ ds → ∃ err, clippedVoronoi eps box ds = .error err := by
  refine ⟨?_, ?_, ?_⟩
  · intro e p hp
    have : box.pointInside p = false := by rw [Bool.eq_false_iff]; exact fun h => hp ((pointInside_iff box p).1 h)
    constructor <;> simp [clipEdge, edgeSegment, this, bind, Except.bind, pure, Except.pure]
  · intro e p hb
    have h0 : isZero eps e.b = true := (isZero_iff eps e.b).2 hb
    have : ∀ X Y, farEnd (isZero eps) box e p X = farEnd (isZero eps) box e p Y := by
      intro X Y
      unfold farEnd
      simp only [h0, if_true]
    unfold clipEdge edgeSegment
    simp only [this box.p2.x box.p1.x]
  · intro e ds hd
    have : ∃ err, ds.mapM (clipEdge eps box) = .error err := by
      induction ds with
      | nil => cases hd
      | cons d ds ih =>
        rw [List.mapM_cons]
        rcases List.mem_cons.1 hd with rfl | hd
        · exact ⟨_, rfl⟩
        · obtain ⟨err, he⟩ := ih hd
          rw [he]
          cases h : clipEdge eps box d with
          | error x => exact ⟨x, rfl⟩
          | ok x => exact ⟨err, rfl⟩
    obtain ⟨err, he⟩ := this
    refine ⟨err, ?_⟩
    unfold clippedVoronoi
    rw [he]
    rfl

/-- **C157** fails in a drawing: the points `(4, 10)`, `(6, 10)`, `(5, 5)`, `(1, 1)`, `(9, 2)` on a page of 10 by 40.  The edge between the cells of the first two goes up from `(5, 7.6)`: every point above has these
two as its nearest.  What is drawn goes from there down to the border, right through the third point. -/
theorem C157_refuted_upright (e : Voronoi.Edge ℝ) (he : Voronoi.mkEdge 0 ⟨4, 10, 0⟩ ⟨6, 10, 1⟩ = .ok e) :
    (∀ y : ℝ, 38 / 5 ≤ y → ∀ q ∈ ([⟨4, 10⟩, ⟨6, 10⟩, ⟨5, 5⟩, ⟨1, 1⟩, ⟨9, 2⟩] : List (P ℝ)), sqDist ⟨5, y⟩ ⟨4, 10⟩ = sqDist ⟨5, y⟩ ⟨6, 10⟩ ∧ sqDist ⟨5, y⟩ ⟨4, 10⟩ ≤ sqDist ⟨5, y⟩ q) ∧
    (∀ d : DEdge ℝ, d = (e, some ⟨5, 38 / 5⟩, none) ∨ d = (e, none, some ⟨5, 38 / 5⟩) → clipEdge (1 / 10 ^ 9) ⟨⟨0, 0⟩, ⟨10, 40⟩⟩ d = .ok (some ⟨⟨5, 38 / 5⟩, ⟨5, 0⟩⟩)) ∧
    OnSeg ⟨5, 5⟩ (⟨⟨5, 38 / 5⟩, ⟨5, 0⟩⟩ : Line ℝ) := by
  refine ⟨?_, ?_, ?_⟩
  · intro y hy q hq
    refine ⟨by simp [sqDist]; ring, ?_⟩
    simp only [List.mem_cons, List.not_mem_nil, or_false] at hq
    rcases hq with rfl | rfl | rfl | rfl | rfl <;> simp only [sqDist] <;> nlinarith
  · have hE : e.a = 1 ∧ e.b = 0 ∧ e.c = 5 := by
      unfold Voronoi.mkEdge at he
      have hlt : (|((10 : ℝ) - 10)| < |6 - 4|) := by norm_num
      simp only [real_lt, real_abs, real_sub, hlt, decide_true, if_true, pdiv, Voronoi.bisectorConst, bind, Except.bind, pure, Except.pure, real_mul, real_add, real_div] at he
      norm_num at he
      rw [← he]
      norm_num
    obtain ⟨ha, hb, hc⟩ := hE
    have hclip : Box.clipLine (1 / 10 ^ 9 : ℝ) ⟨⟨0, 0⟩, ⟨10, 40⟩⟩ ⟨⟨5, 38 / 5⟩, ⟨5, 0⟩⟩ = some ⟨⟨5, 38 / 5⟩, ⟨5, 0⟩⟩ := by
      obtain ⟨c1, c2⟩ := C49_clip_exact (1 / 10 ^ 9 : ℝ) (by norm_num) ⟨⟨0, 0⟩, ⟨10, 40⟩⟩ ⟨⟨5, 38 / 5⟩, ⟨5, 0⟩⟩ (by left; norm_num) (by right; rw [abs_of_neg] <;> norm_num)
      cases h : Box.clipLine (1 / 10 ^ 9 : ℝ) ⟨⟨0, 0⟩, ⟨10, 40⟩⟩ ⟨⟨5, 38 / 5⟩, ⟨5, 0⟩⟩ with
      | none => exact absurd ⟨0, le_refl _, zero_le_one, by norm_num [Box.Contains, segPt]⟩ (c1.1 h)
      | some r =>
        obtain ⟨s, e, hs, hse, he1, rfl, hall⟩ := c2 r h
        have g0 := (hall 0 (le_refl _) zero_le_one).1 (by norm_num [Box.Contains, segPt])
        have g1 := (hall 1 zero_le_one (le_refl _)).1 (by norm_num [Box.Contains, segPt])
        have hs0 : s = 0 := le_antisymm g0.1 hs
        have he0 : e = 1 := le_antisymm he1 g1.2
        rw [hs0, he0]
        norm_num [segPt]
    have hin : (⟨⟨0, 0⟩, ⟨10, 40⟩⟩ : Box ℝ).pointInside ⟨5, 38 / 5⟩ = true := (pointInside_iff _ _).2 (by norm_num [StrictlyOn])
    have hfar : ∀ X, farEnd (isZero (1 / 10 ^ 9 : ℝ)) ⟨⟨0, 0⟩, ⟨10, 40⟩⟩ e ⟨5, 38 / 5⟩ X = .ok ⟨5, 0⟩ := by
      intro X
      have h0 : isZero (1 / 10 ^ 9 : ℝ) e.b = true := (isZero_iff _ _).2 (by rw [hb]; norm_num)
      have h1 : ¬ ((0 + 40) / 2 : ℝ) < 5 := by norm_num
      unfold farEnd
      rw [h0, if_pos rfl, ha, hc]
      simp [pdiv, bind, Except.bind, pure, Except.pure]
      norm_num
    intro d hd
    rcases hd with rfl | rfl <;> unfold clipEdge edgeSegment <;> simp only [hin, hfar, if_true] <;> simp only [bind, Except.bind, pure, Except.pure, Option.bind, hclip]
  · exact ⟨13 / 38, by norm_num, by norm_num, by apply P.ext_real <;> norm_num [segPt]⟩

/-- Non-vacuity: there is such an edge. -/
example : ∃ e : Voronoi.Edge ℝ, Voronoi.mkEdge 0 ⟨4, 10, 0⟩ ⟨6, 10, 1⟩ = .ok e := by
  refine ⟨⟨0, 1, 0, 5, ⟨4, 10, 0⟩, ⟨6, 10, 1⟩⟩, ?_⟩
  unfold Voronoi.mkEdge
  have hlt : (|((10 : ℝ) - 10)| < |6 - 4|) := by norm_num
  simp only [real_lt, real_abs, real_sub, hlt, decide_true, if_true, pdiv, Voronoi.bisectorConst, bind, Except.bind, pure, Except.pure, real_mul, real_add, real_div]
  norm_num

/-- Non-vacuity of `C157_drawn_partial`: an edge that rises to the right from `(1, 1)`, and one across the page. -/
example : ∃ rs : List (Option (Line ℝ)), clippedVoronoi (1 / 10 ^ 9) ⟨⟨0, 0⟩, ⟨10, 40⟩⟩
      [(⟨0, -1, 1, 0, ⟨0, 2, 0⟩, ⟨2, 0, 1⟩⟩, some ⟨1, 1⟩, none), (⟨0, 1, 0, 5, ⟨4, 10, 0⟩, ⟨6, 10, 1⟩⟩, some ⟨5, 1⟩, some ⟨5, 100⟩)] = .ok (rs.filterMap id) ∧
    List.Forall₂ (ShowsEdge (1 / 10 ^ 9) ⟨⟨0, 0⟩, ⟨10, 40⟩⟩)
      [(⟨0, -1, 1, 0, ⟨0, 2, 0⟩, ⟨2, 0, 1⟩⟩, some ⟨1, 1⟩, none), (⟨0, 1, 0, 5, ⟨4, 10, 0⟩, ⟨6, 10, 1⟩⟩, some ⟨5, 1⟩, some ⟨5, 100⟩)] rs := by
  refine C157_drawn_partial (1 / 10 ^ 9) (by norm_num) _ _ ?_
  intro d hd
  simp only [List.mem_cons, List.not_mem_nil, or_false] at hd
  rcases hd with rfl | rfl
  · refine ⟨by norm_num [OnEdgeLine], by norm_num [StrictlyOn], by norm_num⟩
  · trivial

/-- Non-vacuity of `C157_module_partial`: an edge that comes from off the page. -/
example : Drawable0 ⟨⟨0, 0⟩, ⟨10, 40⟩⟩ (⟨0, -1, 1, 0, ⟨0, 2, 0⟩, ⟨2, 0, 1⟩⟩, some ⟨-3, -3⟩, none) := by
  refine ⟨by norm_num [OnEdgeLine], by norm_num, by norm_num⟩

/-- Non-vacuity of `C157_polygon_partial`: a line that leaves a triangle. -/
example : ∃ cuts : List (List (ℝ × ℝ)), clippedPoly (1 / 1000) [⟨⟨1, 1⟩, ⟨1, -2⟩⟩] (some [⟨0, 0⟩, ⟨4, 0⟩, ⟨0, 4⟩]) =
    .ok (List.zipWith (partsOf (1 / 1000)) [⟨⟨1, 1⟩, ⟨1, -2⟩⟩] cuts).flatten := by
  have hs : sides [⟨0, 0⟩, ⟨4, 0⟩, ⟨0, 4⟩] = [(⟨0, 0⟩, ⟨4, 0⟩), (⟨4, 0⟩, ⟨0, 4⟩), (⟨0, 4⟩, ⟨0, 0⟩)] := rfl
  obtain ⟨cuts, h1, -⟩ := (C157_polygon_partial (1 / 1000) (by norm_num) [⟨⟨1, 1⟩, ⟨1, -2⟩⟩]).2 [⟨0, 0⟩, ⟨4, 0⟩, ⟨0, 4⟩] (by simp) (by rintro a b ⟨⟩ ⟨⟩ -; norm_num [sqDist]) (by
    intro l hl
    rw [List.mem_singleton] at hl
    subst hl
    refine ⟨by norm_num [sqDist], ?_, by intro _ h; norm_num [polyPointInside, cycPairs, pairsFrom, edgeCrosses] at h⟩
    intro e he
    rw [hs] at he
    simp only [List.mem_cons, List.not_mem_nil, or_false] at he
    rintro ⟨t, s, t0, t1, s0, s1, h⟩
    have hx := congrArg P.x h
    have hy := congrArg P.y h
    simp only [segPt] at hx hy
    rcases he with rfl | rfl | rfl
    · exact ⟨⟨1 / 3, 1 / 4, by norm_num, by norm_num, by norm_num, by norm_num, by norm_num [segPt]⟩, by norm_num [dirCross]⟩
    · norm_num at hx hy; linarith
    · norm_num at hx)
  exact ⟨cuts, h1⟩

end Verif.Ext
