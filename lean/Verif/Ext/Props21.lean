import Verif.Ext.Props20
import Verif.Geom.Props9

/-!
# C158: the Delaunay edges that are drawn when clipping to a polygon
-/

set_option linter.unusedSectionVars false

namespace Verif.Ext
open Verif PyFloat PyTrig Geom

/-! ## Specification -/

/-- Specification: the line is a side of the polygon, in one direction or the other, up to the tolerance. -/
def IsPolySide (eps : ℝ) (vs : List (P ℝ)) (l : Line ℝ) : Prop :=
  ∃ e ∈ sides vs, (sqDist l.p1 e.1 < eps ^ 2 ∧ sqDist l.p2 e.2 < eps ^ 2) ∨ (sqDist l.p1 e.2 < eps ^ 2 ∧ sqDist l.p2 e.1 < eps ^ 2)

/-- Specification: the line without its ends is inside the polygon. -/
def InsideAllAlong (vs : List (P ℝ)) (l : Line ℝ) : Prop := ∀ t, 0 < t → t < 1 → polyPointInside vs (segPt l t) = true

/-- Specification: the line does not cross the sides of the polygon; its ends may be on them, but one end must be a vertex or on no side. -/
def CrossesNoSide (vs : List (P ℝ)) (l : Line ℝ) : Prop :=
  (∀ t, 0 < t → t < 1 → ∀ e ∈ sides vs, ¬ OnSeg (segPt l t) ⟨e.1, e.2⟩) ∧
  ((l.p1 ∈ vs ∨ ∀ e ∈ sides vs, ¬ OnSeg l.p1 ⟨e.1, e.2⟩) ∨ l.p2 ∈ vs ∨ ∀ e ∈ sides vs, ¬ OnSeg l.p2 ⟨e.1, e.2⟩)

/-- Specification: the segment between the two points whose cells an edge separates. -/
def delaunayLine (e : Voronoi.Edge ℝ) : Line ℝ := ⟨⟨e.s1.x, e.s1.y⟩, ⟨e.s2.x, e.s2.y⟩⟩

/-! ## Proof -/

theorem isSide_iff (eps : ℝ) (vs : List (P ℝ)) (l : Line ℝ) : isSide eps vs l = true ↔ IsPolySide eps vs l := by
  have hsym : ∀ a b : P ℝ, sqDist a b = sqDist b a := by intro a b; unfold sqDist; ring
  unfold isSide IsPolySide
  simp only [List.any_eq_true, ← (sides_perm vs).mem_iff, Line.eq, Bool.or_eq_true, Bool.and_eq_true, eq_iff]
  constructor
  · rintro ⟨e, he, ⟨h1, h2⟩ | ⟨h1, h2⟩⟩
    · exact ⟨e, he, .inr ⟨by rw [hsym]; exact h1, by rw [hsym]; exact h2⟩⟩
    · exact ⟨e, he, .inl ⟨by rw [hsym]; exact h2, by rw [hsym]; exact h1⟩⟩
  · rintro ⟨e, he, ⟨h1, h2⟩ | ⟨h1, h2⟩⟩
    · exact ⟨e, he, .inr ⟨by rw [hsym]; exact h2, by rw [hsym]; exact h1⟩⟩
    · exact ⟨e, he, .inl ⟨by rw [hsym]; exact h1, by rw [hsym]; exact h2⟩⟩

theorem mem_sides_fst {vs : List (P ℝ)} {v : P ℝ} (h : v ∈ vs) : ∃ e ∈ sides vs, e.1 = v := by
  unfold sides
  obtain ⟨i, hi, rfl⟩ := List.getElem_of_mem h
  have hi' : i < (vs.zip (vs.rotate 1)).length := by simp [hi]
  exact ⟨_, List.getElem_mem hi', by simp⟩

theorem fst_onSeg (e : P ℝ × P ℝ) : OnSeg e.1 ⟨e.1, e.2⟩ := ⟨0, le_refl _, zero_le_one, by rw [segPt_zero]⟩

/-- Along a stretch that touches no side, all points are inside or none is. -/
theorem inside_same (vs : List (P ℝ)) (l : Line ℝ) {s t : ℝ} (hst : s ≤ t) (h : ∀ u, s ≤ u → u ≤ t → ∀ e ∈ sides vs, ¬ OnSeg (segPt l u) ⟨e.1, e.2⟩) :
    polyPointInside vs (segPt l s) = polyPointInside vs (segPt l t) := by
  classical
  by_contra hne
  have hway : ClearWay vs ⟨segPt l s, segPt l t⟩ := by
    refine ⟨?_, fun e he => ⟨h s (le_refl _) hst e he, h t hst (le_refl _) e he⟩⟩
    intro v hv hon
    obtain ⟨u, h0, h1, rfl⟩ := onSeg_segPt l hst hon
    obtain ⟨e, he, he1⟩ := mem_sides_fst hv
    exact h u h0 h1 e he (he1 ▸ fst_onSeg e)
  have hodd := (C120_parity vs _ _ hway).1 hne
  have hz : crossings vs ⟨segPt l s, segPt l t⟩ = 0 := by
    unfold crossings
    rw [List.countP_eq_zero]
    intro e he hm
    obtain ⟨a, b, a0, a1, b0, b1, hab⟩ := of_decide_eq_true hm
    obtain ⟨u, h0, h1, hu⟩ := onSeg_segPt l hst ⟨a, a0, a1, rfl⟩
    exact h u h0 h1 e he ⟨b, b0, b1, by rw [← hu]; exact hab⟩
  rw [hz] at hodd
  exact absurd hodd (by decide)

theorem midpoint_segPt (l : Line ℝ) : l.midpoint = segPt l (1 / 2) := by
  unfold Line.midpoint
  apply P.ext_real <;> simp [segPt, P.add, P.mul, lit_real] <;> ring

theorem mid_iff (vs : List (P ℝ)) (l : Line ℝ) (h : ∀ t, 0 < t → t < 1 → ∀ e ∈ sides vs, ¬ OnSeg (segPt l t) ⟨e.1, e.2⟩) :
    polyPointInside vs l.midpoint = true ↔ InsideAllAlong vs l := by
  rw [midpoint_segPt]
  constructor
  · intro hm t h0 h1
    rcases le_total t (1 / 2) with ht | ht
    · rw [inside_same vs l ht fun u hu hu' => h u (by linarith) (by linarith)]; exact hm
    · rw [← inside_same vs l ht fun u hu hu' => h u (by linarith) (by linarith)]; exact hm
  · intro hm; exact hm _ (by norm_num) (by norm_num)

theorem touches_vertex {eps : ℝ} (heps : 0 < eps) {vs : List (P ℝ)} {l : Line ℝ} (h : l.p1 ∈ vs ∨ l.p2 ∈ vs) : touchesVertex eps vs l = true := by
  have hself : ∀ p : P ℝ, p.eq eps p = true := by
    intro p
    have : sqDist p p = 0 := by simp [sqDist]
    rw [eq_iff, this]; positivity
  unfold touchesVertex
  rcases h with h | h <;> obtain ⟨e, he, he1⟩ := mem_sides_fst h <;> refine List.any_eq_true.2 ⟨e, (sides_perm vs).mem_iff.1 he, ?_⟩ <;> simp [he1, hself]

theorem end_ok {eps : ℝ} (heps : 0 < eps) (vs : List (P ℝ)) (l : Line ℝ) (h : CrossesNoSide vs l) (hm : polyPointInside vs l.midpoint = true) :
    touchesVertex eps vs l = true ∨ polyPointInside vs l.p1 = true ∨ polyPointInside vs l.p2 = true := by
  rcases h.2 with (hv | hv) | hv | hv
  · exact Or.inl (touches_vertex heps (Or.inl hv))
  · right; left
    rw [midpoint_segPt, ← inside_same vs l (s := 0) (by norm_num), segPt_zero] at hm
    · exact hm
    · intro u h0 h1
      rcases eq_or_lt_of_le h0 with rfl | h0
      · rw [segPt_zero]; exact hv
      · exact h.1 u h0 (by linarith)
  · exact Or.inl (touches_vertex heps (Or.inr hv))
  · right; right
    have h1' : segPt l 1 = l.p2 := by apply P.ext_real <;> simp [segPt]
    rw [midpoint_segPt, inside_same vs l (t := 1) (by norm_num), h1'] at hm
    · exact hm
    · intro u h0 h1
      rcases eq_or_lt_of_le h1 with rfl | h1
      · rw [h1']; exact hv
      · exact h.1 u (by linarith) h1

/-! ## C158 -/

/-- **C158**, one line: a side of the polygon is always kept (with `allow_hull`, as the extension calls it; without it, never), and a line that crosses no side of the polygon and is not one of them is kept
exactly if it runs inside the polygon. For every polygon, convex or not, and every line with one end at a vertex or away from the sides. -/
theorem C158_inside_hull_partial (eps : ℝ) (heps : 0 < eps) (vs : List (P ℝ)) (l : Line ℝ) :
    (IsPolySide eps vs l → lineInsideHull eps vs l true = true ∧ lineInsideHull eps vs l false = false) ∧
    (¬ IsPolySide eps vs l → CrossesNoSide vs l → ∀ allow, lineInsideHull eps vs l allow = true ↔ InsideAllAlong vs l) := by
  constructor
  · intro h
    have h := (isSide_iff eps vs l).2 h
    unfold lineInsideHull
    simp [h]
  · intro h hc allow
    have h : isSide eps vs l = false := by rw [Bool.eq_false_iff]; exact fun g => h ((isSide_iff eps vs l).1 g)
    rw [← mid_iff vs l hc.1]
    unfold lineInsideHull
    cases hm : polyPointInside vs l.midpoint with
    | false => simp [h]
    | true =>
      rcases end_ok heps vs l hc hm with g | g | g
      · simp [h, g]
      · simp [h, g]
      · simp [h, g]

open Classical in
/-- **C158**, the drawing: without a polygon every Delaunay edge is drawn; with one, those that are sides of the polygon or run inside it, in order, provided that none of the edges crosses a side. -/
theorem C158_delaunay_partial (eps : ℝ) (heps : 0 < eps) (es : List (Voronoi.Edge ℝ)) :
    clippedDelaunay eps es none = es.map delaunayLine ∧
    ∀ vs : List (P ℝ), (∀ e ∈ es, IsPolySide eps vs (delaunayLine e) ∨ CrossesNoSide vs (delaunayLine e)) →
      clippedDelaunay eps es (some vs) = (es.map delaunayLine).filter fun l => decide (IsPolySide eps vs l ∨ InsideAllAlong vs l) := by
  refine ⟨rfl, ?_⟩
  intro vs h
  unfold clippedDelaunay
  refine List.filter_congr ?_
  intro l hl
  obtain ⟨e, he, rfl⟩ := List.mem_map.1 hl
  have hh : IsPolySide eps vs (delaunayLine e) ∨ CrossesNoSide vs (delaunayLine e) := h e he
  change lineInsideHull eps vs (delaunayLine e) true = _
  rw [Bool.eq_iff_iff, decide_eq_true_iff]
  by_cases hs : IsPolySide eps vs (delaunayLine e)
  · exact ⟨fun _ => .inl hs, fun _ => ((C158_inside_hull_partial eps heps vs _).1 hs).1⟩
  · rw [(C158_inside_hull_partial eps heps vs _).2 hs (hh.resolve_left hs) true]
    exact ⟨.inr, fun g => g.resolve_left hs⟩

/-- A part of **C158** that fails: a Delaunay edge may cross a polygon that has a notch.  The line from `(0, 0)` to `(10, 0)` is one, as no other point is in the circle around its middle; it is kept, although its
point `(8, 0)` is in the notch, outside. -/
theorem C158_refuted (eps : ℝ) (heps : 0 < eps) (h1 : eps < 1) :
    (∀ v ∈ ([⟨-30, -30⟩, ⟨30, -30⟩, ⟨30, 20⟩, ⟨9, 20⟩, ⟨8, -20⟩, ⟨7, 20⟩, ⟨-30, 20⟩] : List (P ℝ)), 5 ^ 2 < sqDist v ⟨5, 0⟩) ∧
    lineInsideHull eps [⟨-30, -30⟩, ⟨30, -30⟩, ⟨30, 20⟩, ⟨9, 20⟩, ⟨8, -20⟩, ⟨7, 20⟩, ⟨-30, 20⟩] ⟨⟨0, 0⟩, ⟨10, 0⟩⟩ true = true ∧
    polyPointInside [⟨-30, -30⟩, ⟨30, -30⟩, ⟨30, 20⟩, ⟨9, 20⟩, ⟨8, -20⟩, ⟨7, 20⟩, ⟨-30, 20⟩] (segPt ⟨⟨0, 0⟩, ⟨10, 0⟩⟩ (4 / 5) : P ℝ) = false := by
  refine ⟨?_, ?_, ?_⟩
  · intro v hv
    simp only [List.mem_cons, List.not_mem_nil, or_false] at hv
    rcases hv with rfl | rfl | rfl | rfl | rfl | rfl | rfl <;> norm_num [sqDist]
  · have hm : polyPointInside [⟨-30, -30⟩, ⟨30, -30⟩, ⟨30, 20⟩, ⟨9, 20⟩, ⟨8, -20⟩, ⟨7, 20⟩, ⟨-30, 20⟩] (Line.midpoint ⟨⟨0, 0⟩, ⟨10, 0⟩⟩ : P ℝ) = true := by
      rw [midpoint_segPt]
      norm_num [segPt, polyPointInside, cycPairs, pairsFrom, edgeCrosses]
    have he : polyPointInside [⟨-30, -30⟩, ⟨30, -30⟩, ⟨30, 20⟩, ⟨9, 20⟩, ⟨8, -20⟩, ⟨7, 20⟩, ⟨-30, 20⟩] (⟨0, 0⟩ : P ℝ) = true := by
      norm_num [polyPointInside, cycPairs, pairsFrom, edgeCrosses]
    unfold lineInsideHull
    rw [hm, he]
    simp
  · norm_num [segPt, polyPointInside, cycPairs, pairsFrom, edgeCrosses]

/-- Non-vacuity of `C158_inside_hull_partial`: a diagonal of a square that crosses no side, and is kept. -/
example : lineInsideHull (1 / 1000 : ℝ) [⟨0, 0⟩, ⟨4, 0⟩, ⟨4, 4⟩, ⟨0, 4⟩] ⟨⟨0, 0⟩, ⟨4, 4⟩⟩ true = true ∧ InsideAllAlong [⟨0, 0⟩, ⟨4, 0⟩, ⟨4, 4⟩, ⟨0, 4⟩] ⟨⟨0, 0⟩, ⟨4, 4⟩⟩ := by
  have hs : sides [⟨0, 0⟩, ⟨4, 0⟩, ⟨4, 4⟩, ⟨0, 4⟩] = [(⟨0, 0⟩, ⟨4, 0⟩), (⟨4, 0⟩, ⟨4, 4⟩), (⟨4, 4⟩, ⟨0, 4⟩), (⟨0, 4⟩, ⟨0, 0⟩)] := rfl
  have hc : CrossesNoSide [⟨0, 0⟩, ⟨4, 0⟩, ⟨4, 4⟩, ⟨0, 4⟩] ⟨⟨0, 0⟩, ⟨4, 4⟩⟩ := by
    refine ⟨?_, .inl (.inl (by simp))⟩
    rintro t h0 h1 e he ⟨s, s0, s1, h⟩
    have hx := congrArg P.x h
    have hy := congrArg P.y h
    rw [hs] at he
    simp only [List.mem_cons, List.not_mem_nil, or_false] at he
    simp only [segPt] at hx hy
    rcases he with rfl | rfl | rfl | rfl <;> norm_num at hx hy <;> linarith
  have hn : ¬ IsPolySide (1 / 1000) [⟨0, 0⟩, ⟨4, 0⟩, ⟨4, 4⟩, ⟨0, 4⟩] ⟨⟨0, 0⟩, ⟨4, 4⟩⟩ := by
    rintro ⟨e, he, h⟩
    rw [hs] at he
    simp only [List.mem_cons, List.not_mem_nil, or_false] at he
    rcases he with rfl | rfl | rfl | rfl <;> norm_num [sqDist] at h
  have hi : InsideAllAlong [⟨0, 0⟩, ⟨4, 0⟩, ⟨4, 4⟩, ⟨0, 4⟩] ⟨⟨0, 0⟩, ⟨4, 4⟩⟩ := by
    rw [← mid_iff _ _ hc.1, midpoint_segPt]
    norm_num [segPt, polyPointInside, cycPairs, pairsFrom, edgeCrosses]
  exact ⟨((C158_inside_hull_partial _ (by norm_num) _ _).2 hn hc true).2 hi, hi⟩

end Verif.Ext
