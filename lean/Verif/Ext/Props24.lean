import Verif.Ext.Pipes
import Verif.Ext.Props7
import Verif.Cam.Props4
import Verif.Geom.Props9

/-!
# C162: pipe lines
-/

set_option linter.unusedSectionVars false

namespace Verif.Ext
open Verif PyFloat PyTrig Geom

/-! ## Specification -/

/-- Specification: the polylines that divide every guide evenly. -/
noncomputable def evenLines (count : Nat) (guides : List (Line ℝ)) : List (List (P ℝ)) :=
  (List.range count).map fun n : Nat => guides.map fun g => segPt g (((n : ℝ) + 1) / ((count : ℝ) + 1))

/-- Specification: a point of a path (up to the tolerance of the program). -/
def OnPath (eps : ℝ) (path : List (Line ℝ)) (p : P ℝ) : Prop := ∃ s ∈ path, ∃ t, -eps ≤ t ∧ t ≤ 1 + eps ∧ p = segPt s t

/-! ## Positions -/

theorem pdiv_real {a b : ℝ} (h : b ≠ 0) : pdiv a b = .ok (a / b) := by
  unfold pdiv
  rw [if_neg (by simpa using h)]
  simp

theorem pdiv_zero (a : ℝ) : pdiv a (0 : ℝ) = .error .zeroDivision := by
  unfold pdiv
  rw [if_pos (by simp)]

theorem modify_map {α : Type} (m : Nat) (L : List (List α)) (f : Nat → α) (hm : m < L.length) :
    (L.mapIdx fun i l => if i < m then l ++ [f i] else l).modify m (· ++ [f m]) = L.mapIdx fun i l => if i < m + 1 then l ++ [f i] else l := by
  apply List.ext_getElem
  · simp
  · intro i h1 h2
    simp only [List.length_modify, List.length_mapIdx] at h1
    rw [List.getElem_modify]
    simp only [List.getElem_mapIdx]
    by_cases h : m = i
    · subst h; simp
    · rw [if_neg h]
      by_cases h' : i < m
      · rw [if_pos h', if_pos (by omega)]
      · rw [if_neg h', if_neg (by omega)]

/-- One guide adds one point to each polyline. -/
theorem addPoints_more (f : Nat → P ℝ) (L : List (List (P ℝ))) : (List.range L.length).foldl (fun ps n => addPoint ps n (f n)) L = L.mapIdx fun i l => l ++ [f i] := by
  have key : ∀ m, m ≤ L.length → (List.range m).foldl (fun ps n => addPoint ps n (f n)) L = L.mapIdx fun i l => if i < m then l ++ [f i] else l := by
    intro m
    induction m with
    | zero =>
      intro _
      apply List.ext_getElem <;> simp
    | succ m ih =>
      intro hm
      rw [List.range_succ, List.foldl_append, ih (by omega)]
      simp only [List.foldl_cons, List.foldl_nil]
      unfold addPoint
      rw [if_neg (by simp; omega)]
      exact modify_map m L f (by omega)
  rw [key _ le_rfl]
  apply List.ext_getElem
  · simp
  · intro i h1 h2
    simp only [List.length_mapIdx] at h1
    simp [h1]

theorem addPoints_first (f : Nat → P ℝ) (count : Nat) : (List.range count).foldl (fun ps n => addPoint ps n (f n)) [] = (List.range count).map fun n => [f n] := by
  induction count with
  | zero => rfl
  | succ m ih =>
    rw [List.range_succ, List.foldl_append, ih, List.map_append]
    simp only [List.foldl_cons, List.foldl_nil, List.map_cons, List.map_nil]
    unfold addPoint
    rw [if_pos (by simp)]
    apply List.ext_getElem
    · simp
    · intro i h1 h2
      rw [List.getElem_modify]
      by_cases h : m = i
      · subst h
        rw [if_pos rfl, List.getElem_append_right (by simp), List.getElem_append_right (by simp)]
        simp
      · rw [if_neg h]
        simp only [List.length_append, List.length_map, List.length_range, List.length_singleton] at h2
        rw [List.getElem_append_left (by simp; omega), List.getElem_append_left (by simp; omega)]

theorem pointAt_segPt (l : Line ℝ) (t : ℝ) : l.pointAt t = segPt l t := by
  unfold Line.pointAt segPt
  simp only [P.add, P.sub, P.mul, real_add, real_sub, real_mul, P.mk.injEq]
  constructor <;> ring

theorem stepPoint (count : Nat) (g : Line ℝ) (hg : segLen g ≠ 0) (n : Nat) :
    g.pointAt ((segLen g / ((count : ℝ) + 1) / segLen g) *. ofInt ((n : Int) + 1)) = segPt g (((n : ℝ) + 1) / ((count : ℝ) + 1)) := by
  rw [pointAt_segPt]
  congr 1
  have : (ofInt ((n : Int) + 1) : ℝ) = (n : ℝ) + 1 := by simp
  rw [real_mul, this]
  have hc : (count : ℝ) + 1 ≠ 0 := by positivity
  field_simp

theorem polylinesOver_more (count : Nat) : ∀ (guides done : List (Line ℝ)), done ≠ [] → (∀ g ∈ guides, segLen g ≠ 0) →
    polylinesOver (count : Int) (evenLines count done) guides = .ok (evenLines count (done ++ guides)) := by
  intro guides
  induction guides with
  | nil => intro done _ _; simp [polylinesOver]
  | cons g guides ih =>
    intro done hd hg
    have hg0 := hg g (by simp)
    unfold polylinesOver
    have hc : (ofInt ((count : Int) + 1) : ℝ) = (count : ℝ) + 1 := by simp
    have hc0 : (count : ℝ) + 1 ≠ 0 := by positivity
    simp only [length_real, hc, pdiv_real hc0, pdiv_real hg0, bind, Except.bind, Int.toNat_natCast, stepPoint count g hg0]
    have hl : count = (evenLines count done).length := by simp [evenLines]
    have := addPoints_more (fun n => segPt g (((n : ℝ) + 1) / ((count : ℝ) + 1))) (evenLines count done)
    rw [← hl] at this
    rw [this]
    have e : ((evenLines count done).mapIdx fun i l => l ++ [segPt g (((i : ℝ) + 1) / ((count : ℝ) + 1))]) = evenLines count (done ++ [g]) := by
      apply List.ext_getElem
      · simp [evenLines]
      · intro i h1 h2
        simp [evenLines]
    rw [e, ih (done ++ [g]) (by simp) (fun x hx => hg x (by simp [hx]))]
    simp

/-- **C162 (positions).**  Between guides that are not degenerate, for every number of lines: that many polylines are drawn, each with one vertex on each guide, in the order of the guides;
the vertices divide every guide into equal parts. -/
theorem C162_positions (maxSpacing : ℝ) (count : Int) (guides : List (Line ℝ)) (hg : ∀ g ∈ guides, segLen g ≠ 0) (hne : guides ≠ []) (hc : 0 ≤ numPolylines maxSpacing count guides) :
    getPolylines maxSpacing count guides = .ok (evenLines (numPolylines maxSpacing count guides).toNat guides) := by
  unfold getPolylines
  obtain ⟨n, hn⟩ := Int.eq_ofNat_of_zero_le hc
  rw [hn]
  obtain ⟨g, guides, rfl⟩ := List.exists_cons_of_ne_nil hne
  have hg0 := hg g (by simp)
  unfold polylinesOver
  have hcc : (ofInt ((n : Int) + 1) : ℝ) = (n : ℝ) + 1 := by simp
  have hc0 : (n : ℝ) + 1 ≠ 0 := by positivity
  simp only [length_real, hcc, pdiv_real hc0, pdiv_real hg0, bind, Except.bind, Int.toNat_natCast, stepPoint n g hg0]
  rw [addPoints_first]
  have e : ((List.range n).map fun i : Nat => [segPt g (((i : ℝ) + 1) / ((n : ℝ) + 1))]) = evenLines n [g] := by simp [evenLines]
  rw [e, polylinesOver_more n guides [g] (by simp) (fun x hx => hg x (by simp [hx]))]
  rfl

/-- **C162, refuted (paths that touch).**  A guide without length, for example when the two paths start at the same point, raises `ZeroDivisionError`. -/
theorem C162_touching_refuted (maxSpacing : ℝ) (count : Int) (guides : List (Line ℝ)) (hc : numPolylines maxSpacing count guides ≠ -1) (hg : ∃ g ∈ guides, segLen g = 0) :
    getPolylines maxSpacing count guides = .error .zeroDivision := by
  unfold getPolylines
  generalize numPolylines maxSpacing count guides = n at hc
  generalize ([] : List (List (P ℝ))) = acc
  induction guides generalizing acc with
  | nil => obtain ⟨g, hg, -⟩ := hg; simp at hg
  | cons g guides ih =>
    unfold polylinesOver
    have hcc : (ofInt (n + 1) : ℝ) ≠ 0 := by
      have : (ofInt (n + 1) : ℝ) = (n : ℝ) + 1 := by simp
      rw [this]
      intro h
      apply hc
      have : ((n + 1 : Int) : ℝ) = 0 := by push_cast; exact h
      have := Int.cast_eq_zero.1 this
      omega
    by_cases h0 : segLen g = 0
    · simp only [length_real, pdiv_real hcc, h0, pdiv_zero, bind, Except.bind]
    · simp only [length_real, pdiv_real hcc, pdiv_real h0, bind, Except.bind]
      refine ih ?_ _
      obtain ⟨x, hx, hx0⟩ := hg
      rcases List.mem_cons.1 hx with rfl | hx
      · exact absurd hx0 h0
      · exact ⟨x, hx, hx0⟩

/-! ## Spacing -/

theorem longestGuide_ge (guides : List (Line ℝ)) : 0 ≤ longestGuide guides ∧ ∀ g ∈ guides, segLen g ≤ longestGuide guides := by
  unfold longestGuide
  have key : ∀ (l : List (Line ℝ)) (m : ℝ), m ≤ l.foldl (fun m s => if m <. s.length then s.length else m) m ∧
      ∀ g ∈ l, segLen g ≤ l.foldl (fun m s => if m <. s.length then s.length else m) m := by
    intro l
    induction l with
    | nil => intro m; simp
    | cons s l ih =>
      intro m
      simp only [List.foldl_cons, List.mem_cons, forall_eq_or_imp]
      obtain ⟨h1, h2⟩ := ih (if m <. s.length then s.length else m)
      have h3 : m ≤ (if m <. s.length then s.length else m) ∧ segLen s ≤ (if m <. s.length then s.length else m) := by
        rw [length_real]
        by_cases h : m < segLen s
        · rw [if_pos (by simpa using h)]; exact ⟨h.le, le_rfl⟩
        · rw [if_neg (by simpa using h)]; exact ⟨le_rfl, not_lt.1 h⟩
      exact ⟨h3.1.trans h1, h3.2.trans h1, h2⟩
  obtain ⟨h1, h2⟩ := key guides zero
  exact ⟨by simpa using h1, h2⟩

/-- **C162 (spacing).**  With a largest spacing the number of lines is the longest guide divided by it, rounded to the nearest whole number (halves up), and two neighbouring lines (or a line and its path)
are never farther apart on a guide than that. -/
theorem C162_spacing (maxSpacing : ℝ) (count : Int) (guides : List (Line ℝ)) (hm : 0 < maxSpacing) :
    numPolylines maxSpacing count guides = ⌊longestGuide guides / maxSpacing + 1 / 2⌋ ∧ 0 ≤ numPolylines maxSpacing count guides ∧
    ∀ g ∈ guides, segLen g / ((numPolylines maxSpacing count guides : ℝ) + 1) < maxSpacing := by
  obtain ⟨h0, h1⟩ := longestGuide_ge guides
  have hq : 0 ≤ longestGuide guides / maxSpacing := div_nonneg h0 hm.le
  have hn : numPolylines maxSpacing count guides = ⌊longestGuide guides / maxSpacing + 1 / 2⌋ := by
    unfold numPolylines
    rw [if_pos (by simpa using hm)]
    unfold intRound
    rw [real_div, if_neg (by simpa using hq), real_add, lit_real, trunc_real, if_pos (by norm_num; linarith)]
    norm_num
  refine ⟨hn, ?_, ?_⟩
  · rw [hn]; exact Int.floor_nonneg.2 (by linarith)
  · intro g hg
    rw [hn]
    have h2 := Int.lt_floor_add_one (longestGuide guides / maxSpacing + 1 / 2)
    have h3 : longestGuide guides / maxSpacing < (⌊longestGuide guides / maxSpacing + 1 / 2⌋ : ℝ) + 1 := by linarith
    have h4 : (0 : ℝ) < (⌊longestGuide guides / maxSpacing + 1 / 2⌋ : ℝ) + 1 := by linarith
    rw [div_lt_iff₀ h4]
    rw [div_lt_iff₀ hm] at h3
    linarith [h1 g hg]

/-- Without a largest spacing the number of lines is the one asked for. -/
theorem C162_count (maxSpacing : ℝ) (count : Int) (guides : List (Line ℝ)) (hm : maxSpacing ≤ 0) : numPolylines maxSpacing count guides = count := by
  unfold numPolylines
  rw [if_neg (by simpa using hm)]

/-! ## Guides -/

theorem segPt_at_zero (l : Line ℝ) : segPt l 0 = l.p1 := by
  unfold segPt; apply P.ext_real <;> simp

theorem segPt_at_one (l : Line ℝ) : segPt l 1 = l.p2 := by
  unfold segPt; apply P.ext_real <;> simp

/-- Specification: twice the signed area of a triangle: positive when `q` is left of the line from `a` to `b`. -/
def leftOf (a b q : P ℝ) : ℝ := (b.x - a.x) * (q.y - a.y) - (b.y - a.y) * (q.x - a.x)

/-- Specification: the line goes from the vertex along the bisector of its angle. -/
def BisectsAt (p0 v p2 : P ℝ) (ray : Line ℝ) : Prop :=
  ray.p1 = v ∧ ((ray.p2.x - v.x) * (p0.x - v.x) + (ray.p2.y - v.y) * (p0.y - v.y)) * segLen ⟨v, p2⟩ =
    ((ray.p2.x - v.x) * (p2.x - v.x) + (ray.p2.y - v.y) * (p2.y - v.y)) * segLen ⟨v, p0⟩

/-- Specification: where a line meets the segments of a path. -/
def Hit (eps : ℝ) (ray : Line ℝ) (path : List (Line ℝ)) (q : P ℝ) : Prop :=
  ∃ s ∈ path, eps ≤ |dirCross ray s| ∧ ∃ a b, -eps ≤ a ∧ a ≤ 1 + eps ∧ -eps ≤ b ∧ b ≤ 1 + eps ∧ q = segPt ray a ∧ q = segPt s b

/-- Specification: the guide at a vertex: along the bisector, on the side asked for, to the nearest point of the other path that is farther than `0.001` (the farthest one, if none is);
no guide if the bisector does not reach the other path. -/
def GuideAt (eps reach : ℝ) (left : Prop) (other : List (Line ℝ)) (c : P ℝ × P ℝ × P ℝ) (g : Option (Line ℝ)) : Prop :=
  ∃ ray, BisectsAt c.1 c.2.1 c.2.2 ray ∧ segLen ray = 1 + reach ∧ (left → 0 ≤ leftOf c.1 c.2.1 ray.p2) ∧ (¬ left → leftOf c.1 c.2.1 ray.p2 ≤ 0) ∧
    (g = none → ∀ q, ¬ Hit eps ray other q) ∧
    ∀ l, g = some l → l.p1 = c.2.1 ∧ Hit eps ray other l.p2 ∧
      (1 / 1000 < segLen l → ∀ q, Hit eps ray other q → 1 / 1000 < segLen ⟨c.2.1, q⟩ → segLen l ≤ segLen ⟨c.2.1, q⟩) ∧
      (segLen l ≤ 1 / 1000 → ∀ q, Hit eps ray other q → segLen ⟨c.2.1, q⟩ ≤ segLen l)

/-- Specification: the vertices of a path with the vertex before and the one after. -/
def corners : P ℝ → List (Line ℝ) → List (P ℝ × P ℝ × P ℝ)
  | _, [] => []
  | p0, s :: r => (p0, s.p1, s.p2) :: corners s.p1 r

/-- Specification: there is a bend at the vertex: the angle between the two segments is not 0. -/
def Bend (eps : ℝ) (c : P ℝ × P ℝ × P ℝ) : Prop := eps < |c.2.1.angle2 eps c.1 c.2.2|

theorem bisector_dir (v p0 p2 : P ℝ) : ∃ u w, pBisector v p0 p2 = ⟨v.x + u, v.y + w⟩ ∧ u ^ 2 + w ^ 2 = 1 ∧
    (u * (p0.x - v.x) + w * (p0.y - v.y)) * segLen ⟨v, p2⟩ = (u * (p2.x - v.x) + w * (p2.y - v.y)) * segLen ⟨v, p0⟩ := by
  set a1 := (p0.sub v).angle with ha1
  set a2 := (p2.sub v).angle with ha2
  refine ⟨Real.cos ((a1 + a2) / 2), Real.sin ((a1 + a2) / 2), ?_, ?_, ?_⟩
  · unfold pBisector
    simp only [P.add, P.fromPolar, real_add, real_mul, real_div, P.mk.injEq, ← ha1, ← ha2]
    simp
  · have := Real.sin_sq_add_cos_sq ((a1 + a2) / 2)
    linarith
  · have hx0 := polar_atan2 (p0.sub v) (segLen ⟨v, p0⟩) (Real.sqrt_nonneg _) (by rw [segLen_sq]; simp [P.sub])
    have hx2 := polar_atan2 (p2.sub v) (segLen ⟨v, p2⟩) (Real.sqrt_nonneg _) (by rw [segLen_sq]; simp [P.sub])
    simp only [P.sub, real_sub] at hx0 hx2
    rw [← show (p0.sub v).angle = (P.mk (p0.x - v.x) (p0.y - v.y)).angle from by simp [P.sub], ← ha1] at hx0
    rw [← show (p2.sub v).angle = (P.mk (p2.x - v.x) (p2.y - v.y)).angle from by simp [P.sub], ← ha2] at hx2
    obtain ⟨e1, e2⟩ := hx0
    obtain ⟨e3, e4⟩ := hx2
    rw [← e1, ← e2, ← e3, ← e4]
    have c1 : Real.cos ((a1 + a2) / 2) * Real.cos a1 + Real.sin ((a1 + a2) / 2) * Real.sin a1 = Real.cos ((a2 - a1) / 2) := by
      rw [← Real.cos_sub]; congr 1; ring
    have c2 : Real.cos ((a1 + a2) / 2) * Real.cos a2 + Real.sin ((a1 + a2) / 2) * Real.sin a2 = Real.cos ((a2 - a1) / 2) := by
      rw [← Real.cos_sub, ← Real.cos_neg]; congr 1; ring
    linear_combination (segLen ⟨v, p0⟩ * segLen ⟨v, p2⟩) * (c1 - c2)

theorem whichSide_real (eps : ℝ) (a b q : P ℝ) : (Line.mk a b).whichSide eps q = if 0 ≤ leftOf a b q then 1 else -1 := by
  unfold Line.whichSide leftOf
  simp [P.cross, P.sub, mul_comm]

theorem bisectorRay_spec (eps reach : ℝ) (hr : 0 ≤ reach) (side : Int) (left : Prop) (h1 : left → side = 1) (h2 : ¬ left → side = -1) (p0 v p2 : P ℝ) :
    ∃ ray, bisectorRay eps side reach p0 v p2 = .ok ray ∧ BisectsAt p0 v p2 ray ∧ segLen ray = 1 + reach ∧ (left → 0 ≤ leftOf p0 v ray.p2) ∧ (¬ left → leftOf p0 v ray.p2 ≤ 0) := by
  obtain ⟨u, w, hb, hu, hbis⟩ := bisector_dir v p0 p2
  have key : ∀ b : Line ℝ, b.p1 = v → (∃ k : ℝ, (k = 1 ∨ k = -1) ∧ b.p2 = ⟨v.x + k * u, v.y + k * w⟩ ∧ (left → 0 ≤ k * (leftOf p0 v ⟨v.x + u, v.y + w⟩)) ∧
      (¬ left → k * (leftOf p0 v ⟨v.x + u, v.y + w⟩) ≤ 0)) →
      ∃ ray, b.extend reach = .ok ray ∧ BisectsAt p0 v p2 ray ∧ segLen ray = 1 + reach ∧ (left → 0 ≤ leftOf p0 v ray.p2) ∧ (¬ left → leftOf p0 v ray.p2 ≤ 0) := by
    rintro ⟨b1, b2⟩ rfl ⟨k, hk, hb2, l1, l2⟩
    dsimp only at hb2
    have hkk : k ^ 2 = 1 := by rcases hk with rfl | rfl <;> norm_num
    have hlen : segLen ⟨b1, b2⟩ = 1 := by
      have h := segLen_sq ⟨b1, b2⟩
      rw [hb2] at h ⊢
      have : segLen ⟨b1, ⟨b1.x + k * u, b1.y + k * w⟩⟩ ^ 2 = 1 := by
        rw [h]
        dsimp only
        linear_combination (u ^ 2 + w ^ 2) * hkk + hu
      have h0 : 0 ≤ segLen ⟨b1, ⟨b1.x + k * u, b1.y + k * w⟩⟩ := Real.sqrt_nonneg _
      nlinarith
    have hext : (Line.mk b1 b2).extend reach = .ok ⟨b1, ⟨b1.x + (1 + reach) * (k * u), b1.y + (1 + reach) * (k * w)⟩⟩ := by
      unfold Line.extend
      simp only [Bool.false_eq_true, if_false, length_real, hlen, pdiv_real one_ne_zero, bind, Except.bind, pure, Except.pure]
      rw [hb2]
      simp only [P.add, P.sub, P.mul, real_add, real_sub, real_mul, Except.ok.injEq, Line.mk.injEq, P.mk.injEq, true_and]
      constructor <;> ring
    have hleft : leftOf p0 b1 ⟨b1.x + (1 + reach) * (k * u), b1.y + (1 + reach) * (k * w)⟩ = (1 + reach) * (k * leftOf p0 b1 ⟨b1.x + u, b1.y + w⟩) := by
      unfold leftOf; dsimp only; ring_nf
    refine ⟨_, hext, ⟨rfl, ?_⟩, ?_, ?_, ?_⟩
    · dsimp only
      linear_combination ((1 + reach) * k) * hbis
    · have h := segLen_sq ⟨b1, ⟨b1.x + (1 + reach) * (k * u), b1.y + (1 + reach) * (k * w)⟩⟩
      have h0 : 0 ≤ segLen ⟨b1, ⟨b1.x + (1 + reach) * (k * u), b1.y + (1 + reach) * (k * w)⟩⟩ := Real.sqrt_nonneg _
      dsimp only at h
      have h' : segLen ⟨b1, ⟨b1.x + (1 + reach) * (k * u), b1.y + (1 + reach) * (k * w)⟩⟩ ^ 2 = (1 + reach) ^ 2 := by
        rw [h]
        linear_combination ((1 + reach) ^ 2 * (u ^ 2 + w ^ 2)) * hkk + (1 + reach) ^ 2 * hu
      exact (pow_left_inj₀ h0 (by linarith) two_ne_zero).1 h'
    · intro hl
      rw [hleft]
      exact mul_nonneg (by linarith) (l1 hl)
    · intro hl
      rw [hleft]
      exact mul_nonpos_of_nonneg_of_nonpos (by linarith) (l2 hl)
  unfold bisectorRay
  dsimp only
  rw [hb, whichSide_real]
  set L := leftOf p0 v ⟨v.x + u, v.y + w⟩ with hL
  by_cases hl : left
  · rw [h1 hl]
    by_cases hp : 0 ≤ L
    · rw [if_pos hp, if_neg (by simp)]
      exact key _ rfl ⟨1, Or.inl rfl, by simp, fun _ => by linarith, fun h => absurd hl h⟩
    · rw [if_neg hp, if_pos (by decide)]
      refine key _ rfl ⟨-1, Or.inr rfl, ?_, fun _ => by linarith, fun h => absurd hl h⟩
      simp only [Line.flipped, P.neg, P.add, P.sub, real_neg, real_add, real_sub, P.mk.injEq]
      constructor <;> ring
  · rw [h2 hl]
    by_cases hp : 0 ≤ L
    · rw [if_pos hp, if_pos (by decide)]
      refine key _ rfl ⟨-1, Or.inr rfl, ?_, fun h => absurd h hl, fun _ => by linarith⟩
      simp only [Line.flipped, P.neg, P.add, P.sub, real_neg, real_add, real_sub, P.mk.injEq]
      constructor <;> ring
    · rw [if_neg hp, if_neg (by simp)]
      exact key _ rfl ⟨1, Or.inl rfl, by simp, fun h => absurd h hl, fun _ => by linarith⟩

theorem intersection_hit {eps : ℝ} (heps : 0 < eps) (ray s : Line ℝ) (q : P ℝ) : ray.intersection eps s true = some q ↔
    eps ≤ |dirCross ray s| ∧ ∃ a b, -eps ≤ a ∧ a ≤ 1 + eps ∧ -eps ≤ b ∧ b ≤ 1 + eps ∧ q = segPt ray a ∧ q = segPt s b := by
  obtain ⟨h1, h2⟩ := C55_intersection eps heps ray s true false false
  constructor
  · intro h
    obtain ⟨a, b, e1, e2, e3, e4, e5⟩ := h1 q h
    have e4 := e4 rfl
    have e5 := e5 rfl
    unfold OutsideSeg at e4 e5
    push Not at e4 e5
    refine ⟨?_, a, b, e4.1, e4.2, e5.1, e5.2, e1, e2⟩
    by_contra hlt
    push Not at hlt
    have : ray.intersection eps s true = none := by
      unfold Line.intersection Line.intersectionMu
      have hd : ray.denom s = dirCross ray s := by
        unfold Line.denom dirCross; simp only [real_sub, real_mul]; ring
      rw [hd]
      simp [hlt]
    rw [this] at h
    simp at h
  · rintro ⟨hx, a, b, a1, a2, b1, b2, e1, e2⟩
    cases h : ray.intersection eps s true with
    | some q' =>
      obtain ⟨a', b', e1', e2', e3', -, -⟩ := h1 q' h
      have := e3' a b (e1.symm.trans e2)
      rw [e1, this.1, ← e1']
    | none =>
      exfalso
      rcases h2 h with hx' | ⟨a', b', e, hout⟩
      · exact absurd hx' (not_lt.2 hx)
      · have huni : a = a' ∧ b = b' := by
          have h3 := e1.symm.trans e2
          unfold segPt at e h3
          simp only [P.mk.injEq] at e h3
          have hD : dirCross ray s ≠ 0 := by
            intro h0
            rw [h0, abs_zero] at hx
            linarith
          unfold dirCross at hD
          have k1 : (a - a') * (ray.p2.x - ray.p1.x) = (b - b') * (s.p2.x - s.p1.x) := by linear_combination h3.1 - e.1
          have k2 : (a - a') * (ray.p2.y - ray.p1.y) = (b - b') * (s.p2.y - s.p1.y) := by linear_combination h3.2 - e.2
          have k3 : (a - a') * ((ray.p2.x - ray.p1.x) * (s.p2.y - s.p1.y) - (s.p2.x - s.p1.x) * (ray.p2.y - ray.p1.y)) = 0 := by
            linear_combination (s.p2.y - s.p1.y) * k1 - (s.p2.x - s.p1.x) * k2
          have k4 : (b - b') * ((ray.p2.x - ray.p1.x) * (s.p2.y - s.p1.y) - (s.p2.x - s.p1.x) * (ray.p2.y - ray.p1.y)) = 0 := by
            linear_combination (ray.p2.y - ray.p1.y) * k1 - (ray.p2.x - ray.p1.x) * k2
          rcases mul_eq_zero.1 k3 with k3 | k3
          · rcases mul_eq_zero.1 k4 with k4 | k4
            · exact ⟨by linarith, by linarith⟩
            · exact absurd k4 hD
          · exact absurd k3 hD
        obtain ⟨rfl, rfl⟩ := huni
        unfold OutsideSeg at hout
        rcases hout with ⟨-, h | h⟩ | ⟨-, h | h⟩ <;> linarith

theorem mem_rayHits {eps : ℝ} (heps : 0 < eps) (ray : Line ℝ) (path : List (Line ℝ)) (l : Line ℝ) : l ∈ rayHits eps ray path ↔ l.p1 = ray.p1 ∧ Hit eps ray path l.p2 := by
  unfold rayHits Hit
  rw [List.mem_filterMap]
  constructor
  · rintro ⟨s, hs, h⟩
    obtain ⟨q, hq, rfl⟩ := Option.map_eq_some_iff.1 h
    exact ⟨rfl, s, hs, (intersection_hit heps ray s q).1 hq⟩
  · rintro ⟨h1, s, hs, h⟩
    exact ⟨s, hs, Option.map_eq_some_iff.2 ⟨l.p2, (intersection_hit heps ray s l.p2).2 h, by rw [← h1]⟩⟩

theorem firstLong_spec : ∀ ls : List (Line ℝ), (ls.Pairwise fun a b => segLen a ≤ segLen b) →
    (firstLong ls = none → ls = []) ∧ ∀ l, firstLong ls = some l → l ∈ ls ∧ (1 / 1000 < segLen l → ∀ m ∈ ls, 1 / 1000 < segLen m → segLen l ≤ segLen m) ∧
      (segLen l ≤ 1 / 1000 → ∀ m ∈ ls, segLen m ≤ segLen l) := by
  intro ls
  induction ls with
  | nil => intro _; exact ⟨fun _ => rfl, by simp [firstLong]⟩
  | cons a ls ih =>
    intro hp
    rw [List.pairwise_cons] at hp
    cases ls with
    | nil =>
      refine ⟨by simp [firstLong], ?_⟩
      intro l hl
      simp only [firstLong, Option.some.injEq] at hl
      subst hl
      simp
    | cons b ls =>
      obtain ⟨i1, i2⟩ := ih hp.2
      have hl3 : (lit 1 3 : ℝ) = 1 / 1000 := by rw [lit_real]; norm_num
      unfold firstLong
      rw [hl3, length_real]
      by_cases h : 1 / 1000 < segLen a
      · rw [if_pos (by simpa using h)]
        refine ⟨by simp, ?_⟩
        intro l hl
        cases hl
        refine ⟨by simp, ?_, fun h' => by linarith⟩
        intro _ m hm _
        rcases List.mem_cons.1 hm with rfl | hm
        · exact le_rfl
        · exact hp.1 m hm
      · rw [if_neg (by simpa using h)]
        push Not at h
        refine ⟨fun hn => absurd (i1 hn) (by simp), ?_⟩
        intro l hl
        obtain ⟨j1, j2, j3⟩ := i2 l hl
        refine ⟨List.mem_cons_of_mem _ j1, ?_, ?_⟩
        · intro hlt m hm hm'
          rcases List.mem_cons.1 hm with rfl | hm
          · linarith
          · exact j2 hlt m hm hm'
        · intro hle m hm
          rcases List.mem_cons.1 hm with rfl | hm
          · exact hp.1 l j1
          · exact j3 hle m hm

theorem linexSegment_spec {eps : ℝ} (heps : 0 < eps) (ray : Line ℝ) (path : List (Line ℝ)) :
    (linexSegment eps ray path = none → ∀ q, ¬ Hit eps ray path q) ∧ ∀ l, linexSegment eps ray path = some l → l.p1 = ray.p1 ∧ Hit eps ray path l.p2 ∧
      (1 / 1000 < segLen l → ∀ q, Hit eps ray path q → 1 / 1000 < segLen ⟨ray.p1, q⟩ → segLen l ≤ segLen ⟨ray.p1, q⟩) ∧
      (segLen l ≤ 1 / 1000 → ∀ q, Hit eps ray path q → segLen ⟨ray.p1, q⟩ ≤ segLen l) := by
  unfold linexSegment
  have hk : (fun a b : Line ℝ => (a.length <. b.length)) = Cam.keyLt segLen := by
    funext a b
    simp [Cam.keyLt, length_real]
  rw [hk]
  obtain ⟨h1, h2⟩ := firstLong_spec _ (Cam.pySort_sorted segLen (rayHits eps ray path))
  have hmem : ∀ m, m ∈ Cam.pySort (Cam.keyLt segLen) (rayHits eps ray path) ↔ m.p1 = ray.p1 ∧ Hit eps ray path m.p2 := fun m =>
    (Cam.pySort_perm segLen _).mem_iff.trans (mem_rayHits heps ray path m)
  refine ⟨?_, ?_⟩
  · intro h q hq
    have := (hmem ⟨ray.p1, q⟩).2 ⟨rfl, hq⟩
    rw [h1 h] at this
    simp at this
  · intro l hl
    obtain ⟨j1, j2, j3⟩ := h2 l hl
    obtain ⟨k1, k2⟩ := (hmem l).1 j1
    exact ⟨k1, k2, fun hh q hq hq' => j2 hh ⟨ray.p1, q⟩ ((hmem _).2 ⟨rfl, hq⟩) hq', fun hh q hq => j3 hh ⟨ray.p1, q⟩ ((hmem _).2 ⟨rfl, hq⟩)⟩

open Classical in
theorem raysFrom_spec {eps : ℝ} (heps : 0 < eps) (skip : Bool) (reach : ℝ) (hr : 0 ≤ reach) (side : Int) (left : Prop) (h1 : left → side = 1) (h2 : ¬ left → side = -1) (other : List (Line ℝ)) :
    ∀ (path : List (Line ℝ)) (p0 : P ℝ), ∃ gs : List (Option (Line ℝ)), raysFrom eps skip side reach other p0 path = .ok gs.reduceOption ∧
      List.Forall₂ (GuideAt eps reach left other) ((corners p0 path).filter fun c => skip = true → Bend eps c) gs := by
  intro path
  induction path with
  | nil => intro p0; exact ⟨[], rfl, by simp [corners]⟩
  | cons s r ih =>
    intro p0
    obtain ⟨gs, e1, e2⟩ := ih s.p1
    unfold raysFrom corners
    by_cases hb : skip = true → Bend eps (p0, s.p1, s.p2)
    · have hcond : (skip && !(eps <. PyFloat.abs (s.p1.angle2 eps p0 s.p2))) = false := by
        cases skip with
        | false => rfl
        | true =>
          have := hb rfl
          unfold Bend at this
          simpa using this
      rw [hcond, if_neg (by simp)]
      obtain ⟨ray, f1, f2, f3, f4, f5⟩ := bisectorRay_spec eps reach hr side left h1 h2 p0 s.p1 s.p2
      obtain ⟨g1, g2⟩ := linexSegment_spec heps ray other
      refine ⟨linexSegment eps ray other :: gs, ?_, ?_⟩
      · simp only [f1, e1, bind, Except.bind, pure, Except.pure, Except.ok.injEq]
        cases linexSegment eps ray other <;> rfl
      · rw [List.filter_cons_of_pos (by rw [decide_eq_true_eq]; exact hb)]
        refine List.Forall₂.cons ⟨ray, f2, f3, f4, f5, g1, ?_⟩ e2
        intro l hl
        have := g2 l hl
        rw [f2.1] at this
        exact this
    · have hcond : (skip && !(eps <. PyFloat.abs (s.p1.angle2 eps p0 s.p2))) = true := by
        push Not at hb
        obtain ⟨rfl, hb⟩ := hb
        unfold Bend at hb
        simpa using hb
      rw [hcond, if_pos rfl]
      refine ⟨gs, e1, ?_⟩
      rw [List.filter_cons_of_neg (by rw [decide_eq_true_eq]; exact hb)]
      exact e2

/-! ## Order along the paths -/

/-- Specification: how far along the path a point is: the lengths of the segments before the first one it is on (up to the tolerance), and the distance from the start of that one.  A point on no segment
counts as the end. -/
noncomputable def alongPath (eps : ℝ) (p : P ℝ) : List (Line ℝ) → ℝ
  | [] => 0
  | s :: r => if s.pointOnLine eps p true = true then segLen ⟨s.p1, p⟩ else segLen s + alongPath eps p r

theorem segLen_nonneg (l : Line ℝ) : 0 ≤ segLen l := Real.sqrt_nonneg _

theorem distance_segLen (p q : P ℝ) : p.distance q = segLen ⟨p, q⟩ := by
  rw [distance_real]
  unfold segLen sqDist
  rfl

theorem plineDistanceFrom_real (eps : ℝ) (p : P ℝ) : ∀ (path : List (Line ℝ)) (d : ℝ), plineDistanceFrom eps p d path = d + alongPath eps p path := by
  intro path
  induction path with
  | nil => intro d; simp [plineDistanceFrom, alongPath]
  | cons s r ih =>
    intro d
    unfold plineDistanceFrom alongPath
    by_cases h : s.pointOnLine eps p true = true
    · rw [if_pos h, if_pos h, distance_segLen, real_add]
    · rw [if_neg h, if_neg h, ih, length_real, real_add, add_assoc]

theorem plineDistance_real (eps : ℝ) (p : P ℝ) (path : List (Line ℝ)) : plineDistance eps path p = alongPath eps p path := by
  unfold plineDistance
  rw [plineDistanceFrom_real]
  simp

theorem along_nonneg (eps : ℝ) (p : P ℝ) (path : List (Line ℝ)) : 0 ≤ alongPath eps p path := by
  induction path with
  | nil => exact le_rfl
  | cons s r ih =>
    unfold alongPath
    split_ifs
    · exact segLen_nonneg _
    · exact add_nonneg (segLen_nonneg _) ih

theorem pointOnLine_start {eps : ℝ} (heps : 0 < eps) (s : Line ℝ) : s.pointOnLine eps s.p1 true = true := by
  unfold Line.pointOnLine
  have hz : Geom.isZero eps ((s.p2.sub s.p1).cross (s.p1.sub s.p1)) = true := by
    rw [isZero_iff]
    simp [P.cross, P.sub, heps]
  dsimp only
  rw [hz]
  simp only [Bool.and_self, if_true, pmin_real, pmax_real, real_sub, real_add, Bool.and_eq_true, real_le, decide_eq_true_eq]
  have h1 := min_le_left s.p1.x s.p2.x
  have h2 := le_max_left s.p1.x s.p2.x
  have h3 := min_le_left s.p1.y s.p2.y
  have h4 := le_max_left s.p1.y s.p2.y
  refine ⟨⟨by linarith, by linarith⟩, by linarith, by linarith⟩

theorem segLen_self (p : P ℝ) : segLen ⟨p, p⟩ = 0 := by
  unfold segLen sqDist
  simp

theorem along_start {eps : ℝ} (heps : 0 < eps) (s : Line ℝ) (r : List (Line ℝ)) : alongPath eps s.p1 (s :: r) = 0 := by
  unfold alongPath
  rw [if_pos (pointOnLine_start heps s), segLen_self]

theorem sortAlong_key (eps : ℝ) (path : List (Line ℝ)) (ps : List (P ℝ)) : sortAlong eps path ps = Cam.pySort (Cam.keyLt fun p => alongPath eps p path) ps := by
  unfold sortAlong
  congr 1
  funext p q
  simp [Cam.keyLt, plineDistance_real]

theorem sort_head {α : Type} (key : α → ℝ) (a : α) (l : List α) (h : ∀ b ∈ l, key a ≤ key b) : Cam.pySort (Cam.keyLt key) (a :: l) = a :: Cam.pySort (Cam.keyLt key) l := by
  show Cam.sortInsert _ a (Cam.pySort _ l) = _
  have hm : ∀ b ∈ Cam.pySort (Cam.keyLt key) l, key a ≤ key b := fun b hb => h b ((Cam.pySort_perm key l).mem_iff.1 hb)
  cases hp : Cam.pySort (Cam.keyLt key) l with
  | nil => rfl
  | cons b m =>
    rw [hp] at hm
    unfold Cam.sortInsert
    rw [if_neg (by simpa [Cam.keyLt] using hm b (by simp))]

theorem insert_last {α : Type} (key : α → ℝ) (a e : α) (h : key a ≤ key e) : ∀ m : List α, Cam.sortInsert (Cam.keyLt key) a (m ++ [e]) = Cam.sortInsert (Cam.keyLt key) a m ++ [e] := by
  intro m
  induction m with
  | nil =>
    simp only [List.nil_append, Cam.sortInsert]
    rw [if_neg (by simpa [Cam.keyLt] using h)]
    rfl
  | cons b m ih =>
    rw [List.cons_append]
    unfold Cam.sortInsert
    split_ifs
    · rw [ih]; rfl
    · rfl

theorem sort_last {α : Type} (key : α → ℝ) (e : α) : ∀ l : List α, (∀ b ∈ l, key b ≤ key e) → Cam.pySort (Cam.keyLt key) (l ++ [e]) = Cam.pySort (Cam.keyLt key) l ++ [e] := by
  intro l
  induction l with
  | nil => intro _; rfl
  | cons a l ih =>
    intro h
    show Cam.sortInsert _ a (Cam.pySort _ (l ++ [e])) = Cam.sortInsert _ a (Cam.pySort _ l) ++ [e]
    rw [ih (fun b hb => h b (by simp [hb])), insert_last key a e (h a (by simp))]

/-- Specification: the start of a path. -/
def startOf : List (Line ℝ) → P ℝ
  | [] => ⟨0, 0⟩
  | s :: _ => s.p1

/-- Specification: the end of a path. -/
def endOf (path : List (Line ℝ)) : P ℝ := (path.getLast?.map Line.p2).getD ⟨0, 0⟩

theorem pathEnd_eq (s : Line ℝ) (r : List (Line ℝ)) : pathEnd s r = endOf (s :: r) := by
  unfold pathEnd endOf
  rw [List.getLast?_eq_some_getLast (by simp)]
  simp only [Option.map_some, Option.getD_some]
  rw [List.getLastD_eq_getLast?, List.getLast?_eq_some_getLast (by simp)]
  rfl

theorem reverse_ends (s : Line ℝ) (r : List (Line ℝ)) : startOf (reversePath (s :: r)) = endOf (s :: r) ∧ endOf (reversePath (s :: r)) = s.p1 ∧ reversePath (s :: r) ≠ [] := by
  refine ⟨?_, ?_, by simp [reversePath]⟩
  · rw [← pathEnd_eq]
    unfold reversePath pathEnd
    obtain ⟨l, a, h⟩ : ∃ l a, s :: r = l ++ [a] := ⟨_, _, (List.dropLast_append_getLast (by simp)).symm⟩
    rw [h]
    simp [startOf, Line.reversed]
  · unfold reversePath endOf
    simp [Line.reversed]

theorem reach_nonneg (fmax fmin : ℝ) (a b : List (Line ℝ)) : 0 ≤ pathsDiagonal fmax fmin a b := by
  unfold pathsDiagonal P.length
  dsimp only
  rw [real_hypot]
  exact Real.sqrt_nonneg _

/-- Specification: the second path as it is used: itself, or reversed if it starts farther from the start of the first one than it ends. -/
noncomputable def facing (path1 path2 : List (Line ℝ)) : List (Line ℝ) :=
  if segLen ⟨startOf path1, endOf path2⟩ < segLen ⟨startOf path1, startOf path2⟩ then reversePath path2 else path2

theorem aligned_spec {path1 path2 : List (Line ℝ)} (h1 : path1 ≠ []) (h2 : path2 ≠ []) : aligned path1 path2 = .ok (facing path1 path2) ∧ facing path1 path2 ≠ [] ∧
    segLen ⟨startOf path1, startOf (facing path1 path2)⟩ ≤ segLen ⟨startOf path1, endOf (facing path1 path2)⟩ := by
  obtain ⟨s1, r1, rfl⟩ := List.exists_cons_of_ne_nil h1
  obtain ⟨s2, r2, rfl⟩ := List.exists_cons_of_ne_nil h2
  by_cases h : segLen ⟨s1.p1, endOf (s2 :: r2)⟩ < segLen ⟨s1.p1, s2.p1⟩
  · have hf : facing (s1 :: r1) (s2 :: r2) = reversePath (s2 :: r2) := by
      unfold facing; exact if_pos h
    obtain ⟨e1, e2, e3⟩ := reverse_ends s2 r2
    rw [hf]
    refine ⟨?_, e3, ?_⟩
    · unfold aligned
      simp only [distance_segLen, pathEnd_eq, real_lt, decide_eq_true_eq]
      exact if_pos h
    · rw [e1, e2]
      exact h.le
  · have hf : facing (s1 :: r1) (s2 :: r2) = s2 :: r2 := by
      unfold facing; exact if_neg h
    rw [hf]
    refine ⟨?_, by simp, not_lt.1 h⟩
    unfold aligned
    simp only [distance_segLen, pathEnd_eq, real_lt, decide_eq_true_eq]
    exact if_neg h

open Classical in
/-- **C162 (guides).**  For all paths of line segments: the guides are found without an exception, and
* the second path is turned to face the first one;
* every bent vertex of the first path and every vertex of the second path has a guide along its bisector towards the other path, if the bisector reaches it;
* one guide joins the starts of the paths, one their ends;
* the ends of all these guides are then sorted along each of the paths and joined in that order, the first one joining the starts; the last one joins the ends if no guide ends later on the paths.

Missing: that the last guide always joins the ends (false for closed paths, `C162_closed_refuted`), and that every bisector that meets the other path gets a guide (it may be too short,
`C162_reach_refuted`). -/
theorem C162_guides_partial {eps fmax fmin : ℝ} (heps : 0 < eps) {path1 path2 : List (Line ℝ)} (h1 : path1 ≠ []) (h2 : path2 ≠ []) :
    ∃ (guides : List (Line ℝ)) (gs1 gs2 : List (Option (Line ℝ))),
      let two := facing path1 path2
      let left : Prop := 0 ≤ leftOf (startOf path1) ((path1.head?.map Line.p2).getD ⟨0, 0⟩) (startOf two)
      let reach := pathsDiagonal fmax fmin path1 path2
      let rays := ⟨startOf path1, startOf two⟩ :: (gs1.reduceOption ++ gs2.reduceOption.map (fun l => ⟨l.p2, l.p1⟩)) ++ [⟨endOf path1, endOf two⟩]
      getSegments eps fmax fmin path1 path2 = .ok (guides, two) ∧
      segLen ⟨startOf path1, startOf two⟩ ≤ segLen ⟨startOf path1, endOf two⟩ ∧
      List.Forall₂ (GuideAt eps reach left two) ((corners (startOf path1) path1.tail).filter fun c => Bend eps c) gs1 ∧
      List.Forall₂ (GuideAt eps reach (¬ left) path1) (corners (startOf two) two.tail) gs2 ∧
      (guides.map Line.p1).Perm (rays.map Line.p1) ∧ (guides.map Line.p2).Perm (rays.map Line.p2) ∧
      (guides.Pairwise fun g g' => alongPath eps g.p1 path1 ≤ alongPath eps g'.p1 path1 ∧ alongPath eps g.p2 two ≤ alongPath eps g'.p2 two) ∧
      guides.head? = some ⟨startOf path1, startOf two⟩ ∧
      ((∀ g ∈ guides, alongPath eps g.p1 path1 ≤ alongPath eps (endOf path1) path1 ∧ alongPath eps g.p2 two ≤ alongPath eps (endOf two) two) → guides.getLast? = some ⟨endOf path1, endOf two⟩) := by
  obtain ⟨ha, hne, hface⟩ := aligned_spec h1 h2
  set two := facing path1 path2 with htwo
  set reach := pathsDiagonal fmax fmin path1 path2 with hreach
  have hr : 0 ≤ reach := reach_nonneg _ _ _ _
  clear_value two reach
  obtain ⟨s1, r1, rfl⟩ := List.exists_cons_of_ne_nil h1
  obtain ⟨s2, r2, rfl⟩ := List.exists_cons_of_ne_nil hne
  obtain ⟨gs1, e1, f1⟩ := raysFrom_spec heps true reach hr (s1.whichSide eps s2.p1) (0 ≤ leftOf s1.p1 s1.p2 s2.p1) (fun h => by rw [show s1 = ⟨s1.p1, s1.p2⟩ from rfl, whichSide_real, if_pos h])
    (fun h => by rw [show s1 = ⟨s1.p1, s1.p2⟩ from rfl, whichSide_real, if_neg h]) (s2 :: r2) r1 s1.p1
  obtain ⟨gs2, e2, f2⟩ := raysFrom_spec heps false reach hr (-s1.whichSide eps s2.p1) (¬ 0 ≤ leftOf s1.p1 s1.p2 s2.p1)
    (fun h => by rw [show s1 = ⟨s1.p1, s1.p2⟩ from rfl, whichSide_real, if_neg h]; rfl)
    (fun h => by rw [show s1 = ⟨s1.p1, s1.p2⟩ from rfl, whichSide_real, if_pos (not_not.1 h)]) (s1 :: r1) r2 s2.p1
  set rays : List (Line ℝ) := ⟨s1.p1, s2.p1⟩ :: (gs1.reduceOption ++ gs2.reduceOption.map (fun l => ⟨l.p2, l.p1⟩)) ++ [⟨endOf (s1 :: r1), endOf (s2 :: r2)⟩] with hrays
  set k1 := fun p => alongPath eps p (s1 :: r1) with hk1
  set k2 := fun p => alongPath eps p (s2 :: r2) with hk2
  set P1 := Cam.pySort (Cam.keyLt k1) (rays.map Line.p1) with hP1
  set P2 := Cam.pySort (Cam.keyLt k2) (rays.map Line.p2) with hP2
  have hlen : P1.length = P2.length := by
    rw [(Cam.pySort_perm k1 _).length_eq, (Cam.pySort_perm k2 _).length_eq, List.length_map, List.length_map]
  have hz1 : (List.zipWith Line.mk P1 P2).map Line.p1 = P1 := by
    rw [List.map_zipWith]
    apply List.ext_getElem
    · simp [hlen]
    · intro i a b; simp
  have hz2 : (List.zipWith Line.mk P1 P2).map Line.p2 = P2 := by
    rw [List.map_zipWith]
    apply List.ext_getElem
    · simp [hlen]
    · intro i a b; simp
  refine ⟨List.zipWith Line.mk P1 P2, gs1, gs2, ?_⟩
  refine ⟨?_, hface, ?_, ?_, ?_, ?_, ?_, ?_, ?_⟩
  · unfold getSegments pipeRays
    simp only [ha, bind, Except.bind, pure, Except.pure, ← hreach, e1, e2, pathEnd_eq, sortAlong_key]
    rfl
  · simpa [startOf] using f1
  · simpa [startOf] using f2
  · rw [hz1]; exact Cam.pySort_perm k1 _
  · rw [hz2]; exact Cam.pySort_perm k2 _
  · have q1 : ((List.zipWith Line.mk P1 P2).map Line.p1).Pairwise fun x y => k1 x ≤ k1 y := by rw [hz1]; exact Cam.pySort_sorted k1 _
    have q2 : ((List.zipWith Line.mk P1 P2).map Line.p2).Pairwise fun x y => k2 x ≤ k2 y := by rw [hz2]; exact Cam.pySort_sorted k2 _
    rw [List.pairwise_map] at q1 q2
    exact q1.and q2
  · have a1 : P1 = s1.p1 :: Cam.pySort (Cam.keyLt k1) (rays.tail.map Line.p1) := by
      rw [hP1, hrays]
      rw [List.cons_append, List.map_cons]
      rw [sort_head]
      · rfl
      · intro b _
        rw [hk1]
        dsimp only
        rw [along_start heps]
        exact along_nonneg _ _ _
    have a2 : P2 = s2.p1 :: Cam.pySort (Cam.keyLt k2) (rays.tail.map Line.p2) := by
      rw [hP2, hrays]
      rw [List.cons_append, List.map_cons]
      rw [sort_head]
      · rfl
      · intro b _
        rw [hk2]
        dsimp only
        rw [along_start heps]
        exact along_nonneg _ _ _
    rw [a1, a2]
    rfl
  · intro hlast
    have b1 : ∀ p ∈ rays.map Line.p1, k1 p ≤ k1 (endOf (s1 :: r1)) := by
      intro p hp
      have : p ∈ (List.zipWith Line.mk P1 P2).map Line.p1 := by rw [hz1]; exact (Cam.pySort_perm k1 _).mem_iff.2 hp
      obtain ⟨g, hg, rfl⟩ := List.mem_map.1 this
      exact (hlast g hg).1
    have b2 : ∀ p ∈ rays.map Line.p2, k2 p ≤ k2 (endOf (s2 :: r2)) := by
      intro p hp
      have : p ∈ (List.zipWith Line.mk P1 P2).map Line.p2 := by rw [hz2]; exact (Cam.pySort_perm k2 _).mem_iff.2 hp
      obtain ⟨g, hg, rfl⟩ := List.mem_map.1 this
      exact (hlast g hg).2
    rw [hrays, List.map_append] at b1 b2
    have c1 : P1 = Cam.pySort (Cam.keyLt k1) (List.map Line.p1 (⟨s1.p1, s2.p1⟩ :: (gs1.reduceOption ++ gs2.reduceOption.map (fun l => ⟨l.p2, l.p1⟩)))) ++ [endOf (s1 :: r1)] := by
      rw [hP1, hrays, List.map_append]
      exact sort_last k1 _ _ fun b hb => b1 b (List.mem_append_left _ hb)
    have c2 : P2 = Cam.pySort (Cam.keyLt k2) (List.map Line.p2 (⟨s1.p1, s2.p1⟩ :: (gs1.reduceOption ++ gs2.reduceOption.map (fun l => ⟨l.p2, l.p1⟩)))) ++ [endOf (s2 :: r2)] := by
      rw [hP2, hrays, List.map_append]
      exact sort_last k2 _ _ fun b hb => b2 b (List.mem_append_left _ hb)
    rw [c1, c2, List.zipWith_append]
    · simp
    · rw [(Cam.pySort_perm k1 _).length_eq, (Cam.pySort_perm k2 _).length_eq, List.length_map, List.length_map]

theorem hit_onPath {eps : ℝ} {ray : Line ℝ} {path : List (Line ℝ)} {q : P ℝ} (h : Hit eps ray path q) : OnPath eps path q := by
  obtain ⟨s, hs, -, a, b, -, -, b1, b2, -, e⟩ := h
  exact ⟨s, hs, b, b1, b2, e⟩

theorem corner_onPath {eps : ℝ} (heps : 0 < eps) : ∀ (path : List (Line ℝ)) (p0 : P ℝ) (c : P ℝ × P ℝ × P ℝ), c ∈ corners p0 path → OnPath eps path c.2.1 := by
  intro path
  induction path with
  | nil => intro p0 c h; simp [corners] at h
  | cons s r ih =>
    intro p0 c h
    rcases List.mem_cons.1 h with rfl | h
    · exact ⟨s, by simp, 0, by linarith, by linarith, (segPt_at_zero s).symm⟩
    · obtain ⟨x, hx, y⟩ := ih s.p1 c h
      exact ⟨x, by simp [hx], y⟩

theorem onPath_tail {eps : ℝ} {path : List (Line ℝ)} {q : P ℝ} (h : OnPath eps path.tail q) : OnPath eps path q := by
  obtain ⟨s, hs, y⟩ := h
  exact ⟨s, List.mem_of_mem_tail hs, y⟩

theorem startOf_onPath {eps : ℝ} (heps : 0 < eps) {path : List (Line ℝ)} (h : path ≠ []) : OnPath eps path (startOf path) := by
  obtain ⟨s, r, rfl⟩ := List.exists_cons_of_ne_nil h
  exact ⟨s, by simp, 0, by linarith, by linarith, (segPt_at_zero s).symm⟩

theorem endOf_onPath {eps : ℝ} (heps : 0 < eps) {path : List (Line ℝ)} (h : path ≠ []) : OnPath eps path (endOf path) := by
  refine ⟨path.getLast h, List.getLast_mem h, 1, by linarith, by linarith, ?_⟩
  unfold endOf
  rw [List.getLast?_eq_some_getLast h, segPt_at_one]
  rfl

theorem guideAt_ends {eps reach : ℝ} (heps : 0 < eps) {left : Prop} {other : List (Line ℝ)} {cs : List (P ℝ × P ℝ × P ℝ)} {gs : List (Option (Line ℝ))} (h : List.Forall₂ (GuideAt eps reach left other) cs gs)
    {l : Line ℝ} (hl : l ∈ gs.reduceOption) : (∃ c ∈ cs, l.p1 = c.2.1) ∧ OnPath eps other l.p2 := by
  replace hl : some l ∈ gs := by
    unfold List.reduceOption at hl
    obtain ⟨o, ho, e⟩ := List.mem_filterMap.1 hl
    rw [← (show o = some l from e)]
    exact ho
  induction h with
  | nil => simp at hl
  | @cons c g cs gs hd _ ih =>
    rcases List.mem_cons.1 hl with hl | hl
    · obtain ⟨ray, -, -, -, -, -, h2⟩ := hd
      obtain ⟨k1, k2, -⟩ := h2 l hl.symm
      exact ⟨⟨c, by simp, k1⟩, hit_onPath k2⟩
    · obtain ⟨⟨c', hc', e⟩, h2⟩ := ih hl
      exact ⟨⟨c', by simp [hc'], e⟩, h2⟩

/-- **C162 (guides join the paths).**  Every guide starts on the first path and ends on the second one (up to the tolerance). -/
theorem C162_join {eps fmax fmin : ℝ} (heps : 0 < eps) {path1 path2 : List (Line ℝ)} (h1 : path1 ≠ []) (h2 : path2 ≠ []) :
    ∃ guides, getSegments eps fmax fmin path1 path2 = .ok (guides, facing path1 path2) ∧ 2 ≤ guides.length ∧
      ∀ g ∈ guides, OnPath eps path1 g.p1 ∧ OnPath eps (facing path1 path2) g.p2 := by
  obtain ⟨guides, gs1, gs2, e, -, f1, f2, p1, p2, -, -, -⟩ := C162_guides_partial (fmax := fmax) (fmin := fmin) heps h1 h2
  obtain ⟨-, hne, -⟩ := aligned_spec h1 h2
  refine ⟨guides, e, ?_, ?_⟩
  · have := p1.length_eq
    simp only [List.length_map, List.length_cons, List.length_append] at this
    simp at this
    omega
  · have a1 : ∀ p ∈ guides.map Line.p1, OnPath eps path1 p := by
      intro p hp
      rw [p1.mem_iff] at hp
      simp only [List.map_append, List.map_cons, List.map_nil, List.mem_append, List.mem_cons, List.not_mem_nil, or_false, List.map_map, List.mem_map, Function.comp] at hp
      rcases hp with (rfl | ⟨l, hl, rfl⟩ | ⟨l, hl, rfl⟩) | rfl
      · exact startOf_onPath heps h1
      · obtain ⟨⟨c, hc, e⟩, -⟩ := guideAt_ends heps f1 hl
        rw [e]
        exact onPath_tail (corner_onPath heps _ _ c (List.mem_of_mem_filter hc))
      · exact (guideAt_ends heps f2 hl).2
      · exact endOf_onPath heps h1
    have a2 : ∀ p ∈ guides.map Line.p2, OnPath eps (facing path1 path2) p := by
      intro p hp
      rw [p2.mem_iff] at hp
      simp only [List.map_append, List.map_cons, List.map_nil, List.mem_append, List.mem_cons, List.not_mem_nil, or_false, List.map_map, List.mem_map, Function.comp] at hp
      rcases hp with (rfl | ⟨l, hl, rfl⟩ | ⟨l, hl, rfl⟩) | rfl
      · exact startOf_onPath heps hne
      · exact (guideAt_ends heps f1 hl).2
      · obtain ⟨⟨c, hc, e⟩, -⟩ := guideAt_ends heps f2 hl
        rw [e]
        exact onPath_tail (corner_onPath heps _ _ c hc)
      · exact endOf_onPath heps hne
    intro g hg
    exact ⟨a1 _ (List.mem_map_of_mem hg), a2 _ (List.mem_map_of_mem hg)⟩

/-- A point that is nowhere along a path is its start. -/
theorem along_zero {eps : ℝ} (s : Line ℝ) (r : List (Line ℝ)) (hs : 0 < segLen s) {p : P ℝ} (h : alongPath eps p (s :: r) = 0) : p = s.p1 := by
  unfold alongPath at h
  split_ifs at h with h'
  · have := segLen_sq ⟨s.p1, p⟩
    rw [h] at this
    dsimp only at this
    have h1 : (p.x - s.p1.x) ^ 2 = 0 := by nlinarith [sq_nonneg (p.x - s.p1.x), sq_nonneg (p.y - s.p1.y)]
    have h2 : (p.y - s.p1.y) ^ 2 = 0 := by nlinarith [sq_nonneg (p.x - s.p1.x), sq_nonneg (p.y - s.p1.y)]
    apply P.ext_real
    · have := pow_eq_zero_iff (two_ne_zero) |>.1 h1; linarith
    · have := pow_eq_zero_iff (two_ne_zero) |>.1 h2; linarith
  · have := along_nonneg eps p r
    linarith

theorem sort_twice {α : Type} (key : α → ℝ) (a e : α) (m : List α) (h0 : ∀ x, 0 ≤ key x) (ha : key a = 0) (he : key e = 0) (huniq : ∀ x, key x = 0 → x = a) :
    ∃ rest, Cam.pySort (Cam.keyLt key) (a :: m ++ [e]) = a :: a :: rest := by
  rw [List.cons_append, sort_head key a _ (fun b _ => by rw [ha]; exact h0 b)]
  cases hs : Cam.pySort (Cam.keyLt key) (m ++ [e]) with
  | nil =>
    have := (Cam.pySort_perm key (m ++ [e])).length_eq
    rw [hs] at this
    simp at this
  | cons x rest =>
    have hmem : e ∈ x :: rest := by rw [← hs]; exact (Cam.pySort_perm key _).mem_iff.2 (by simp)
    have hle : key x ≤ key e := by
      rcases List.mem_cons.1 hmem with rfl | hm
      · exact le_rfl
      · have := Cam.pySort_sorted key (m ++ [e])
        rw [hs, List.pairwise_cons] at this
        exact this.1 e hm
    have : key x = 0 := le_antisymm (hle.trans he.le) (h0 x)
    exact ⟨rest, by rw [huniq x this]⟩

/-- **C162, refuted (closed paths).**  When both paths are closed, the guide that joins their ends is sorted to the front: the first two guides are the same, and nothing closes the lines that
are drawn. -/
theorem C162_closed_refuted {eps fmax fmin : ℝ} (heps : 0 < eps) {s1 : Line ℝ} {r1 path2 : List (Line ℝ)} (h2 : path2 ≠ []) (hl1 : 0 < segLen s1)
    (hl2 : ∀ s ∈ (facing (s1 :: r1) path2).head?, 0 < segLen s) (hc1 : endOf (s1 :: r1) = s1.p1) (hc2 : endOf (facing (s1 :: r1) path2) = startOf (facing (s1 :: r1) path2)) :
    ∃ rest, getSegments eps fmax fmin (s1 :: r1) path2 =
      .ok (⟨s1.p1, startOf (facing (s1 :: r1) path2)⟩ :: ⟨s1.p1, startOf (facing (s1 :: r1) path2)⟩ :: rest, facing (s1 :: r1) path2) := by
  obtain ⟨ha, hne, -⟩ := aligned_spec (path1 := s1 :: r1) (by simp) h2
  set two := facing (s1 :: r1) path2 with htwo
  clear_value two
  obtain ⟨s2, r2, rfl⟩ := List.exists_cons_of_ne_nil hne
  set reach := pathsDiagonal fmax fmin (s1 :: r1) path2 with hreach
  have hr : 0 ≤ reach := reach_nonneg _ _ _ _
  obtain ⟨gs1, e1, -⟩ := raysFrom_spec heps true reach hr (s1.whichSide eps s2.p1) (0 ≤ leftOf s1.p1 s1.p2 s2.p1) (fun h => by rw [show s1 = ⟨s1.p1, s1.p2⟩ from rfl, whichSide_real, if_pos h])
    (fun h => by rw [show s1 = ⟨s1.p1, s1.p2⟩ from rfl, whichSide_real, if_neg h]) (s2 :: r2) r1 s1.p1
  obtain ⟨gs2, e2, -⟩ := raysFrom_spec heps false reach hr (-s1.whichSide eps s2.p1) (¬ 0 ≤ leftOf s1.p1 s1.p2 s2.p1)
    (fun h => by rw [show s1 = ⟨s1.p1, s1.p2⟩ from rfl, whichSide_real, if_neg h]; rfl)
    (fun h => by rw [show s1 = ⟨s1.p1, s1.p2⟩ from rfl, whichSide_real, if_pos (not_not.1 h)]) (s1 :: r1) r2 s2.p1
  have hl2 : 0 < segLen s2 := hl2 s2 (by simp)
  have hc2 : endOf (s2 :: r2) = s2.p1 := hc2
  obtain ⟨q1, f1⟩ := sort_twice (fun p => alongPath eps p (s1 :: r1)) s1.p1 (endOf (s1 :: r1)) ((gs1.reduceOption ++ gs2.reduceOption.map Line.reversed).map Line.p1) (fun x => along_nonneg _ _ _)
    (along_start heps s1 r1) (by rw [hc1]; exact along_start heps s1 r1) (fun x hx => along_zero s1 r1 hl1 hx)
  obtain ⟨q2, f2⟩ := sort_twice (fun p => alongPath eps p (s2 :: r2)) s2.p1 (endOf (s2 :: r2)) ((gs1.reduceOption ++ gs2.reduceOption.map Line.reversed).map Line.p2) (fun x => along_nonneg _ _ _)
    (along_start heps s2 r2) (by rw [hc2]; exact along_start heps s2 r2) (fun x hx => along_zero s2 r2 hl2 hx)
  refine ⟨List.zipWith Line.mk q1 q2, ?_⟩
  unfold getSegments pipeRays
  simp only [ha, bind, Except.bind, pure, Except.pure, ← hreach, e1, e2, pathEnd_eq, sortAlong_key, List.map_append, List.map_cons, List.map_nil, List.cons_append, List.append_assoc]
  simp only [List.map_append, List.cons_append, List.append_assoc] at f1 f2
  rw [f1, f2]
  rfl

/-- Non-vacuity: two squares. -/
example : endOf ([⟨⟨0, 0⟩, ⟨4, 0⟩⟩, ⟨⟨4, 0⟩, ⟨4, 4⟩⟩, ⟨⟨4, 4⟩, ⟨0, 4⟩⟩, ⟨⟨0, 4⟩, ⟨0, 0⟩⟩] : List (Line ℝ)) = ⟨0, 0⟩ ∧
    facing [⟨⟨0, 0⟩, ⟨4, 0⟩⟩, ⟨⟨4, 0⟩, ⟨4, 4⟩⟩, ⟨⟨4, 4⟩, ⟨0, 4⟩⟩, ⟨⟨0, 4⟩, ⟨0, 0⟩⟩] [⟨⟨1, 1⟩, ⟨3, 1⟩⟩, ⟨⟨3, 1⟩, ⟨3, 3⟩⟩, ⟨⟨3, 3⟩, ⟨1, 1⟩⟩] =
      [⟨⟨1, 1⟩, ⟨3, 1⟩⟩, ⟨⟨3, 1⟩, ⟨3, 3⟩⟩, ⟨⟨3, 3⟩, ⟨1, 1⟩⟩] := by
  refine ⟨rfl, ?_⟩
  unfold facing
  rw [if_neg]
  simp [startOf, endOf]

/-- Every member of the second of two matched lists is matched. -/
theorem forall₂_mem_right {α β : Type*} {R : α → β → Prop} {as : List α} {bs : List β} (h : List.Forall₂ R as bs)
    {b : β} (hb : b ∈ bs) : ∃ a ∈ as, R a b := by
  induction h with
  | nil => cases hb
  | @cons x y xs ys hd _ ih =>
    rcases List.mem_cons.1 hb with rfl | hb
    · exact ⟨x, List.mem_cons_self, hd⟩
    · obtain ⟨a, ha, hr⟩ := ih hb
      exact ⟨a, List.mem_cons_of_mem _ ha, hr⟩

/-- **C162, refuted (bisectors that are too short).**  The bisectors are as long as the diagonal of the box around the starts of the segments; where the paths end does not count.  Here the bisector at the
vertex `(1, 0)` of the first path meets the second path at `(1, 10.5)`, but there are only the guides that join the starts and the ends. -/
theorem C162_reach_refuted {eps fmax fmin : ℝ} (heps : 0 < eps) (he : eps ≤ 1) (hmax : 1 ≤ fmax) (hmin : 0 < fmin) (hmin' : fmin ≤ 1) :
    segPt ⟨⟨0, 1⟩, ⟨2, 20⟩⟩ (1 / 2) = (⟨1, 21 / 2⟩ : P ℝ) ∧
    ∃ guides two, getSegments eps fmax fmin [⟨⟨0, 0⟩, ⟨1, 0⟩⟩, ⟨⟨1, 0⟩, ⟨2, 0⟩⟩] [⟨⟨0, 1⟩, ⟨2, 20⟩⟩] = .ok (guides, two) ∧ guides.length = 2 := by
  refine ⟨by unfold segPt; apply P.ext_real <;> norm_num, ?_⟩
  obtain ⟨guides, gs1, gs2, e, -, f1, f2, p1, -, -, -, -⟩ :=
    C162_guides_partial (fmax := fmax) (fmin := fmin) heps (path1 := [⟨⟨0, 0⟩, ⟨1, 0⟩⟩, ⟨⟨1, 0⟩, ⟨2, 0⟩⟩]) (path2 := [⟨⟨0, 1⟩, ⟨2, 20⟩⟩]) (by simp) (by simp)
  have hface : facing [⟨⟨0, 0⟩, ⟨1, 0⟩⟩, ⟨⟨1, 0⟩, ⟨2, 0⟩⟩] [⟨⟨0, 1⟩, ⟨2, 20⟩⟩] = ([⟨⟨0, 1⟩, ⟨2, 20⟩⟩] : List (Line ℝ)) := by
    unfold facing
    rw [if_neg]
    unfold segLen startOf endOf sqDist
    simp only [List.getLast?_singleton, Option.map_some, Option.getD_some, not_lt]
    apply Real.sqrt_le_sqrt
    norm_num
  have hreach : pathsDiagonal fmax fmin [⟨⟨0, 0⟩, ⟨1, 0⟩⟩, ⟨⟨1, 0⟩, ⟨2, 0⟩⟩] [⟨⟨0, 1⟩, ⟨2, 20⟩⟩] ≤ (3 / 2 : ℝ) := by
    unfold pathsDiagonal pointsBox Box.mk' P.length
    simp only [List.map_cons, List.map_nil, List.cons_append, List.nil_append, List.foldl_cons, List.foldl_nil, pmin_real, pmax_real, P.sub, real_hypot, real_sub]
    have m1 : min (min (min fmax 0) 1) 0 = (0 : ℝ) := by
      rw [min_eq_right (by linarith : (0 : ℝ) ≤ fmax)]; norm_num
    have m2 : min (min (min fmax 0) 0) 1 = (0 : ℝ) := by
      rw [min_eq_right (by linarith : (0 : ℝ) ≤ fmax)]; norm_num
    have m3 : max (max (max fmin 0) 1) 0 = (1 : ℝ) := by
      rw [max_eq_left hmin.le, max_eq_right hmin']; norm_num
    have m4 : max (max (max fmin 0) 0) 1 = (1 : ℝ) := by
      rw [max_eq_left hmin.le, max_eq_left hmin.le, max_eq_right hmin']
    rw [m1, m2, m3, m4]
    rw [Real.sqrt_le_left (by norm_num)]
    norm_num
  refine ⟨guides, _, e, ?_⟩
  rw [hface] at f1 f2 p1
  have g2 : gs2 = [] := by
    simp only [List.tail_cons, corners] at f2
    exact List.forall₂_nil_left_iff.1 f2
  have g1 : gs1.reduceOption = [] := by
    unfold List.reduceOption
    rw [List.filterMap_eq_nil_iff]
    intro b hb
    cases b with
    | none => rfl
    | some l =>
      exfalso
      obtain ⟨c, hcm, hg⟩ := forall₂_mem_right f1 hb
      replace hcm := List.mem_of_mem_filter hcm
      simp only [corners, startOf, List.tail_cons, List.mem_singleton] at hcm
      subst hcm
      obtain ⟨ray, ⟨r1, r2⟩, r3, -, -, -, h⟩ := hg
      obtain ⟨-, ⟨s, hs, -, a, b, a1, a2, b1, b2, q1, q2⟩, -⟩ := h l rfl
      simp only [List.mem_singleton] at hs
      subst hs
      dsimp only at r1 r2
      have l1 : segLen ⟨⟨1, 0⟩, ⟨2, 0⟩⟩ = 1 := by unfold segLen sqDist; norm_num
      have l2 : segLen ⟨⟨1, 0⟩, ⟨0, 0⟩⟩ = 1 := by unfold segLen sqDist; norm_num
      rw [l1, l2] at r2
      have hx : ray.p2.x = 1 := by linarith
      have hsq := segLen_sq ray
      rw [r1, hx, r3] at hsq
      dsimp only at hsq
      set R := pathsDiagonal fmax fmin [⟨⟨0, 0⟩, ⟨1, 0⟩⟩, ⟨⟨1, 0⟩, ⟨2, 0⟩⟩] [⟨⟨0, 1⟩, ⟨2, 20⟩⟩] with hR
      have hR0 : 0 ≤ R := reach_nonneg _ _ _ _
      have q3 := congrArg P.x (q1.symm.trans q2)
      have q4 := congrArg P.y (q1.symm.trans q2)
      simp only [segPt, r1, hx] at q3 q4
      have hb' : b = 1 / 2 := by linarith
      rw [hb'] at q4
      have hay : a * ray.p2.y = 21 / 2 := by linarith
      have hy : ray.p2.y ^ 2 ≤ (5 / 2) ^ 2 := by nlinarith
      have ha : a ^ 2 ≤ 4 := by nlinarith
      have : (a * ray.p2.y) ^ 2 ≤ 4 * (5 / 2) ^ 2 := by
        rw [mul_pow]
        exact mul_le_mul ha hy (sq_nonneg _) (by norm_num)
      rw [hay] at this
      norm_num at this
  have := p1.length_eq
  rw [g1, g2, show ([] : List (Option (Line ℝ))).reduceOption = [] from rfl] at this
  simpa using this

theorem onlyLines_lines (path : List (Line ℝ)) : onlyLines (path.map Shape.line) = .ok path := by
  induction path with
  | nil => rfl
  | cons l path ih =>
    simp only [List.map_cons, onlyLines, bind, Except.bind, ih, pure, Except.pure]

theorem onlyLines_other (path : List (Shape ℝ)) (h : ∃ s ∈ path, ∀ l, s ≠ .line l) : onlyLines path = .error .valueError := by
  induction path with
  | nil => obtain ⟨s, hs, -⟩ := h; cases hs
  | cons s path ih =>
    obtain ⟨x, hx, hl⟩ := h
    cases s with
    | line l =>
      rcases List.mem_cons.1 hx with rfl | hx
      · exact absurd rfl (hl l)
      · simp only [onlyLines, bind, Except.bind, ih ⟨x, hx, hl⟩]
    | arc a => rfl
    | bez b => rfl
    | other p q => rfl

/-- **C162 (the run).**  For every selection: unless there are exactly two paths nothing is drawn but the message that two are needed; an arc or a curve in the first path, or in the second one, raises
`ValueError`; between two paths of line segments, the number of lines asked for (which is not negative) is drawn, dividing every guide evenly, unless one of the guides has no length. -/
theorem C162_run {eps fmax fmin : ℝ} (heps : 0 < eps) (maxSpacing : ℝ) (count : Int) (hc : 0 ≤ count) :
    (∀ paths : List (List (Shape ℝ)), paths.length ≠ 2 → pipeLines eps fmax fmin maxSpacing count paths = .ok none) ∧
    (∀ p1 p2 : List (Shape ℝ), (∃ s ∈ p1 ++ p2, ∀ l, s ≠ .line l) → pipeLines eps fmax fmin maxSpacing count [p1, p2] = .error .valueError) ∧
    (∀ path1 path2 : List (Line ℝ), path1 ≠ [] → path2 ≠ [] →
      ∃ guides n, getSegments eps fmax fmin path1 path2 = .ok (guides, facing path1 path2) ∧
        (maxSpacing ≤ 0 → n = count.toNat) ∧ (0 < maxSpacing → (n : ℤ) = ⌊longestGuide guides / maxSpacing + 1 / 2⌋) ∧
        pipeLines eps fmax fmin maxSpacing count [path1.map Shape.line, path2.map Shape.line] =
          if ∃ g ∈ guides, segLen g = 0 then .error .zeroDivision else .ok (some (evenLines n guides))) := by
  refine ⟨?_, ?_, ?_⟩
  · intro paths h
    match paths with
    | [] => rfl
    | [_] => rfl
    | [_, _] => exact absurd rfl h
    | _ :: _ :: _ :: _ => rfl
  · rintro p1 p2 ⟨s, hs, hl⟩
    unfold pipeLines
    by_cases h : ∃ s ∈ p1, ∀ l, s ≠ .line l
    · simp only [bind, Except.bind, onlyLines_other p1 h]
    · have hp : ∃ ls, onlyLines p1 = .ok ls := by
        clear hs
        induction p1 with
        | nil => exact ⟨_, rfl⟩
        | cons x p1 ih =>
          obtain ⟨ls, e⟩ := ih (fun ⟨y, hy, k⟩ => h ⟨y, List.mem_cons_of_mem _ hy, k⟩)
          cases x with
          | line l => exact ⟨l :: ls, by simp only [onlyLines, bind, Except.bind, e, pure, Except.pure]⟩
          | arc a => exact absurd ⟨_, List.mem_cons_self, by intro l; simp⟩ h
          | bez b => exact absurd ⟨_, List.mem_cons_self, by intro l; simp⟩ h
          | other p q => exact absurd ⟨_, List.mem_cons_self, by intro l; simp⟩ h
      obtain ⟨ls, e⟩ := hp
      rcases List.mem_append.1 hs with hs | hs
      · exact absurd ⟨s, hs, hl⟩ h
      · simp only [bind, Except.bind, e, onlyLines_other p2 ⟨s, hs, hl⟩]
  · intro path1 path2 h1 h2
    obtain ⟨guides, e, hlen, -⟩ := C162_join (fmax := fmax) (fmin := fmin) heps h1 h2
    have hn0 : 0 ≤ numPolylines maxSpacing count guides := by
      by_cases hm : 0 < maxSpacing
      · exact (C162_spacing maxSpacing count guides hm).2.1
      · rw [C162_count _ _ _ (not_lt.1 hm)]; exact hc
    refine ⟨guides, (numPolylines maxSpacing count guides).toNat, e, ?_, ?_, ?_⟩
    · intro hm; rw [C162_count _ _ _ hm]
    · intro hm
      rw [Int.toNat_of_nonneg hn0, (C162_spacing maxSpacing count guides hm).1]
    · unfold pipeLines
      simp only [bind, Except.bind, onlyLines_lines, e]
      by_cases hz : ∃ g ∈ guides, segLen g = 0
      · rw [if_pos hz, C162_touching_refuted _ _ _ (by omega) hz]
      · rw [if_neg hz, C162_positions _ _ _ (fun g hg h => hz ⟨g, hg, h⟩) (by rintro rfl; simp at hlen) hn0]
        rfl

/-- Non-vacuity: three lines between two parallel segments; with a spacing of at most 2 between guides of length 5, there are three lines as well, 1.25 apart. -/
example : evenLines 1 [⟨⟨0, 0⟩, ⟨0, 2⟩⟩, ⟨⟨5, 0⟩, ⟨5, 4⟩⟩] = [[⟨0, 1⟩, ⟨5, 2⟩]] ∧ numPolylines 2 0 ([⟨⟨0, 0⟩, ⟨0, 5⟩⟩] : List (Line ℝ)) = 3 := by
  refine ⟨?_, ?_⟩
  · simp only [evenLines, List.range_one, List.map_cons, List.map_nil, segPt]
    norm_num
  · rw [(C162_spacing 2 0 _ two_pos).1]
    have : longestGuide ([⟨⟨0, 0⟩, ⟨0, 5⟩⟩] : List (Line ℝ)) = 5 := by
      have hl : segLen ⟨⟨0, 0⟩, ⟨0, 5⟩⟩ = 5 := by
        unfold segLen sqDist
        rw [show ((0 : ℝ) - 0) ^ 2 + (0 - 5) ^ 2 = 5 ^ 2 by norm_num]
        exact Real.sqrt_sq (by norm_num)
      unfold longestGuide
      simp only [List.foldl_cons, List.foldl_nil, length_real, hl]
      simp
    rw [this]
    norm_num

end Verif.Ext
