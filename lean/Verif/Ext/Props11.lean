import Verif.Ext.Props10
import Mathlib.Data.List.Rotate

/-!
# C149: the segments drawn on the tiles
-/

set_option linter.unusedSectionVars false

namespace Verif.Ext
open Verif PyFloat PyTrig Geom

/-! ## Specification -/

/-- The scalar product of the two sides that meet at the corner `p`: positive when the angle is acute, negative when it is obtuse. -/
def cornerDot (x p y : P ℝ) : ℝ := (x.x - p.x) * (y.x - p.x) + (x.y - p.y) * (y.y - p.y)

/-- The point at a ratio of the way from `p` to `q`. -/
def wayPoint (k : ℝ) (p q : P ℝ) : P ℝ := ⟨p.x + k * (q.x - p.x), p.y + k * (q.y - p.y)⟩

/-- The square of a distance. -/
def sqLen (p q : P ℝ) : ℝ := (p.x - q.x) ^ 2 + (p.y - q.y) ^ 2

/-- A call that draws the segment between two points, in either direction. -/
def Joins (s : Call ℝ) (u v : P ℝ) : Prop := s = .segment u v ∨ s = .segment v u

/-- The kind of segment chosen for a tile: by whether it is skinny or fat. -/
noncomputable def kindOf (q : Quasi ℝ) (a b d : P ℝ) : Int := if q.skinnyFat < |cornerDot b a d| then q.segSkinny else q.segFat

/-- The segments that go with a tile with corners `a`, `b`, `c`, `d` in order. -/
structure Segments (q : Quasi ℝ) (a b c d : P ℝ) (segs : List (Call ℝ)) : Prop where
  /-- No segments for any other kind. -/
  none : ¬ (1 ≤ kindOf q a b d ∧ kindOf q a b d ≤ 7) → segs = []
  /-- Acute corners are cut off: the points of the sides that meet there are joined. -/
  acute : kindOf q a b d = 1 → ∃ s1 s2, segs = [s1, s2] ∧
    (0 < cornerDot b a d → Joins s1 (wayPoint q.ratio b c) (wayPoint q.ratio d c) ∧ Joins s2 (wayPoint q.ratio a d) (wayPoint q.ratio a b)) ∧
    (cornerDot b a d ≤ 0 → Joins s1 (wayPoint q.ratio a b) (wayPoint q.ratio b c) ∧ Joins s2 (wayPoint q.ratio d c) (wayPoint q.ratio a d))
  /-- Obtuse corners are cut off. -/
  obtuse : kindOf q a b d = 2 → ∃ s1 s2, segs = [s1, s2] ∧
    (0 < cornerDot b a d → Joins s1 (wayPoint q.ratio a b) (wayPoint q.ratio b c) ∧ Joins s2 (wayPoint q.ratio d c) (wayPoint q.ratio a d)) ∧
    (cornerDot b a d ≤ 0 → Joins s1 (wayPoint q.ratio a d) (wayPoint q.ratio a b) ∧ Joins s2 (wayPoint q.ratio b c) (wayPoint q.ratio d c))
  /-- Points of opposite sides are joined, in two segments or in four that meet in the middle of the tile. -/
  cross : kindOf q a b d = 3 →
    (¬ (q.splitCross = true ∧ q.ratio = 1 / 2) → ∃ s1 s2, (segs = [s1, s2] ∨ segs = [s2, s1]) ∧
      Joins s1 (wayPoint q.ratio a b) (wayPoint q.ratio d c) ∧ Joins s2 (wayPoint q.ratio b c) (wayPoint q.ratio a d)) ∧
    (q.splitCross = true → q.ratio = 1 / 2 → ∃ s1 s2 s3 s4, segs.Perm [s1, s2, s3, s4] ∧
      Joins s1 (wayPoint (1 / 2) a b) (wayPoint (1 / 2) a c) ∧ Joins s2 (wayPoint (1 / 2) b c) (wayPoint (1 / 2) a c) ∧
      Joins s3 (wayPoint (1 / 2) d c) (wayPoint (1 / 2) a c) ∧ Joins s4 (wayPoint (1 / 2) a d) (wayPoint (1 / 2) a c))
  /-- All four corners are cut off, and the four points make a polygon. -/
  rect : kindOf q a b d = 4 → ∃ s1 s2 s3 s4 s vs color, segs = s ++ [.segpoly vs color] ∧ s.Perm [s1, s2, s3, s4] ∧
    Joins s1 (wayPoint q.ratio a b) (wayPoint q.ratio b c) ∧ Joins s2 (wayPoint q.ratio b c) (wayPoint q.ratio d c) ∧
    Joins s3 (wayPoint q.ratio d c) (wayPoint q.ratio a d) ∧ Joins s4 (wayPoint q.ratio a d) (wayPoint q.ratio a b) ∧
    vs ~r [wayPoint q.ratio a b, wayPoint q.ratio b c, wayPoint q.ratio d c, wayPoint q.ratio a d] ∧
    color = q.rnd (min (sqLen (wayPoint q.ratio a b) (wayPoint q.ratio b c)) (sqLen (wayPoint q.ratio b c) (wayPoint q.ratio d c)) /
      max (sqLen (wayPoint q.ratio a b) (wayPoint q.ratio b c)) (sqLen (wayPoint q.ratio b c) (wayPoint q.ratio d c)))
  /-- One diagonal. -/
  second : kindOf q a b d = 5 → segs = [.segment b d]
  /-- The other diagonal. -/
  first : kindOf q a b d = 6 → segs = [.segment a c]
  /-- Both diagonals, in two segments or in four that meet in the middle. -/
  both : kindOf q a b d = 7 → (q.splitCross = false → segs = [.segment a c, .segment b d]) ∧
    (q.splitCross = true → segs = [.segment a (wayPoint (1 / 2) a c), .segment (wayPoint (1 / 2) a c) c,
      .segment b (wayPoint (1 / 2) a c), .segment (wayPoint (1 / 2) a c) d])

/-- What is drawn for one crossing, after what has been drawn before: a tile, followed by its segments when the plotter
reports that the tile was drawn whole and by nothing otherwise. -/
def Figure (q : Quasi ℝ) (before : List (Call ℝ)) (c : (Nat × Nat) × (Nat × Nat)) (g : List (Call ℝ)) : Prop :=
  ∃ v0 v1 v2 v3 segs, IsTile q c [v0, v1, v2, v3] ∧ g = .polygon [v0, v1, v2, v3] (q.rnd |cornerDot v1 v0 v3|) :: segs ∧
    (q.accepts (before ++ [.polygon [v0, v1, v2, v3] (q.rnd |cornerDot v1 v0 v3|)]) = false → segs = []) ∧
    (q.accepts (before ++ [.polygon [v0, v1, v2, v3] (q.rnd |cornerDot v1 v0 v3|)]) = true → Segments q v0 v1 v2 v3 segs)

/-! ## Proofs -/

theorem joins_self (u v : P ℝ) : Joins (.segment u v) u v := Or.inl rfl
theorem joins_swap (u v : P ℝ) : Joins (.segment u v) v u := Or.inr rfl

/-- The points that the program works out are the points of the sides. -/
theorem segPoly_eq {k : ℝ} {p : P ℝ} {v1 v2 : QVec ℝ} {b c d : P ℝ} (hb : b = ⟨p.x + v1.x, p.y + v1.y⟩)
    (hc : c = ⟨p.x + v1.x + v2.x, p.y + v1.y + v2.y⟩) (hd : d = ⟨p.x + v2.x, p.y + v2.y⟩) (dotp : ℝ) :
    segPoly k p v1 v2 dotp = if 0 < dotp then (wayPoint k b c, wayPoint k d c, wayPoint k p d, wayPoint k p b)
      else (wayPoint k p b, wayPoint k b c, wayPoint k d c, wayPoint k p d) := by
  subst hb hc hd
  unfold segPoly wayPoint
  simp only [real_lt, real_zero, real_add, real_mul, decide_eq_true_eq]
  split <;> (simp only [Prod.mk.injEq, P.mk.injEq]; refine ⟨⟨?_, ?_⟩, ⟨?_, ?_⟩, ⟨?_, ?_⟩, ?_, ?_⟩ <;> ring)

theorem midOf_eq (a c : P ℝ) : midOf a c = wayPoint (1 / 2) a c := by
  unfold midOf wayPoint
  simp only [real_add, real_mul, real_lit]
  congr 1 <;> (norm_num; ring)

theorem pmin_eq (a b : ℝ) : pmin a b = min a b := by
  unfold pmin
  simp only [real_lt, decide_eq_true_eq]
  split
  · rename_i h; rw [min_eq_right h.le]
  · rename_i h; rw [min_eq_left (not_lt.mp h)]

theorem pmax_eq (a b : ℝ) : pmax a b = max a b := by
  unfold pmax
  simp only [real_lt, decide_eq_true_eq]
  split
  · rename_i h; rw [max_eq_right h.le]
  · rename_i h; rw [max_eq_left (not_lt.mp h)]

theorem distance2_eq (p q : P ℝ) : distance2 p q = sqLen p q := by
  unfold distance2 sqLen
  simp only [real_add, real_mul, real_sub]
  ring

/-- The segments of a tile that was drawn whole. -/
theorem segments_spec {q : Quasi ℝ} {p b c d : P ℝ} {v1 v2 : QVec ℝ} (u1 : v1.x ^ 2 + v1.y ^ 2 = 1) (u2 : v2.x ^ 2 + v2.y ^ 2 = 1)
    (hb : b = ⟨p.x + v1.x, p.y + v1.y⟩)
    (hc : c = ⟨p.x + v1.x + v2.x, p.y + v1.y + v2.y⟩) (hd : d = ⟨p.x + v2.x, p.y + v2.y⟩) {segs : List (Call ℝ)}
    (h : tileSegs q p v1 v2 = .ok segs) : Segments q p b c d segs := by
  have hdot : v1.x * v2.x + v1.y * v2.y = cornerDot b p d := by subst hb hd; unfold cornerDot; ring
  unfold tileSegs at h
  simp only [real_lt, real_abs, real_add, real_mul, hdot, decide_eq_true_eq] at h
  have hkind : (if q.skinnyFat < |cornerDot b p d| then q.segSkinny else q.segFat) = kindOf q p b d := rfl
  rw [hkind] at h
  have hzero : ¬ (q.segSkinny > 0 ∨ q.segFat > 0) → ¬ 0 < kindOf q p b d := by
    intro hn
    push Not at hn
    unfold kindOf
    split <;> omega
  have hsp := segPoly_eq (k := q.ratio) hb hc hd (cornerDot b p d)
  -- every kind gives the segments of the unconditional choice
  have h' : (if 0 < kindOf q p b d ∧ kindOf q p b d < 5 then midSegs q (kindOf q p b d) p v1 v2 (cornerDot b p d)
      else .ok (vertSegs q (kindOf q p b d) p v1 v2)) = .ok segs := by
    by_cases hs : q.segSkinny > 0 ∨ q.segFat > 0
    · rw [if_pos hs] at h; exact h
    · rw [if_neg hs] at h
      have hk := hzero hs
      rw [if_neg (fun hc => hk hc.1)]
      unfold vertSegs
      dsimp only
      rw [if_neg (by omega), if_neg (by omega), if_neg (by omega)]
      exact h
  clear h hzero hkind
  generalize hk : kindOf q p b d = k at h'
  have hlen : sqLen (wayPoint q.ratio d c) (wayPoint q.ratio p d) = sqLen (wayPoint q.ratio p b) (wayPoint q.ratio b c) := by
    subst hb hc hd
    unfold sqLen wayPoint
    dsimp only
    linear_combination (q.ratio ^ 2 - (1 - q.ratio) ^ 2) * u1 + ((1 - q.ratio) ^ 2 - q.ratio ^ 2) * u2
  have hlen2 : sqLen (wayPoint q.ratio b c) (wayPoint q.ratio d c) = sqLen (wayPoint q.ratio d c) (wayPoint q.ratio b c) := by
    unfold sqLen; ring
  have vert : ¬ (0 < k ∧ k < 5) → vertSegs q k p v1 v2 = segs := by
    intro hn; rw [if_neg hn] at h'; simpa using h'
  have mid : 0 < k ∧ k < 5 → midSegs q k p v1 v2 (cornerDot b p d) = .ok segs := by
    intro hn; rwa [if_pos hn] at h'
  have vb : (⟨p.x +. v1.x, p.y +. v1.y⟩ : P ℝ) = b := by rw [hb]; rfl
  have vc : (⟨(p.x +. v1.x) +. v2.x, (p.y +. v1.y) +. v2.y⟩ : P ℝ) = c := by rw [hc]; rfl
  have vd : (⟨p.x +. v2.x, p.y +. v2.y⟩ : P ℝ) = d := by rw [hd]; rfl
  unfold vertSegs at vert
  simp only [vb, vc, vd] at vert
  unfold midSegs at mid
  simp only [bind, Except.bind, pure, Except.pure, hsp] at mid
  clear h' hsp
  constructor
  · rw [hk]
    intro hn
    rw [← vert (by omega), if_neg (by omega), if_neg (by omega), if_neg (by omega)]
  · rw [hk]
    rintro rfl
    have := mid (by omega)
    simp only [if_true, Except.ok.injEq] at this
    subst this
    refine ⟨_, _, rfl, ?_, ?_⟩
    · intro hpos
      simp only [if_pos hpos]
      exact ⟨joins_self _ _, joins_self _ _⟩
    · intro hneg
      simp only [if_neg (not_lt.mpr hneg)]
      exact ⟨joins_self _ _, joins_self _ _⟩
  · rw [hk]
    rintro rfl
    have := mid (by omega)
    simp only [show ¬ ((2 : Int) = 1) by omega, if_false, if_true, Except.ok.injEq] at this
    subst this
    refine ⟨_, _, rfl, ?_, ?_⟩
    · intro hpos
      simp only [if_pos hpos]
      exact ⟨joins_swap _ _, joins_self _ _⟩
    · intro hneg
      simp only [if_neg (not_lt.mpr hneg)]
      exact ⟨joins_swap _ _, joins_self _ _⟩
  · rw [hk]
    rintro rfl
    have := mid (by omega)
    simp only [show ¬ ((3 : Int) = 1) by omega, show ¬ ((3 : Int) = 2) by omega, if_false, if_true] at this
    constructor
    · intro hn
      rw [if_neg (by
        simp only [Bool.and_eq_true, real_beq, real_lit, decide_eq_true_eq]
        intro hc
        exact hn ⟨hc.1, by rw [hc.2]; norm_num⟩)] at this
      simp only [Except.ok.injEq] at this
      subst this
      by_cases hpos : 0 < cornerDot b p d
      · simp only [if_pos hpos]
        exact ⟨_, _, Or.inr rfl, joins_swap _ _, joins_self _ _⟩
      · simp only [if_neg hpos]
        exact ⟨_, _, Or.inl rfl, joins_self _ _, joins_self _ _⟩
    · intro h1 h2
      rw [if_pos (by
        simp only [Bool.and_eq_true, real_beq, real_lit, decide_eq_true_eq]
        exact ⟨h1, by rw [h2]; norm_num⟩)] at this
      simp only [Except.ok.injEq] at this
      subst this
      unfold splitSegs
      simp only [midOf_eq, h2]
      by_cases hpos : 0 < cornerDot b p d
      · simp only [if_pos hpos]
        have hm : wayPoint (1 / 2) (wayPoint (1 / 2) b c) (wayPoint (1 / 2) p d) = wayPoint (1 / 2) p c := by
          subst hb hc hd; unfold wayPoint; simp only [P.mk.injEq]; constructor <;> ring
        rw [hm]
        refine ⟨.segment (wayPoint (1 / 2) p c) (wayPoint (1 / 2) p b), .segment (wayPoint (1 / 2) b c) (wayPoint (1 / 2) p c),
          .segment (wayPoint (1 / 2) d c) (wayPoint (1 / 2) p c), .segment (wayPoint (1 / 2) p c) (wayPoint (1 / 2) p d), ?_,
          joins_swap _ _, joins_self _ _, joins_self _ _, joins_swap _ _⟩
        generalize Call.segment (wayPoint (1 / 2) p c) (wayPoint (1 / 2) p b) = x1
        generalize Call.segment (wayPoint (1 / 2) b c) (wayPoint (1 / 2) p c) = x2
        generalize Call.segment (wayPoint (1 / 2) d c) (wayPoint (1 / 2) p c) = x3
        generalize Call.segment (wayPoint (1 / 2) p c) (wayPoint (1 / 2) p d) = x4
        -- x2, x4, x3, x1
        exact ((List.Perm.cons x2 ((List.Perm.swap x3 x4 [x1]).trans ((List.Perm.cons x3 (List.Perm.swap x1 x4 [])).trans
          ((List.Perm.swap x1 x3 [x4]))))).trans (List.Perm.swap x1 x2 [x3, x4]))
      · simp only [if_neg hpos]
        have hm : wayPoint (1 / 2) (wayPoint (1 / 2) p b) (wayPoint (1 / 2) d c) = wayPoint (1 / 2) p c := by
          subst hb hc hd; unfold wayPoint; simp only [P.mk.injEq]; constructor <;> ring
        rw [hm]
        refine ⟨.segment (wayPoint (1 / 2) p b) (wayPoint (1 / 2) p c), .segment (wayPoint (1 / 2) b c) (wayPoint (1 / 2) p c),
          .segment (wayPoint (1 / 2) p c) (wayPoint (1 / 2) d c), .segment (wayPoint (1 / 2) p c) (wayPoint (1 / 2) p d), ?_,
          joins_self _ _, joins_self _ _, joins_swap _ _, joins_swap _ _⟩
        exact List.Perm.cons _ (List.Perm.swap _ _ _)
  · rw [hk]
    rintro rfl
    have := mid (by omega)
    simp only [show ¬ ((4 : Int) = 1) by omega, show ¬ ((4 : Int) = 2) by omega, show ¬ ((4 : Int) = 3) by omega, if_false, if_true] at this
    split at this
    · exact absurd this (by simp)
    rename_i asp hasp
    simp only [Except.ok.injEq] at this
    subst this
    have hasp : asp = min (sqLen (wayPoint q.ratio p b) (wayPoint q.ratio b c)) (sqLen (wayPoint q.ratio b c) (wayPoint q.ratio d c)) /
        max (sqLen (wayPoint q.ratio p b) (wayPoint q.ratio b c)) (sqLen (wayPoint q.ratio b c) (wayPoint q.ratio d c)) := by
      by_cases hpos : 0 < cornerDot b p d
      · simp only [if_pos hpos] at hasp
        unfold pdiv at hasp
        split at hasp
        · exact absurd hasp (by simp)
        simp only [Except.ok.injEq] at hasp
        rw [← hasp, pmin_eq, pmax_eq, real_div]
        simp only [distance2_eq]
        rw [hlen, min_comm, max_comm]
      · simp only [if_neg hpos] at hasp
        unfold pdiv at hasp
        split at hasp
        · exact absurd hasp (by simp)
        simp only [Except.ok.injEq] at hasp
        rw [← hasp, pmin_eq, pmax_eq, real_div]
        simp only [distance2_eq]
    by_cases hpos : 0 < cornerDot b p d
    · simp only [if_pos hpos]
      refine ⟨.segment (wayPoint q.ratio b c) (wayPoint q.ratio p b), .segment (wayPoint q.ratio b c) (wayPoint q.ratio d c),
        .segment (wayPoint q.ratio d c) (wayPoint q.ratio p d), .segment (wayPoint q.ratio p d) (wayPoint q.ratio p b),
        [_, _, _, _], _, _, rfl, ?_, joins_swap _ _, joins_self _ _, joins_self _ _, joins_self _ _, ?_, by rw [hasp]⟩
      · generalize Call.segment (wayPoint q.ratio b c) (wayPoint q.ratio p b) = x1
        generalize Call.segment (wayPoint q.ratio b c) (wayPoint q.ratio d c) = x2
        generalize Call.segment (wayPoint q.ratio d c) (wayPoint q.ratio p d) = x3
        generalize Call.segment (wayPoint q.ratio p d) (wayPoint q.ratio p b) = x4
        -- x2, x4, x1, x3
        exact (List.Perm.cons x2 ((List.Perm.swap x1 x4 [x3]).trans (List.Perm.cons x1 (List.Perm.swap x3 x4 [])))).trans
          (List.Perm.swap x1 x2 [x3, x4])
      · exact ⟨3, rfl⟩
    · simp only [if_neg hpos]
      refine ⟨.segment (wayPoint q.ratio p b) (wayPoint q.ratio b c), .segment (wayPoint q.ratio b c) (wayPoint q.ratio d c),
        .segment (wayPoint q.ratio d c) (wayPoint q.ratio p d), .segment (wayPoint q.ratio p b) (wayPoint q.ratio p d),
        [_, _, _, _], _, _, rfl, ?_, joins_self _ _, joins_self _ _, joins_self _ _, joins_swap _ _, ⟨0, rfl⟩, by rw [hasp]⟩
      generalize Call.segment (wayPoint q.ratio p b) (wayPoint q.ratio b c) = x1
      generalize Call.segment (wayPoint q.ratio b c) (wayPoint q.ratio d c) = x2
      generalize Call.segment (wayPoint q.ratio d c) (wayPoint q.ratio p d) = x3
      generalize Call.segment (wayPoint q.ratio p b) (wayPoint q.ratio p d) = x4
      -- x1, x3, x4, x2
      exact List.Perm.cons x1 ((List.Perm.cons x3 (List.Perm.swap x2 x4 [])).trans (List.Perm.swap x2 x3 [x4]))
  · rw [hk]
    rintro rfl
    rw [← vert (by omega), if_pos rfl]
  · rw [hk]
    rintro rfl
    rw [← vert (by omega), if_neg (by omega), if_pos rfl]
  · rw [hk]
    rintro rfl
    have := vert (by omega)
    simp only [show ¬ ((7 : Int) = 5) by omega, show ¬ ((7 : Int) = 6) by omega, if_false, if_true] at this
    subst this
    constructor
    · intro hs; simp [hs]
    · intro hs
      simp only [hs, if_true]
      unfold splitSegs
      rw [midOf_eq]

theorem group_figure {q : Quasi ℝ} {before : List (Call ℝ)} {c : (Nat × Nat) × (Nat × Nat)} {g : List (Call ℝ)} (h : Group q before c g) :
    Figure q before c g := by
  obtain ⟨p, v1, v2, segs, hin, i1, i2, hz, hg, hacc, hrej⟩ := h
  have hu : ∀ u : ℝ, Real.cos u ^ 2 + Real.sin u ^ 2 = 1 := Real.cos_sq_add_sin_sq
  generalize hpt : stepsTo q (tileSteps q c.1.1 c.1.2 c.2.1 c.2.2 p) = pt at hg hacc hrej
  have hd : |Real.cos (gridAngle q c.2.2 - gridAngle q c.2.1)| =
      |cornerDot ⟨pt.x + Real.cos (gridAngle q c.2.1), pt.y + Real.sin (gridAngle q c.2.1)⟩ pt
        ⟨pt.x + Real.cos (gridAngle q c.2.2), pt.y + Real.sin (gridAngle q c.2.2)⟩| := by
    rw [Real.cos_sub]
    unfold cornerDot
    congr 1
    ring
  rw [hd] at hg hacc hrej
  refine ⟨_, _, _, _, segs, ⟨p, hin, by rw [hpt]; rfl⟩, hg, hrej, ?_⟩
  intro ha
  refine segments_spec (v1 := v1) (v2 := v2) ?_ ?_ ?_ ?_ ?_ (hacc ha)
  · rw [i1.x, i1.y]; exact hu _
  · rw [i2.x, i2.y]; exact hu _
  · rw [i1.x, i1.y]
  · rw [i1.x, i1.y, i2.x, i2.y]
  · rw [i2.x, i2.y]

open Classical in
theorem tiling_figures {q : Quasi ℝ} {a b : List (Call ℝ)} {l : List ((Nat × Nat) × (Nat × Nat))} (h : Tiling q a l b) :
    ∃ groups : List (List (Call ℝ)), b = a ++ groups.flatten ∧ groups.length = (l.filter (fun c => decide (Drawn q c))).length ∧
      ∀ i c g, (l.filter (fun c => decide (Drawn q c)))[i]? = some c → groups[i]? = some g → Figure q (a ++ (groups.take i).flatten) c g := by
  induction h with
  | nil => exact ⟨[], by simp, by simp, by simp⟩
  | skip hnd _ ih =>
    obtain ⟨groups, h1, h2, h3⟩ := ih
    rw [List.filter_cons_of_neg (by simpa using hnd)]
    exact ⟨groups, h1, h2, h3⟩
  | @draw a b c cs g hg _ ih =>
    obtain ⟨groups, h1, h2, h3⟩ := ih
    have hd : Drawn q c := by obtain ⟨p, _, _, _, hin, _⟩ := hg; exact ⟨p, hin⟩
    rw [List.filter_cons_of_pos (by simpa using hd)]
    refine ⟨g :: groups, by simp [h1], by simp [h2], ?_⟩
    intro i c' g' hc' hg'
    cases i with
    | zero =>
      simp at hc' hg'
      subst hc' hg'
      simpa using group_figure hg
    | succ i =>
      simp only [List.getElem?_cons_succ] at hc' hg'
      have := h3 i c' g' hc' hg'
      simpa using this

/-- C149 (what is drawn): a finished run draws nothing but the tiles of C147, each followed at once by its segments if the
plotter reported it drawn whole, and by nothing otherwise; which segments those are depends only on the kind set for
skinny or for fat tiles, the ratio and the splitting of crosses. -/
theorem C149_figures {q : Quasi ℝ} {fuel : Nat} {calls : List (Call ℝ)} (h : quasi q fuel = some (.ok calls)) :
    ∃ (l : List ((Nat × Nat) × (Nat × Nat))) (groups : List (List (Call ℝ))), l.Nodup ∧ (∀ c, c ∈ l ↔ OnGrid q c ∧ Drawn q c) ∧
      groups.length = l.length ∧ calls = groups.flatten ∧
      ∀ i c g, l[i]? = some c → groups[i]? = some g → Figure q (groups.take i).flatten c g := by
  classical
  obtain ⟨l, h1, h2, _, h4, _⟩ := quasi_spec h
  obtain ⟨groups, g1, g2, g3⟩ := tiling_figures h4
  refine ⟨l.filter (fun c => decide (Drawn q c)), groups, h1.filter _, ?_, g2, by simpa using g1, ?_⟩
  · intro c
    rw [List.mem_filter, h2]
    simp
  · intro i c g hc hg
    simpa using g3 i c g hc hg

/-- With the ratio one half the four points of a rhombus make a rectangle. -/
theorem rhombus_rectangle (a b c d : P ℝ) (hc : c = ⟨b.x + d.x - a.x, b.y + d.y - a.y⟩)
    (hside : sqLen a b = sqLen a d) :
    cornerDot (wayPoint (1 / 2) a b) (wayPoint (1 / 2) b c) (wayPoint (1 / 2) d c) = 0 ∧
      cornerDot (wayPoint (1 / 2) b c) (wayPoint (1 / 2) d c) (wayPoint (1 / 2) a d) = 0 ∧
      cornerDot (wayPoint (1 / 2) d c) (wayPoint (1 / 2) a d) (wayPoint (1 / 2) a b) = 0 ∧
      cornerDot (wayPoint (1 / 2) a d) (wayPoint (1 / 2) a b) (wayPoint (1 / 2) b c) = 0 := by
  subst hc
  unfold sqLen at hside
  unfold cornerDot wayPoint
  dsimp only
  refine ⟨?_, ?_, ?_, ?_⟩
  · linear_combination (1 / 4) * hside
  · linear_combination (-1 / 4) * hside
  · linear_combination (1 / 4) * hside
  · linear_combination (-1 / 4) * hside

theorem rotated_four {A : Type} {vs : List A} {a b c d : A} (h : vs ~r [a, b, c, d]) :
    vs = [a, b, c, d] ∨ vs = [b, c, d, a] ∨ vs = [c, d, a, b] ∨ vs = [d, a, b, c] := by
  obtain ⟨n, hn⟩ := h.symm
  rw [← hn, ← List.rotate_mod]
  have : n % 4 < 4 := Nat.mod_lt _ (by omega)
  simp only [List.length_cons, List.length_nil]
  generalize n % (0 + 1 + 1 + 1 + 1) = k at *
  interval_cases k
  · left; rfl
  · right; left; rfl
  · right; right; left; rfl
  · right; right; right; rfl

/-- C149 (rectangles): with the ratio one half every polygon of segments that is drawn is a rectangle. -/
theorem C149_rectangles {q : Quasi ℝ} {fuel : Nat} {calls : List (Call ℝ)} (h : quasi q fuel = some (.ok calls)) (hr : q.ratio = 1 / 2) :
    ∀ vs color, .segpoly vs color ∈ calls → ∃ w x y z, vs = [w, x, y, z] ∧
      cornerDot w x y = 0 ∧ cornerDot x y z = 0 ∧ cornerDot y z w = 0 ∧ cornerDot z w x = 0 := by
  obtain ⟨l, groups, _, _, hlen, hcalls, hfig⟩ := C149_figures h
  intro vs color hm
  rw [hcalls, List.mem_flatten] at hm
  obtain ⟨g, hg, hm⟩ := hm
  obtain ⟨i, hi, rfl⟩ := List.mem_iff_getElem.mp hg
  obtain ⟨v0, v1, v2, v3, segs, ⟨p, _, htile⟩, hgr, hrej, hacc⟩ := hfig i _ _ (List.getElem?_eq_getElem (by omega)) (List.getElem?_eq_getElem hi)
  rw [hgr] at hm
  simp only [List.mem_cons, reduceCtorEq, false_or] at hm
  cases ha : q.accepts ((groups.take i).flatten ++ [.polygon [v0, v1, v2, v3] (q.rnd |cornerDot v1 v0 v3|)]) with
  | false => rw [hrej ha] at hm; simp at hm
  | true =>
    have hs := hacc ha
    have hrh := rhombus_rectangle v0 v1 v2 v3 (by
        unfold rhombus at htile
        simp only [List.cons.injEq, and_true] at htile
        obtain ⟨e0, e1, e2, e3⟩ := htile
        rw [e2, e1, e3, e0]
        simp only [P.mk.injEq]
        constructor <;> ring) (by
        unfold rhombus at htile
        simp only [List.cons.injEq, and_true] at htile
        obtain ⟨e0, e1, e2, e3⟩ := htile
        rw [e1, e3, e0]
        unfold sqLen
        have hi' : i < l.length := by omega
        linear_combination Real.cos_sq_add_sin_sq (gridAngle q l[i].2.1) - Real.cos_sq_add_sin_sq (gridAngle q l[i].2.2))
    by_cases hk : 1 ≤ kindOf q v0 v1 v3 ∧ kindOf q v0 v1 v3 ≤ 7
    · obtain ⟨k1, k2⟩ := hk
      have notin : ∀ {s : Call ℝ} {u v : P ℝ}, Joins s u v → Call.segpoly vs color ≠ s := by
        intro s u v hj
        rcases hj with rfl | rfl <;> simp
      rcases (show kindOf q v0 v1 v3 = 1 ∨ kindOf q v0 v1 v3 = 2 ∨ kindOf q v0 v1 v3 = 3 ∨ kindOf q v0 v1 v3 = 4 ∨
        kindOf q v0 v1 v3 = 5 ∨ kindOf q v0 v1 v3 = 6 ∨ kindOf q v0 v1 v3 = 7 by omega) with e | e | e | e | e | e | e
      · obtain ⟨s1, s2, rfl, a, b⟩ := hs.acute e
        exfalso
        rcases lt_or_ge 0 (cornerDot v1 v0 v3) with hp | hp
        · have := a hp
          simp only [List.mem_cons, List.not_mem_nil, or_false] at hm
          rcases hm with hm | hm
          · exact notin this.1 hm
          · exact notin this.2 hm
        · have := b hp
          simp only [List.mem_cons, List.not_mem_nil, or_false] at hm
          rcases hm with hm | hm
          · exact notin this.1 hm
          · exact notin this.2 hm
      · obtain ⟨s1, s2, rfl, a, b⟩ := hs.obtuse e
        exfalso
        rcases lt_or_ge 0 (cornerDot v1 v0 v3) with hp | hp
        · have := a hp
          simp only [List.mem_cons, List.not_mem_nil, or_false] at hm
          rcases hm with hm | hm
          · exact notin this.1 hm
          · exact notin this.2 hm
        · have := b hp
          simp only [List.mem_cons, List.not_mem_nil, or_false] at hm
          rcases hm with hm | hm
          · exact notin this.1 hm
          · exact notin this.2 hm
      · exfalso
        obtain ⟨a, b⟩ := hs.cross e
        by_cases hsp : q.splitCross = true
        · obtain ⟨s1, s2, s3, s4, hperm, j1, j2, j3, j4⟩ := b hsp hr
          have hm := hperm.mem_iff.mp hm
          simp only [List.mem_cons, List.not_mem_nil, or_false] at hm
          rcases hm with hm | hm | hm | hm
          · exact notin j1 hm
          · exact notin j2 hm
          · exact notin j3 hm
          · exact notin j4 hm
        · obtain ⟨s1, s2, hor, j1, j2⟩ := a (fun hc => hsp hc.1)
          rcases hor with rfl | rfl
          · simp only [List.mem_cons, List.not_mem_nil, or_false] at hm
            rcases hm with hm | hm
            · exact notin j1 hm
            · exact notin j2 hm
          · simp only [List.mem_cons, List.not_mem_nil, or_false] at hm
            rcases hm with hm | hm
            · exact notin j2 hm
            · exact notin j1 hm
      · obtain ⟨s1, s2, s3, s4, s, vs', color', rfl, hperm, j1, j2, j3, j4, hrot, _⟩ := hs.rect e
        rcases List.mem_append.mp hm with hm | hm
        · exfalso
          have hm := hperm.mem_iff.mp hm
          simp only [List.mem_cons, List.not_mem_nil, or_false] at hm
          rcases hm with hm | hm | hm | hm
          · exact notin j1 hm
          · exact notin j2 hm
          · exact notin j3 hm
          · exact notin j4 hm
        · simp only [List.mem_cons, List.not_mem_nil, or_false, Call.segpoly.injEq] at hm
          obtain ⟨rfl, _⟩ := hm
          rw [hr] at hrot
          obtain ⟨d1, d2, d3, d4⟩ := hrh
          rcases rotated_four hrot with e | e | e | e
          · exact ⟨_, _, _, _, e, d1, d2, d3, d4⟩
          · exact ⟨_, _, _, _, e, d2, d3, d4, d1⟩
          · exact ⟨_, _, _, _, e, d3, d4, d1, d2⟩
          · exact ⟨_, _, _, _, e, d4, d1, d2, d3⟩
      · rw [hs.second e] at hm; simp at hm
      · rw [hs.first e] at hm; simp at hm
      · exfalso
        obtain ⟨a, b⟩ := hs.both e
        cases hsp : q.splitCross with
        | false => rw [a hsp] at hm; simp at hm
        | true => rw [b hsp] at hm; simp at hm
    · rw [hs.none hk] at hm
      simp at hm

/-- Rectangles on all the tiles. -/
noncomputable def boxes : Quasi ℝ := { tiny with segSkinny := 4, segFat := 4 }

/-- The hypotheses of C149 are met: this tiling is drawn and has a rectangle. -/
example : ∃ calls vs color, quasi boxes 19 = some (.ok calls) ∧ boxes.ratio = 1 / 2 ∧ .segpoly vs color ∈ calls := by
  obtain ⟨calls, h⟩ := C147_odd boxes rfl 18 (by decide)
  obtain ⟨l, groups, _, h2, hlen, hcalls, hfig⟩ := C149_figures h
  have hplace : ∀ i, place boxes i ⟨0, 0⟩ = 3 := by intro i; unfold place boxes tiny; norm_num
  have hm : (((3, 3), (0, 1)) : (Nat × Nat) × (Nat × Nat)) ∈ l := by
    rw [h2]
    refine ⟨⟨⟨by decide, by decide⟩, ⟨by decide, by decide⟩, by decide, by decide⟩, ⟨0, 0⟩, ?_⟩
    refine ⟨by rw [hplace]; norm_num, by rw [hplace]; norm_num, ?_⟩
    intro i _ _ _
    rw [hplace]
    unfold boxes tiny
    norm_num
  obtain ⟨i, hi, hi'⟩ := List.mem_iff_getElem.mp hm
  have hg : i < groups.length := by rw [hlen]; exact hi
  obtain ⟨v0, v1, v2, v3, segs, _, hgr, _, hacc⟩ := hfig i _ _ (by rw [List.getElem?_eq_getElem hi, hi']) (List.getElem?_eq_getElem hg)
  obtain ⟨s1, s2, s3, s4, s, vs, color, hsegs, _⟩ := (hacc rfl).rect (by unfold kindOf; split <;> rfl)
  refine ⟨calls, vs, color, h, rfl, ?_⟩
  rw [hcalls, List.mem_flatten]
  exact ⟨_, List.getElem_mem hg, by rw [hgr, hsegs]; simp⟩

/-- Symmetry 5, no offsets, with the segments that join the corners with acute angles. -/
noncomputable def five : Quasi ℝ := { tiny with symmetry := 5, segSkinny := 5, segFat := 5 }

theorem five_place (i : Nat) : place five i ⟨0, 0⟩ = 3 := by
  unfold place five tiny
  norm_num

/-- C149 (acute corners): the documentation says that the segments of kind `SEG_VERT_ACUTE` join the corners with acute
angles.  The same two corners are joined whatever the angle: in a tiling of symmetry 5 there is a tile whose second and
fourth corners, which have obtuse angles, are joined. -/
theorem C149_acute_refuted : ∃ calls v0 v1 v2 v3 color pre post, quasi five 19 = some (.ok calls) ∧
    calls = pre ++ (.polygon [v0, v1, v2, v3] color :: .segment v1 v3 :: post) ∧ cornerDot v0 v1 v2 < 0 ∧ cornerDot v2 v3 v0 < 0 := by
  obtain ⟨calls, h⟩ := C147_odd five rfl 18 (by decide)
  obtain ⟨l, groups, _, h2, hlen, hcalls, hfig⟩ := C149_figures h
  have hm : (((3, 3), (0, 1)) : (Nat × Nat) × (Nat × Nat)) ∈ l := by
    rw [h2]
    refine ⟨⟨⟨by decide, by decide⟩, ⟨by decide, by decide⟩, by decide, by decide⟩, ⟨0, 0⟩, ?_⟩
    refine ⟨?_, ?_, ?_⟩
    · rw [five_place]; norm_num
    · rw [five_place]; norm_num
    · intro i _ _ _
      rw [five_place]
      unfold five tiny
      norm_num
  obtain ⟨i, hi, hi'⟩ := List.mem_iff_getElem.mp hm
  have hg : i < groups.length := by rw [hlen]; exact hi
  obtain ⟨v0, v1, v2, v3, segs, ⟨p, _, htile⟩, hgr, _, hacc⟩ := hfig i _ _ (by rw [List.getElem?_eq_getElem hi, hi']) (List.getElem?_eq_getElem hg)
  have hsegs := (hacc rfl).second (by unfold kindOf; split <;> rfl)
  rw [hsegs] at hgr
  have hsplit : calls = (groups.take i).flatten ++ (groups[i] ++ (groups.drop (i + 1)).flatten) := by
    rw [hcalls, ← List.flatten_cons, List.getElem_cons_drop, ← List.flatten_append, List.take_append_drop]
  rw [hgr] at hsplit
  refine ⟨calls, v0, v1, v2, v3, _, (groups.take i).flatten, _, h, hsplit, ?_⟩
  have hcos : 0 < Real.cos (gridAngle five 1 - gridAngle five 0) := by
    have : gridAngle five 1 - gridAngle five 0 = 2 * Real.pi / 5 := by
      unfold gridAngle five tiny; norm_num
    rw [this]
    apply Real.cos_pos_of_mem_Ioo
    constructor <;> linarith [Real.pi_pos]
  rw [Real.cos_sub] at hcos
  unfold rhombus at htile
  simp only [List.cons.injEq, and_true] at htile
  obtain ⟨e0, e1, e2, e3⟩ := htile
  generalize stepsTo five _ = a at e0 e1 e2 e3
  subst e0 e1 e2 e3
  unfold cornerDot
  dsimp only
  constructor <;> nlinarith

/-- C149 (acute corners, what holds): the corners joined by `SEG_VERT_ACUTE` have angles that are not obtuse when the two directions of the tile are at
a right or obtuse angle, and those joined by `SEG_VERT_OBTUSE` are obtuse then. -/
theorem C149_corners_partial (a b c d : P ℝ) (hc : c = ⟨b.x + d.x - a.x, b.y + d.y - a.y⟩) (h : cornerDot b a d ≤ 0) :
    0 ≤ cornerDot a b c ∧ 0 ≤ cornerDot c d a ∧ cornerDot b a d ≤ 0 ∧ cornerDot b c d ≤ 0 := by
  subst hc
  unfold cornerDot at *
  dsimp only
  refine ⟨?_, ?_, ?_, ?_⟩ <;> nlinarith

/-- The hypotheses of the last two theorems are met by a rhombus. -/
example : sqLen ⟨0, 0⟩ ⟨5, 0⟩ = sqLen ⟨0, 0⟩ ⟨-3, 4⟩ ∧ cornerDot ⟨5, 0⟩ ⟨0, 0⟩ ⟨-3, 4⟩ ≤ 0 := by
  unfold sqLen cornerDot
  norm_num

end Verif.Ext
