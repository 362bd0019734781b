import Verif.Cam.Seg
import Verif.Geom.Props11
import Verif.Geom.Props15

/-!
# C119: smoothing of offset paths
-/

set_option linter.unusedSectionVars false

namespace Verif.Cam
open Verif PyFloat PyTrig Geom

/-! ## Specification -/

/-- Specification: the total length of some segments. -/
noncomputable def lengthAlong (p : Path ℝ) : ℝ := (p.map fun s => lengthOf s.shape).sum

/-- Specification: along the path the tool turns from `a` by `δ`, in proportion to the distance. -/
def TurnsEvenly (a δ : ℝ) (g : Path ℝ) : Prop :=
  ∀ pre s post, g = pre ++ s :: post →
    s.hints.startA = some (a + δ * (lengthAlong pre / lengthAlong g)) ∧ s.hints.endA = some (a + δ * (lengthAlong (pre ++ [s]) / lengthAlong g))

/-- A segment, the curve through its ends, the parts of the curve, and the segments that replace it. -/
structure Item where
  seg : Seg ℝ
  curve : Bez ℝ
  parts : List Piece
  out : Path ℝ

/-- Specification: how a segment is replaced.  A segment without hint stays.  A hinted one is replaced by the biarc approximation of a curve with the same ends (or stays if
that is empty); the tool turns evenly along it from the angle at the start of the segment, by at most half a turn, to the angle at the end of the segment. -/
def Item.Good (eps tol flat : ℝ) (i : Item) : Prop :=
  (i.seg.hints.g1 = false → i.out = [i.seg]) ∧
  (i.seg.hints.g1 = true → i.curve.p1 = i.seg.p1 ∧ i.curve.p2 = i.seg.p2 ∧ Tiles 0 1 i.parts ∧ (∀ p ∈ i.parts, GoodPiece eps tol flat 1 i.curve p) ∧
    ((i.parts.flatMap Piece.out = [] ∧ i.out = [i.seg]) ∨
     (i.parts.flatMap Piece.out ≠ [] ∧ i.out.map Seg.shape = i.parts.flatMap Piece.out ∧
      ∃ δ, |δ| ≤ Real.pi ∧ (∃ k : ℤ, i.seg.startAngle eps + δ = i.seg.endAngle eps + k * (2 * Real.pi)) ∧ TurnsEvenly (i.seg.startAngle eps) δ i.out)))

/-- Specification: if both segments are hinted and the first one is replaced, the curves join smoothly. -/
def Item.Joins (i j : Item) : Prop := i.seg.hints.g1 = true → j.seg.hints.g1 = true → i.parts.flatMap Piece.out ≠ [] → SmoothJoin i.curve j.curve

/-! ## Lemmas -/

theorem lineArcLength_ok {s : Shape ℝ} {x : ℝ} (h : s.lineArcLength = .ok x) : x = lengthOf s := by
  cases s with
  | line l =>
    unfold Shape.lineArcLength at h
    cases h
    exact length_real l
  | arc a =>
    unfold Shape.lineArcLength at h
    cases h
    simp [Arc.length, lengthOf]
  | bez b => cases h
  | other p q => cases h

theorem mapM_lengths {l : List (Shape ℝ)} {xs : List ℝ} (h : l.mapM Shape.lineArcLength = .ok xs) : xs = l.map lengthOf := by
  induction l generalizing xs with
  | nil => cases h; rfl
  | cons s l ih =>
    rw [List.mapM_cons] at h
    obtain ⟨x, hx, h⟩ := ok_bind h
    obtain ⟨ys, hy, h⟩ := ok_bind h
    cases h
    rw [ih hy, lineArcLength_ok hx]
    rfl

theorem hintPieces_shapes (scale : ℝ) (a : ℝ) (l : List (Shape ℝ)) : (hintPieces scale a (l.zip (l.map lengthOf))).map Seg.shape = l := by
  induction l generalizing a with
  | nil => rfl
  | cons s l ih => simp only [List.map_cons, List.zip_cons_cons, hintPieces]; rw [ih]

theorem hintPieces_spec (scale : ℝ) (l : List (Shape ℝ)) : ∀ (a : ℝ) (pre : Path ℝ) (s : Seg ℝ) (post : Path ℝ), hintPieces scale a (l.zip (l.map lengthOf)) = pre ++ s :: post →
    s.hints.startA = some (a + scale * lengthAlong pre) ∧ s.hints.endA = some (a + scale * lengthAlong (pre ++ [s])) := by
  induction l with
  | nil => intro a pre s post h; cases pre <;> cases h
  | cons x l ih =>
    intro a pre s post h
    simp only [List.map_cons, List.zip_cons_cons, hintPieces] at h
    cases pre with
    | nil =>
      injection h with h1 h2
      subst h1
      simp only [lengthAlong, List.map_nil, List.sum_nil, List.nil_append, List.map_cons, List.sum_cons, real_add, real_mul]
      exact ⟨by rw [mul_zero, add_zero], by congr 1; ring⟩
    | cons y pre =>
      injection h with h1 h2
      subst h1
      obtain ⟨e1, e2⟩ := ih _ pre s post h2
      rw [e1, e2]
      simp only [lengthAlong, List.cons_append, List.map_cons, List.sum_cons, real_add, real_mul]
      exact ⟨by congr 1; ring, by congr 1; ring⟩

theorem foldl_sum (l : List ℝ) (a : ℝ) : l.foldl (fun x y : ℝ => x +. y) a = a + l.sum := by
  induction l generalizing a with
  | nil => simp
  | cons x l ih => rw [List.foldl_cons, ih, List.sum_cons]; simp only [real_add]; ring

/-- The curve made for a segment goes through its ends. -/
theorem smoothingCurve_ends {eps k : ℝ} {s : Shape ℝ} {t : Option (Shape ℝ)} {cp : P ℝ} {c : Bez ℝ × P ℝ} (h : smoothingCurve eps s t (some cp) k = .ok c) :
    c.1.p1 = s.p1 ∧ c.1.p2 = s.p2 := by
  cases t with
  | none => unfold smoothingCurve at h; cases h; exact ⟨rfl, rfl⟩
  | some t =>
    unfold smoothingCurve at h
    dsimp only at h
    obtain ⟨x1, -, h⟩ := ok_bind h
    obtain ⟨x2, -, h⟩ := ok_bind h
    obtain ⟨x3, -, h⟩ := ok_bind h
    obtain ⟨x4, -, h⟩ := ok_bind h
    obtain ⟨x5, -, h⟩ := ok_bind h
    cases h
    unfold startCurve
    dsimp only
    split
    · cases s <;> exact ⟨rfl, rfl⟩
    · exact ⟨rfl, rfl⟩

/-- One replaced segment. -/
theorem smoothingArcs_spec {eps tol flat : ℝ} (heps : 0 < eps) (he : eps ≤ 1 / 14) {seg1 : Seg ℝ} {seg2 : Option (Seg ℝ)} {cp1 : P ℝ} {r : Path ℝ × P ℝ}
    (hg : seg1.hints.g1 = true) (h : smoothingArcs eps tol flat seg1 seg2 cp1 = .ok r) :
    ∃ i : Item, i.seg = seg1 ∧ i.out = r.1 ∧ i.Good eps tol flat ∧ ∃ q, smoothingCurve eps seg1.shape (seg2.map Seg.shape) (some cp1) 1 = .ok (i.curve, q) ∧
      (i.parts.flatMap Piece.out ≠ [] → r.2 = q) := by
  unfold smoothingArcs at h
  obtain ⟨c, hc, h⟩ := ok_bind h
  obtain ⟨l, hl, h⟩ := ok_bind h
  obtain ⟨ps, h1, h2, h3⟩ := C95_biarc_partial eps tol flat heps he 1 c.1 l hl
  have h3' : ∀ p ∈ ps, GoodPiece eps tol flat 1 c.1 p := by
    intro p hp; have := h3 p hp; norm_num at this; exact this
  rw [show (one : ℝ) = 1 from real_one] at hc
  obtain ⟨e1, e2⟩ := smoothingCurve_ends hc
  by_cases hne : l.isEmpty = true
  · rw [if_pos hne] at h
    cases h
    rw [List.isEmpty_iff] at hne
    refine ⟨⟨seg1, c.1, ps, [seg1]⟩, rfl, rfl, ⟨(fun h0 => absurd (hg.symm.trans h0) (by decide)), fun _ => ⟨e1, e2, h1, h3', .inl ⟨h2.symm.trans hne, rfl⟩⟩⟩, c.2, hc, fun hx => ?_⟩
    exact absurd (by rw [← h2]; exact hne) hx
  · rw [if_neg hne] at h
    obtain ⟨lens, hlens, h⟩ := ok_bind h
    obtain ⟨scale, hscale, h⟩ := ok_bind h
    cases h
    have hls := mapM_lengths hlens
    subst hls
    rw [List.isEmpty_iff] at hne
    set a := seg1.startAngle eps with ha
    set δ := normalizeAngle (seg1.endAngle eps -. a) (zero : ℝ) with hδ
    have hsc : scale = δ / (l.map lengthOf).sum := by
      unfold pdiv at hscale
      split at hscale
      · cases hscale
      · cases hscale
        rw [foldl_sum]; simp
    refine ⟨⟨seg1, c.1, ps, _⟩, rfl, rfl, ⟨(fun h0 => absurd (hg.symm.trans h0) (by decide)), fun _ => ⟨e1, e2, h1, h3', .inr ⟨by rw [← h2]; exact hne, ?_, δ, ?_⟩⟩⟩, c.2, hc, fun _ => rfl⟩
    · rw [← h2]; exact hintPieces_shapes _ _ _
    · obtain ⟨k, hk, hlo, hhi⟩ : ∃ k : ℤ, δ = seg1.endAngle eps - a + k * (2 * Real.pi) ∧ -Real.pi ≤ δ ∧ δ ≤ Real.pi := by
        obtain ⟨⟨k, hk⟩, h1, h2⟩ := C33_normalize_angle (seg1.endAngle eps -. a) (0 : ℝ)
        refine ⟨k, ?_, ?_, ?_⟩
        · rw [hδ]; simp at hk ⊢; linarith
        · rw [hδ]; simpa using h1
        · rw [hδ]; simpa using h2.le
      refine ⟨abs_le.2 ⟨hlo, hhi⟩, ⟨k, by rw [← ha, hk]; ring⟩, ?_⟩
      intro pre s post hsplit
      dsimp only at hsplit ⊢
      have htot : lengthAlong (hintPieces scale a (l.zip (l.map lengthOf))) = (l.map lengthOf).sum := by
        unfold lengthAlong
        have := hintPieces_shapes scale a l
        conv_rhs => rw [← this]
        rw [List.map_map]; rfl
      obtain ⟨f1, f2⟩ := hintPieces_spec scale l a pre s post hsplit
      rw [f1, f2, htot, hsc]
      exact ⟨by congr 1; ring, by congr 1; ring⟩

theorem fixG1Loop_spec {eps tol flat : ℝ} (heps : 0 < eps) (he : eps ≤ 1 / 14) (rest : Path ℝ) : ∀ (seg1 : Seg ℝ) (cp1 : P ℝ) (r : Path ℝ),
    fixG1Loop eps tol flat seg1 cp1 rest = .ok r → ∃ i is, (i :: is).map Item.seg = seg1 :: rest ∧ r = (i :: is).flatMap Item.out ∧ (∀ j ∈ i :: is, j.Good eps tol flat) ∧
      ((∀ s ∈ seg1 :: rest, Proper eps s.shape) → List.IsChain (fun s t : Seg ℝ => Rounds eps 1 s.shape t.shape) (seg1 :: rest) → List.IsChain Item.Joins (i :: is) ∧
        ∀ w n, eps ≤ n → cp1 = ahead seg1.p1 w n → seg1.hints.g1 = true → Leaves i.curve w) := by
  induction rest with
  | nil =>
    intro seg1 cp1 r h
    unfold fixG1Loop at h
    by_cases hg : seg1.hints.g1 = true
    · rw [if_pos hg] at h
      obtain ⟨x, hx, h⟩ := ok_bind h
      cases h
      obtain ⟨i, h1, h2, h3, q, h4, -⟩ := smoothingArcs_spec heps he hg hx
      refine ⟨i, [], by rw [← h1]; rfl, by simp [h2], by simpa using h3, fun _ _ => ⟨List.isChain_singleton _, fun w n hn hcp _ => ?_⟩⟩
      have h4' : smoothingCurve eps seg1.shape none (some cp1) 1 = .ok (i.curve, q) := h4
      unfold smoothingCurve at h4'
      injection h4' with h4'
      injection h4' with h5 h6
      refine ⟨2 / 3 * n, by linarith, ?_⟩
      rw [← h5, hcp]
      apply P.ext_real <;> simp [Bez.fromQuadratic, P.add, P.mul, P.sub, ahead, Seg.p1] <;> ring
    · rw [if_neg hg] at h
      cases h
      have hg' : seg1.hints.g1 = false := by simpa using hg
      exact ⟨⟨seg1, ⟨seg1.p1, seg1.p1, seg1.p1, seg1.p1⟩, [], [seg1]⟩, [], rfl, rfl, by
        intro j hj
        rw [List.mem_singleton] at hj
        subst hj
        exact ⟨fun _ => rfl, fun h => absurd h hg⟩, fun _ _ => ⟨List.isChain_singleton _, fun _ _ _ _ h => absurd h hg⟩⟩
  | cons seg2 rest ih =>
    intro seg1 cp1 r h
    unfold fixG1Loop at h
    by_cases hg : seg1.hints.g1 = true
    · rw [if_pos hg] at h
      obtain ⟨x, hx, h⟩ := ok_bind h
      obtain ⟨tl, htl, h⟩ := ok_bind h
      cases h
      obtain ⟨i, h1, h2, h3, q, h4, h5⟩ := smoothingArcs_spec heps he hg hx
      obtain ⟨j, js, g1, g2, g3, g4⟩ := ih seg2 x.2 tl htl
      refine ⟨i, j :: js, by rw [List.map_cons, g1, h1], by rw [List.flatMap_cons, ← g2, h2], ?_, ?_⟩
      · intro y hy
        rcases List.mem_cons.1 hy with rfl | hy
        · exact h3
        · exact g3 y hy
      · intro hp hr
        obtain ⟨hr1, hr2⟩ := List.isChain_cons_cons.1 hr
        obtain ⟨g5, g6⟩ := g4 (fun s hs => hp s (by simp [hs])) hr2
        obtain ⟨w, n, hn, -, hcurve⟩ := smoothingCurve_spec heps one_pos (hp seg1 (by simp)) (hp seg2 (by simp)) hr1
        obtain ⟨c, c1, c2, c3, c4, c5⟩ := hcurve cp1
        have hcq : i.curve = c ∧ q = ahead seg2.p1 w n := by
          have h4' : smoothingCurve eps seg1.shape (some seg2.shape) (some cp1) 1 = .ok (i.curve, q) := h4
          rw [c1] at h4'
          injection h4' with h4'
          injection h4' with e1 e2
          exact ⟨e1.symm, e2.symm⟩
        have hjs : j.seg = seg2 := by
          rw [List.map_cons] at g1; injection g1
        refine ⟨List.isChain_cons_cons.2 ⟨fun k1 k2 k3 => ?_, g5⟩, fun w0 n0 hn0 hcp _ => by rw [hcq.1]; exact c5 w0 n0 hn0 hcp⟩
        rw [hjs] at k2
        refine ⟨?_, w, by rw [hcq.1]; exact c4, g6 w n hn (by rw [h5 k3, hcq.2]) k2⟩
        have e2 := ((g3 j (by simp)).2 (by rw [hjs]; exact k2)).1
        rw [e2, hjs, hcq.1, c3]
        exact hr1.1
    · rw [if_neg hg] at h
      obtain ⟨tl, htl, h⟩ := ok_bind h
      cases h
      obtain ⟨j, js, g1, g2, g3, g4⟩ := ih seg2 seg2.p1 tl htl
      refine ⟨⟨seg1, ⟨seg1.p1, seg1.p1, seg1.p1, seg1.p1⟩, [], [seg1]⟩, j :: js, by rw [List.map_cons, g1], by rw [List.flatMap_cons, ← g2]; rfl, ?_, ?_⟩
      · intro y hy
        rcases List.mem_cons.1 hy with rfl | hy
        · exact ⟨fun _ => rfl, fun h => absurd h hg⟩
        · exact g3 y hy
      · intro hp hr
        obtain ⟨hr1, hr2⟩ := List.isChain_cons_cons.1 hr
        exact ⟨List.isChain_cons_cons.2 ⟨fun k1 => absurd k1 hg, (g4 (fun s hs => hp s (by simp [hs])) hr2).1⟩, fun _ _ _ _ h => absurd h hg⟩

/-! ## C119 -/

/-- **C119**: whatever path of two or more segments `fix_G1_path` returns is the given one with each hinted segment replaced as described by `Item.Good`: by arcs and lines along a
curve with the same ends, with the tool turning evenly from its angle at the start of the segment to its angle at the end; all other segments stay.  Where hinted segments
follow each other (proper segments, visible rounding), the curves join smoothly.  Missing: the junction from a hinted segment to one that is not hinted (`C119_refuted`),
and the absence of errors. -/
theorem C119_replaced_partial (eps tol flat : ℝ) (heps : 0 < eps) (he : eps ≤ 1 / 14) (path r : Path ℝ) (h2 : 2 ≤ path.length) (h : fixG1Path eps tol flat path = .ok r) :
    ∃ is : List Item, is.map Item.seg = path ∧ r = is.flatMap Item.out ∧ (∀ i ∈ is, i.Good eps tol flat) ∧
      ((∀ s ∈ path, Proper eps s.shape) → List.IsChain (fun s t : Seg ℝ => Rounds eps 1 s.shape t.shape) path → List.IsChain Item.Joins is) := by
  obtain ⟨s0, tl, rfl⟩ := List.exists_cons_of_ne_nil (show path ≠ [] by rintro rfl; simp at h2)
  obtain ⟨s1, rest, rfl⟩ := List.exists_cons_of_ne_nil (show tl ≠ [] by rintro rfl; simp at h2)
  obtain ⟨i, is, g1, g2, g3, g4⟩ := fixG1Loop_spec heps he (s1 :: rest) s0 s0.p1 r h
  exact ⟨i :: is, g1, g2, g3, fun hp hr => (g4 hp hr).1⟩

/-- **C119**, unhinted paths and single segments: a path in which nothing is hinted is returned unchanged. -/
theorem C119_unhinted {K : Type} [PyTrig K] (eps tol flat : K) (path : Path K) (h : path.length < 2 ∨ ∀ s ∈ path, s.hints.g1 = false) : fixG1Path eps tol flat path = .ok path := by
  have key : ∀ (rest : Path K) (s : Seg K) (cp : P K), (∀ x ∈ s :: rest, x.hints.g1 = false) → fixG1Loop eps tol flat s cp rest = .ok (s :: rest) := by
    intro rest
    induction rest with
    | nil => intro s cp h; unfold fixG1Loop; rw [h s (by simp)]; rfl
    | cons t rest ih =>
      intro s cp h
      unfold fixG1Loop
      rw [h s (by simp), ih t t.p1 (fun x hx => h x (by simp [hx]))]
      rfl
  unfold fixG1Path
  split
  · rename_i s0 s1 rest
    rcases h with h | h
    · simp at h
    · exact key _ _ _ h
  · rfl

/-- The part of **C119** that fails.  Every smooth path is hinted except for its last segment; before it the direction is lost: for every arc that is followed, in its
direction, by a line, the curve that replaces the arc does not end in the direction of the line. -/
theorem C119_refuted (eps : ℝ) (heps : 0 < eps) (a : Arc ℝ) (l : Line ℝ) (ha : Proper eps (.arc a)) (hl : Proper eps (.line l)) (hr : Rounds eps 1 (.arc a) (.line l))
    (hsw : rotAbout a.center a.angle a.p1 = a.p2)
    (htan : (l.p2.x - l.p1.x) * (a.p2.x - a.center.x) + (l.p2.y - l.p1.y) * (a.p2.y - a.center.y) = 0) (cp : P ℝ) :
    ∃ c q, smoothingCurve eps (.arc a) (some (.line l)) (some cp) 1 = .ok (c, q) ∧ c.p2 = l.p1 ∧ ¬ ∃ w n, 0 < n ∧ Arrives c w ∧ l.p2 = ahead l.p1 w n := by
  obtain ⟨w, n, hn, ⟨m, hm, hmid⟩, hcurve⟩ := smoothingCurve_spec heps one_pos ha hl hr
  obtain ⟨c, h1, h2, h3, ⟨m1, hm1, h4⟩, -⟩ := hcurve cp
  refine ⟨c, _, h1, h3.trans hr.1, ?_⟩
  rintro ⟨w', n', hn', ⟨m2, hm2, h5⟩, h6⟩
  have hjoin : a.p2 = l.p1 := hr.1
  -- the two directions agree
  have hcs := Real.sin_sq_add_cos_sq w
  have hcs' := Real.sin_sq_add_cos_sq w'
  have ex : m1 * Real.cos w = m2 * Real.cos w' := by
    have e1 : c.p2.x = c.c2.x + m1 * Real.cos w := congrArg P.x h4
    have e2 : c.p2.x = c.c2.x + m2 * Real.cos w' := congrArg P.x h5
    linarith
  have ey : m1 * Real.sin w = m2 * Real.sin w' := by
    have e1 : c.p2.y = c.c2.y + m1 * Real.sin w := congrArg P.y h4
    have e2 : c.p2.y = c.c2.y + m2 * Real.sin w' := congrArg P.y h5
    linarith
  -- vector from the middle of the arc to the middle of the line
  have mx : (middleOf (.line l)).x = (middleOf (.arc a)).x + m * Real.cos w := congrArg P.x hmid
  have my : (middleOf (.line l)).y = (middleOf (.arc a)).y + m * Real.sin w := congrArg P.y hmid
  have lx : (middleOf (.line l)).x = l.p1.x + 1 / 2 * (l.p2.x - l.p1.x) := by simp [middleOf, segPt, Shape.p1, Shape.p2]
  have ly : (middleOf (.line l)).y = l.p1.y + 1 / 2 * (l.p2.y - l.p1.y) := by simp [middleOf, segPt, Shape.p1, Shape.p2]
  have dx : l.p2.x = l.p1.x + n' * Real.cos w' := congrArg P.x h6
  have dy : l.p2.y = l.p1.y + n' * Real.sin w' := congrArg P.y h6
  set M := middleOf (.arc a) with hM
  set κ := 1 / 2 * n' - m * (m2 / m1) with hκ
  have hMx : M.x = a.p2.x + κ * Real.cos w' := by
    have : m * Real.cos w = m * (m2 / m1) * Real.cos w' := by field_simp; linear_combination ex
    rw [hjoin, hκ]
    linear_combination lx - mx + (1 / 2) * dx - this
  have hMy : M.y = a.p2.y + κ * Real.sin w' := by
    have : m * Real.sin w = m * (m2 / m1) * Real.sin w' := by field_simp; linear_combination ey
    rw [hjoin, hκ]
    linear_combination ly - my + (1 / 2) * dy - this
  have hperp : Real.cos w' * (a.p2.x - a.center.x) + Real.sin w' * (a.p2.y - a.center.y) = 0 := by
    have e : n' * (Real.cos w' * (a.p2.x - a.center.x) + Real.sin w' * (a.p2.y - a.center.y)) = 0 := by
      linear_combination htan - (a.p2.x - a.center.x) * dx - (a.p2.y - a.center.y) * dy
    exact (mul_eq_zero.1 e).resolve_left hn'.ne'
  have hMc : sqDist M a.center = sqDist a.p2 a.center := by
    rw [hM]; show sqDist (rotAbout a.center (1 / 2 * a.angle) a.p1) a.center = _
    rw [sqDist_rotAbout, ← hsw, sqDist_rotAbout]
  have hκ0 : κ = 0 := by
    have e : κ ^ 2 = 0 := by
      unfold sqDist at hMc
      rw [hMx, hMy] at hMc
      linear_combination hMc - 2 * κ * hperp - κ ^ 2 * hcs'
    exact pow_eq_zero_iff (two_ne_zero) |>.1 e
  have hMp : M = a.p2 := by apply P.ext_real <;> [rw [hMx, hκ0]; rw [hMy, hκ0]] <;> ring
  -- so the arc does not turn
  have hmm : rotAbout a.center (1 / 2 * a.angle) a.p1 = rotAbout a.center a.angle a.p1 := by rw [hsw]; exact hMp
  have hchord : sqDist a.p1 a.center * (1 - Real.cos (1 / 2 * a.angle)) = 0 := by
    unfold rotAbout at hmm
    injection hmm with k1 k2
    have ca : Real.cos a.angle = Real.cos (1 / 2 * a.angle) * Real.cos (1 / 2 * a.angle) - Real.sin (1 / 2 * a.angle) * Real.sin (1 / 2 * a.angle) := by
      rw [← Real.cos_add]; congr 1; ring
    have sa : Real.sin a.angle = Real.sin (1 / 2 * a.angle) * Real.cos (1 / 2 * a.angle) + Real.cos (1 / 2 * a.angle) * Real.sin (1 / 2 * a.angle) := by
      rw [← Real.sin_add]; congr 1; ring
    set C := Real.cos (1 / 2 * a.angle)
    set S := Real.sin (1 / 2 * a.angle)
    have hCS : S ^ 2 + C ^ 2 = 1 := Real.sin_sq_add_cos_sq _
    rw [ca, sa] at k1 k2
    set u := a.p1.x - a.center.x
    set v := a.p1.y - a.center.y
    have q1 : (C - (C * C - S * S)) * u - (S - (S * C + C * S)) * v = 0 := by linarith
    have q2 : (S - (S * C + C * S)) * u + (C - (C * C - S * S)) * v = 0 := by linarith
    have : sqDist a.p1 a.center = u ^ 2 + v ^ 2 := rfl
    rw [this]
    linear_combination (C * u - S * v) * q1 + (S * u + C * v) * q2 - (1 - C) * (u ^ 2 + v ^ 2) * hCS
  have hr2 : 0 < sqDist a.p1 a.center := by rw [ha.2.1.2.1]; exact pow_pos ha.2.2.1 2
  have hcos : Real.cos (1 / 2 * a.angle) = 1 := by
    have := (mul_eq_zero.1 hchord).resolve_left hr2.ne'
    linarith
  have hpi := Real.pi_pos
  have hab := abs_lt.1 ha.2.2.2.2
  have := (Real.cos_eq_one_iff_of_lt_of_lt (by linarith) (by linarith)).1 hcos
  exact abs_pos.1 ha.2.2.2.1 (by linarith)

/-- Non-vacuity: a hinted line at the end of a path. -/
example : ∃ is : List Item, is.map Item.seg = [⟨.line ⟨⟨0, 0⟩, ⟨1, 0⟩⟩, {}⟩, ⟨.line ⟨⟨1, 0⟩, ⟨3, 0⟩⟩, { startA := some 0, endA := some 1, g1 := true }⟩] ∧
    is.flatMap Item.out = [⟨.line ⟨⟨0, 0⟩, ⟨1, 0⟩⟩, {}⟩, ⟨.line ⟨⟨1, 0⟩, ⟨3, 0⟩⟩, { startA := some 0, endA := some 1 }⟩] ∧ ∀ i ∈ is, i.Good (1 / 1000) (1 / 1000) (1 / 1000) := by
  have key : fixG1Path (1 / 1000 : ℝ) (1 / 1000) (1 / 1000) [⟨.line ⟨⟨0, 0⟩, ⟨1, 0⟩⟩, {}⟩, ⟨.line ⟨⟨1, 0⟩, ⟨3, 0⟩⟩, { startA := some 0, endA := some 1, g1 := true }⟩]
      = .ok [⟨.line ⟨⟨0, 0⟩, ⟨1, 0⟩⟩, {}⟩, ⟨.line ⟨⟨1, 0⟩, ⟨3, 0⟩⟩, { startA := some 0, endA := some 1 }⟩] := by
    have hb : (Bez.mk ⟨1, 0⟩ ⟨1, 0⟩ ⟨5 / 3, 0⟩ ⟨3, 0⟩ : Bez ℝ).biarcApproximation (1 / 1000) (1 / 1000) 1 (1 / 1000) = .ok [.line ⟨⟨1, 0⟩, ⟨3, 0⟩⟩] := by
      have e1 : (⟨1, 0⟩ : P ℝ).eq (1 / 1000) ⟨3, 0⟩ = false := by rw [eq_false_iff]; norm_num [sqDist]
      have e3 : (⟨3, 0⟩ : P ℝ).eq (1 / 1000) ⟨5 / 3, 0⟩ = false := by rw [eq_false_iff]; norm_num [sqDist]
      have hp : ∀ x : ℝ, x = 1 ∨ x = 5 / 3 → Line.distanceToPoint (1 / 1000) ⟨⟨1, 0⟩, ⟨3, 0⟩⟩ ⟨x, 0⟩ true = 0 := by
        intro x hx
        unfold Line.distanceToPoint
        have : Line.normalProjectionPoint (1 / 1000) ⟨⟨1, 0⟩, ⟨3, 0⟩⟩ ⟨x, 0⟩ true = ⟨x, 0⟩ := by
          unfold Line.normalProjectionPoint P.normalProjection
          rcases hx with rfl | rfl <;> norm_num [P.sub, P.add, P.mul, P.dot, P.length2]
        rw [this, distance_real]
        simp [sqDist]
      unfold Bez.biarcApproximation Bez.flatness
      simp only [e1, e3, Bool.and_false, Bool.false_eq_true, if_false, hp 1 (Or.inl rfl), hp (5 / 3) (Or.inr rfl)]
      norm_num [pmax]
    have hq : Bez.fromQuadratic (⟨1, 0⟩ : P ℝ) ⟨1, 0⟩ ⟨3, 0⟩ = ⟨⟨1, 0⟩, ⟨1, 0⟩, ⟨5 / 3, 0⟩, ⟨3, 0⟩⟩ := by
      norm_num [Bez.fromQuadratic, P.add, P.sub, P.mul]
    have hn : normalizeAngle (1 : ℝ) 0 = 1 := by
      obtain ⟨h1, h2, h3⟩ := C33_normalize_angle (1 : ℝ) 0
      have h4 : (PyFloat.pi : ℝ) = Real.pi := rfl
      have h5 := Real.two_le_pi
      rw [h4] at h2 h3
      exact sameDirection_unique (c := -Real.pi) h1 ⟨by linarith, by rw [h4]; linarith⟩ ⟨by linarith, by rw [h4]; linarith⟩
    have hlen : (Shape.line ⟨⟨1, 0⟩, ⟨3, 0⟩⟩ : Shape ℝ).lineArcLength = .ok 2 := by
      show Except.ok (Line.length _) = _
      rw [length_real]
      unfold segLen
      norm_num [sqDist]
      rw [show (4 : ℝ) = 2 ^ 2 by norm_num]; exact Real.sqrt_sq (by norm_num)
    unfold fixG1Path fixG1Loop
    simp only [Bool.false_eq_true, if_false]
    unfold fixG1Loop smoothingArcs smoothingCurve
    simp only [if_true, Option.map_none, Seg.p1, Seg.p2, Shape.p1, Shape.p2, bind, Except.bind, hq, hb, List.isEmpty_cons, Bool.false_eq_true, if_false, List.mapM_cons, List.mapM_nil, hlen, pure,
      Except.pure, Seg.startAngle, Seg.endAngle, Option.getD_some, List.foldl_cons, List.foldl_nil, real_add, real_sub, sub_zero, hn, pdiv, real_zero]
    norm_num [hintPieces, hn]
  obtain ⟨is, h1, h2, h3, -⟩ := C119_replaced_partial _ _ _ (by norm_num) (by norm_num) _ _ (by simp) key
  exact ⟨is, h1, h2.symm, h3⟩

/-- Non-vacuity of `C119_refuted`: a quarter of a circle and a line that goes on from it. -/
example : ∃ c q, smoothingCurve (1 / 1000) (.arc ⟨⟨1, 0⟩, ⟨0, 1⟩, 1, Real.pi / 2, ⟨0, 0⟩⟩) (some (.line ⟨⟨0, 1⟩, ⟨-1, 1⟩⟩)) (some ⟨1, 0⟩) 1 = .ok (c, q) ∧ c.p2 = ⟨0, 1⟩ ∧
    ¬ ∃ w n, 0 < n ∧ Arrives c w ∧ (⟨-1, 1⟩ : P ℝ) = ahead ⟨0, 1⟩ w n := by
  have hpi := Real.pi_pos
  have hpi2 := Real.pi_le_four
  have hq : 1 / 2 * (Real.pi / 2) = Real.pi / 4 := by ring
  have hmid : middleOf (.arc ⟨⟨1, 0⟩, ⟨0, 1⟩, 1, Real.pi / 2, ⟨0, 0⟩⟩) = ⟨√2 / 2, √2 / 2⟩ := by
    unfold middleOf
    apply P.ext_real <;> simp only [rotAbout, hq, Real.cos_pi_div_four, Real.sin_pi_div_four] <;> ring
  have hmid' : middleOf (.line ⟨⟨0, 1⟩, ⟨-1, 1⟩⟩) = ⟨-1 / 2, 1⟩ := by apply P.ext_real <;> norm_num [middleOf, segPt, Shape.p1, Shape.p2]
  have hs : 0 ≤ √2 := Real.sqrt_nonneg _
  refine C119_refuted (1 / 1000) (by norm_num) _ _ ?_ ?_ ?_ ?_ ?_ _
  · refine ⟨by norm_num [sqDist], ⟨by norm_num, by norm_num [sqDist], by norm_num [sqDist]⟩, one_pos, ?_, ?_⟩ <;> dsimp only <;> rw [abs_of_pos (by positivity)] <;> linarith
  · norm_num [Proper, sqDist]
  · refine ⟨rfl, ?_, ?_⟩
    · rw [hmid, hmid']
      intro h
      have := congrArg P.x h
      dsimp only at this
      linarith
    · show 1 / 1000 ≤ lengthOf (.line ⟨⟨0, 1⟩, ⟨-1, 1⟩⟩) / (lengthOf (.arc ⟨⟨1, 0⟩, ⟨0, 1⟩, 1, Real.pi / 2, ⟨0, 0⟩⟩) + lengthOf (.line ⟨⟨0, 1⟩, ⟨-1, 1⟩⟩)) *
        √(sqDist (middleOf (.arc ⟨⟨1, 0⟩, ⟨0, 1⟩, 1, Real.pi / 2, ⟨0, 0⟩⟩)) (middleOf (.line ⟨⟨0, 1⟩, ⟨-1, 1⟩⟩))) * (6 / 5 * 1)
      rw [hmid, hmid']
      have l1 : lengthOf (.line ⟨⟨0, 1⟩, ⟨-1, 1⟩⟩) = 1 := by norm_num [lengthOf, Shape.p1, Shape.p2, sqDist]
      have l2 : lengthOf (.arc ⟨⟨1, 0⟩, ⟨0, 1⟩, 1, Real.pi / 2, ⟨0, 0⟩⟩) = Real.pi / 2 := by
        simp only [lengthOf, one_mul]; exact abs_of_pos (by positivity)
      rw [l1, l2]
      have h1 : 1 / 2 ≤ √(sqDist ⟨√2 / 2, √2 / 2⟩ ⟨-1 / 2, 1⟩) := by
        apply Real.le_sqrt_of_sq_le
        simp only [sqDist]
        nlinarith [sq_nonneg (√2 / 2 - 1)]
      have h2 : 1 / 3 ≤ 1 / (Real.pi / 2 + 1) := by
        apply one_div_le_one_div_of_le (by positivity); linarith
      nlinarith [mul_le_mul h2 h1 (by norm_num) (by positivity)]
  · apply P.ext_real <;> simp [rotAbout]
  · norm_num

end Verif.Cam
