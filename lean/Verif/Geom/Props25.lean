import Verif.Geom.Outset
import Verif.Geom.Props22

/-!
# C193: the outlines of offset polygons
-/

set_option linter.unusedSectionVars false
set_option linter.unusedVariables false

namespace Verif.Geom
open Verif PyFloat PyTrig

/-! ## Specification -/

/-- Specification: the length of the side from `p` to `q`. -/
noncomputable def sideLen (p q : ℤ × ℤ) : ℝ := Real.sqrt (((q.1 - p.1 : ℤ) : ℝ) ^ 2 + ((q.2 - p.2 : ℤ) : ℝ) ^ 2)

/-- Specification: the point is `d` to the right of the line through `p` and `q` (outside, for the sides of a counter-clockwise polygon). -/
def RightOf (p q : ℤ × ℤ) (d : ℝ) (x : P ℝ) : Prop :=
  (x.x - p.1) * ((q.2 - p.2 : ℤ) : ℝ) - (x.y - p.2) * ((q.1 - p.1 : ℤ) : ℝ) = d * sideLen p q

/-- Specification: the vertex is the point, rounded to whole numbers. -/
def RoundedTo (g : ℤ × ℤ) (x : P ℝ) : Prop := Within (1 / 2) (gridPt 0 g) x

/-- Specification: twice the area of the triangle of three points, positive for a turn to the left. -/
def turnOf (p v q : ℤ × ℤ) : ℤ := (v.1 - p.1) * (q.2 - v.2) - (q.1 - v.1) * (v.2 - p.2)

/-- Specification: a corner that has been cut back to the vertex: the ends of both sides are moved by `d`, square to the sides, with the vertex between them. -/
def CutBack (d : ℝ) (p v q : ℤ × ℤ) (l : List (ℤ × ℤ)) : Prop :=
  ∃ g h x y, l = [g, v, h] ∧ RoundedTo g x ∧ RoundedTo h y ∧ RightOf p v d x ∧ RightOf v q d y ∧ sqDist x (gridPt 0 v) = d ^ 2 ∧ sqDist y (gridPt 0 v) = d ^ 2

/-- Specification: a mitered corner: the point where the two moved sides meet. -/
def Mitered (d : ℝ) (p v q : ℤ × ℤ) (l : List (ℤ × ℤ)) : Prop :=
  ∃ g x, l = [g] ∧ RoundedTo g x ∧ RightOf p v d x ∧ RightOf v q d x

/-- Specification: a squared corner: both sides are moved by `d`, and the corner is cut off by a line at the distance `d` from the vertex, square to the bisector `u`: its ends are as far from the vertex. -/
def SquaredOff (d : ℝ) (p v q : ℤ × ℤ) (l : List (ℤ × ℤ)) : Prop :=
  ∃ g h x y, l = [g, h] ∧ RoundedTo g x ∧ RoundedTo h y ∧ RightOf p v d x ∧ RightOf v q d y ∧ sqDist x (gridPt 0 v) = sqDist y (gridPt 0 v) ∧
    ∃ u : P ℝ, u.x ^ 2 + u.y ^ 2 = 1 ∧ (x.x - v.1) * u.x + (x.y - v.2) * u.y = d ∧ (y.x - v.1) * u.x + (y.y - v.2) * u.y = d

/-- Specification: no point of the corner is further than `R` from the vertex (before it is rounded). -/
def NearVertex (R : ℝ) (v : ℤ × ℤ) (l : List (ℤ × ℤ)) : Prop := ∀ g ∈ l, ∃ x, RoundedTo g x ∧ sqDist x (gridPt 0 v) ≤ R ^ 2

/-- Specification: the vertices of a polygon with their neighbours, from `p` on, ending before `f`. -/
def triplesFrom (p : ℤ × ℤ) : List (ℤ × ℤ) → ℤ × ℤ → List ((ℤ × ℤ) × (ℤ × ℤ) × (ℤ × ℤ))
  | [], _ => []
  | [v], f => [(p, v, f)]
  | v :: q :: r, f => (p, v, q) :: triplesFrom v (q :: r) f

/-- Specification: every vertex of a closed polygon with the one before and the one after it. -/
def triples : List (ℤ × ℤ) → List ((ℤ × ℤ) × (ℤ × ℤ) × (ℤ × ℤ))
  | [] => []
  | a :: l => triplesFrom ((a :: l).getLast (by simp)) (a :: l) a

/-! ## Corners -/

theorem sideLen_pos {p q : ℤ × ℤ} (h : p ≠ q) : 0 < sideLen p q := by
  unfold sideLen
  apply Real.sqrt_pos.2
  rcases eq_or_ne p.1 q.1 with h1 | h1
  · have h2 : p.2 ≠ q.2 := fun h2 => h (Prod.ext h1 h2)
    have : ((q.2 - p.2 : ℤ) : ℝ) ≠ 0 := by exact_mod_cast sub_ne_zero.2 h2.symm
    positivity
  · have : ((q.1 - p.1 : ℤ) : ℝ) ≠ 0 := by exact_mod_cast sub_ne_zero.2 h1.symm
    positivity

theorem sideLen_sq (p q : ℤ × ℤ) : sideLen p q ^ 2 = ((q.1 - p.1 : ℤ) : ℝ) ^ 2 + ((q.2 - p.2 : ℤ) : ℝ) ^ 2 := Real.sq_sqrt (by positivity)

theorem unitNormal_real {p q : ℤ × ℤ} (h : p ≠ q) :
    (unitNormal p q : P ℝ) = ⟨((q.2 - p.2 : ℤ) : ℝ) / sideLen p q, -((q.1 - p.1 : ℤ) : ℝ) / sideLen p q⟩ := by
  unfold unitNormal
  rw [if_neg h]
  apply P.ext_real
  · simp only [real_mul, real_div, real_one, real_hypot, real_ofInt, sideLen]; ring
  · simp only [real_mul, real_div, real_one, real_hypot, real_ofInt, real_neg, sideLen]; ring

theorem unitNormal_unit {p q : ℤ × ℤ} (h : p ≠ q) : (unitNormal p q : P ℝ).x ^ 2 + (unitNormal p q : P ℝ).y ^ 2 = 1 := by
  have h0 := sideLen_pos h
  have h1 := sideLen_sq p q
  rw [unitNormal_real h]
  simp only
  field_simp
  rw [h1]; ring

/-- A point is beside a side as far as it is from an end of it in the direction of the normal. -/
theorem rightOf_second {p v : ℤ × ℤ} (h : p ≠ v) {d : ℝ} {x : P ℝ} (hx : (unitNormal p v : P ℝ).x * (x.x - v.1) + (unitNormal p v : P ℝ).y * (x.y - v.2) = d) : RightOf p v d x := by
  have h0 := sideLen_pos h
  rw [unitNormal_real h] at hx
  simp only at hx
  unfold RightOf
  rw [← hx]
  field_simp
  push_cast
  ring

theorem rightOf_first {v q : ℤ × ℤ} (h : v ≠ q) {d : ℝ} {x : P ℝ} (hx : (unitNormal v q : P ℝ).x * (x.x - v.1) + (unitNormal v q : P ℝ).y * (x.y - v.2) = d) : RightOf v q d x := by
  have h0 := sideLen_pos h
  rw [unitNormal_real h] at hx
  simp only at hx
  unfold RightOf
  rw [← hx]
  field_simp
  ring

theorem cornerSin_real {a b : P ℝ} (ha : a.x ^ 2 + a.y ^ 2 = 1) (hb : b.x ^ 2 + b.y ^ 2 = 1) : cornerSin a b = a.x * b.y - b.x * a.y := by
  have h : (a.x * b.y - b.x * a.y) ^ 2 ≤ 1 := by nlinarith [sq_nonneg (a.x * b.x + a.y * b.y)]
  have h' := abs_le.1 ((sq_le_one_iff_abs_le_one _).1 h)
  unfold cornerSin
  simp only [real_mul, real_sub, real_lt, real_one, real_neg, decide_eq_true_eq]
  rw [if_neg (not_lt.2 h'.2), if_neg (not_lt.2 h'.1)]

theorem cornerSin_turn {p v q : ℤ × ℤ} (h1 : p ≠ v) (h2 : v ≠ q) : cornerSin (unitNormal p v : P ℝ) (unitNormal v q) = turnOf p v q / (sideLen p v * sideLen v q) := by
  rw [cornerSin_real (unitNormal_unit h1) (unitNormal_unit h2), unitNormal_real h1, unitNormal_real h2]
  have := sideLen_pos h1
  have := sideLen_pos h2
  simp only [turnOf]
  field_simp
  push_cast
  ring

theorem roundPt_near (x y : ℝ) : RoundedTo (roundPt x y) ⟨x, y⟩ := by
  refine ⟨?_, ?_⟩ <;> simp only [gridPt, roundPt, pow_zero, div_one] <;> exact roundAway_near _

theorem gridPt0 (v : ℤ × ℤ) : gridPt 0 v = ⟨(v.1 : ℝ), (v.2 : ℝ)⟩ := by simp [gridPt]

/-- The corners that are cut back. -/
theorem cutBack_ok {p v q : ℤ × ℤ} (h1 : p ≠ v) (h2 : v ≠ q) (d : ℝ) :
    CutBack d p v q [movedPt v (unitNormal p v) d, v, movedPt v (unitNormal v q) d] ∧ NearVertex d v [movedPt v (unitNormal p v) d, v, movedPt v (unitNormal v q) d] := by
  have ha := unitNormal_unit h1
  have hb := unitNormal_unit h2
  have e1 : ∀ n : P ℝ, RoundedTo (movedPt v n d) ⟨v.1 + n.x * d, v.2 + n.y * d⟩ := fun n => by
    unfold movedPt; simpa using roundPt_near (v.1 + n.x * d) (v.2 + n.y * d)
  have e2 : ∀ n : P ℝ, n.x ^ 2 + n.y ^ 2 = 1 → sqDist ⟨v.1 + n.x * d, v.2 + n.y * d⟩ (gridPt 0 v) = d ^ 2 := fun n hn => by
    rw [gridPt0]; simp only [sqDist]; linear_combination d ^ 2 * hn
  refine ⟨⟨_, _, _, _, rfl, e1 _, e1 _, rightOf_second h1 ?_, rightOf_first h2 ?_, e2 _ ha, e2 _ hb⟩, ?_⟩
  · simp only; linear_combination d * ha
  · simp only; linear_combination d * hb
  · intro g hg
    simp only [List.mem_cons, List.not_mem_nil, or_false] at hg
    rcases hg with rfl | rfl | rfl
    · exact ⟨_, e1 _, (e2 _ ha).le⟩
    · refine ⟨gridPt 0 g, ⟨by simp, by simp⟩, ?_⟩
      simp only [sqDist, sub_self]; nlinarith [sq_nonneg d]
    · exact ⟨_, e1 _, (e2 _ hb).le⟩

/-- The mitered corners. -/
theorem mitered_ok {p v q : ℤ × ℤ} (h1 : p ≠ v) (h2 : v ≠ q) (d r m : ℝ) (hm : 0 < m) (hmr : m ≤ r)
    (hr : r = 1 + ((unitNormal v q : P ℝ).x * (unitNormal p v : P ℝ).x + (unitNormal v q : P ℝ).y * (unitNormal p v : P ℝ).y)) (R : ℝ) (hR : 2 ≤ R ^ 2 * m) :
    Mitered d p v q (miterCorner d r v (unitNormal p v) (unitNormal v q)) ∧ NearVertex (R * d) v (miterCorner d r v (unitNormal p v) (unitNormal v q)) := by
  have ha := unitNormal_unit h1
  have hb := unitNormal_unit h2
  have hr0 : 0 < r := by linarith
  generalize hk : (unitNormal p v : P ℝ) = a at *
  generalize hj : (unitNormal v q : P ℝ) = b at *
  have e1 : RoundedTo (roundPt (v.1 + (a.x + b.x) * (d / r)) (v.2 + (a.y + b.y) * (d / r))) ⟨v.1 + (a.x + b.x) * (d / r), v.2 + (a.y + b.y) * (d / r)⟩ := roundPt_near _ _
  have e0 : miterCorner d r v a b = [roundPt (v.1 + (a.x + b.x) * (d / r)) (v.2 + (a.y + b.y) * (d / r))] := by simp [miterCorner]
  have hq : d / r * r = d := by field_simp
  rw [e0]
  refine ⟨⟨_, _, rfl, e1, rightOf_second h1 ?_, rightOf_first h2 ?_⟩, ?_⟩
  · rw [hk]; simp only; linear_combination (d / r) * ha - (d / r) * hr + hq
  · rw [hj]; simp only; linear_combination (d / r) * hb - (d / r) * hr + hq
  · intro g hg
    rw [List.mem_singleton] at hg
    subst hg
    refine ⟨_, e1, ?_⟩
    rw [gridPt0]
    have : sqDist (⟨v.1 + (a.x + b.x) * (d / r), v.2 + (a.y + b.y) * (d / r)⟩ : P ℝ) ⟨v.1, v.2⟩ = 2 * d ^ 2 / r := by
      have : sqDist (⟨v.1 + (a.x + b.x) * (d / r), v.2 + (a.y + b.y) * (d / r)⟩ : P ℝ) ⟨v.1, v.2⟩ = 2 * (d / r) ^ 2 * r := by
        simp only [sqDist]; linear_combination (d / r) ^ 2 * ha + (d / r) ^ 2 * hb - 2 * (d / r) ^ 2 * hr
      rw [this]; field_simp
    rw [this, div_le_iff₀ hr0]
    have : R ^ 2 * m ≤ R ^ 2 * r := mul_le_mul_of_nonneg_left hmr (sq_nonneg _)
    nlinarith [sq_nonneg d]

/-- The squared corners. -/
theorem squared_ok {p v q : ℤ × ℤ} (h1 : p ≠ v) (h2 : v ≠ q) (d : ℝ) :
    SquaredOff d p v q (squareCorner d v (unitNormal p v) (unitNormal v q)) ∧
      ∀ R : ℝ, 2 ≤ R ^ 2 → NearVertex (R * d) v (squareCorner d v (unitNormal p v) (unitNormal v q)) := by
  have ha := unitNormal_unit h1
  have hb := unitNormal_unit h2
  have hs := cornerSin_real ha hb
  generalize hk : (unitNormal p v : P ℝ) = a at *
  generalize hj : (unitNormal v q : P ℝ) = b at *
  obtain ⟨c1, c2⟩ := atan2_cos_sin (x := a.x * b.x + a.y * b.y) (y := a.x * b.y - b.x * a.y) one_pos
    (by linear_combination (b.x ^ 2 + b.y ^ 2) * ha + hb)
  have hrange := atan2_range (a.x * b.y - b.x * a.y) (a.x * b.x + a.y * b.y)
  rw [div_one] at c1 c2
  set A := PyTrig.atan2 (a.x * b.y - b.x * a.y) (a.x * b.x + a.y * b.y) with hA
  set θ := A / 4 with hθ
  set t := Real.tan θ with ht
  have hpp := Real.pi_pos
  have hcos2 : 0 ≤ Real.cos (2 * θ) := Real.cos_nonneg_of_neg_pi_div_two_le_of_le (by linarith [hrange.1]) (by linarith [hrange.2])
  have hcosp : 0 < Real.cos θ := Real.cos_pos_of_mem_Ioo ⟨by linarith [hrange.1], by linarith [hrange.2]⟩
  have hc : t * Real.cos θ = Real.sin θ := Real.tan_mul_cos hcosp.ne'
  have hsc := Real.sin_sq_add_cos_sq θ
  have ht1 : t ^ 2 ≤ 1 := by
    rw [Real.cos_two_mul] at hcos2
    have h3 : t ^ 2 * Real.cos θ ^ 2 = Real.sin θ ^ 2 := by rw [← hc]; ring
    have h4 : t ^ 2 * Real.cos θ ^ 2 ≤ 1 * Real.cos θ ^ 2 := by rw [h3]; linarith
    exact le_of_mul_le_mul_right h4 (by positivity)
  -- the second normal is the first, turned by `4θ`
  have hc4 : a.x * b.x + a.y * b.y = Real.cos (2 * (2 * θ)) := by rw [← c1]; congr 1; rw [hθ]; ring
  have hs4 : a.x * b.y - b.x * a.y = Real.sin (2 * (2 * θ)) := by rw [← c2]; congr 1; rw [hθ]; ring
  have hbx : b.x = a.x * Real.cos (2 * (2 * θ)) - a.y * Real.sin (2 * (2 * θ)) := by rw [← hc4, ← hs4]; linear_combination -b.x * ha
  have hby : b.y = a.y * Real.cos (2 * (2 * θ)) + a.x * Real.sin (2 * (2 * θ)) := by rw [← hc4, ← hs4]; linear_combination -b.y * ha
  have e0 : squareCorner d v a b = [roundPt (v.1 + d * (a.x - a.y * t)) (v.2 + d * (a.y + a.x * t)), roundPt (v.1 + d * (b.x + b.y * t)) (v.2 + d * (b.y - b.x * t))] := by
    unfold squareCorner
    rw [hs]
    simp only [real_mul, real_add, real_sub, real_ofInt, real_div, real_tan, ← hA]
    norm_num [ht, hθ]
  rw [e0]
  have l1 : sqDist (⟨v.1 + d * (a.x - a.y * t), v.2 + d * (a.y + a.x * t)⟩ : P ℝ) ⟨v.1, v.2⟩ = d ^ 2 * (1 + t ^ 2) := by
    simp only [sqDist]; linear_combination d ^ 2 * (1 + t ^ 2) * ha
  have l2 : sqDist (⟨v.1 + d * (b.x + b.y * t), v.2 + d * (b.y - b.x * t)⟩ : P ℝ) ⟨v.1, v.2⟩ = d ^ 2 * (1 + t ^ 2) := by
    simp only [sqDist]; linear_combination d ^ 2 * (1 + t ^ 2) * hb
  have key : Real.cos (2 * θ) + t * Real.sin (2 * θ) = 1 := by
    rw [Real.cos_two_mul, Real.sin_two_mul]
    linear_combination 2 * Real.sin θ * hc + 2 * hsc
  have key2 : ∀ z w : ℝ, z ^ 2 + w ^ 2 = 1 → (a.x * z - a.y * w) ^ 2 + (a.y * z + a.x * w) ^ 2 = 1 := fun z w h => by linear_combination (z ^ 2 + w ^ 2) * ha + h
  refine ⟨⟨_, _, _, _, rfl, roundPt_near _ _, roundPt_near _ _, rightOf_second h1 ?_, rightOf_first h2 ?_, by rw [gridPt0, l1, l2],
    ⟨a.x * Real.cos (2 * θ) - a.y * Real.sin (2 * θ), a.y * Real.cos (2 * θ) + a.x * Real.sin (2 * θ)⟩,
    key2 _ _ (by linear_combination Real.sin_sq_add_cos_sq (2 * θ)), ?_, ?_⟩, ?_⟩
  · rw [hk]; simp only; linear_combination d * ha
  · rw [hj]; simp only; linear_combination d * hb
  · simp only; linear_combination d * (Real.cos (2 * θ) + t * Real.sin (2 * θ)) * ha + d * key
  · simp only
    rw [hbx, hby, Real.cos_two_mul (2 * θ), Real.sin_two_mul (2 * θ)]
    have h22 := Real.sin_sq_add_cos_sq (2 * θ)
    linear_combination d * (Real.cos (2 * θ) + t * Real.sin (2 * θ)) * ha + d * key +
      d * (a.x ^ 2 + a.y ^ 2) * (2 * Real.cos (2 * θ)) * h22 - 0 * h22
  · intro R hR g hg
    have hle : d ^ 2 * (1 + t ^ 2) ≤ (R * d) ^ 2 := by
      have := mul_le_mul_of_nonneg_left (show 1 + t ^ 2 ≤ R ^ 2 by linarith) (sq_nonneg d)
      linarith [mul_pow R d 2]
    simp only [List.mem_cons, List.not_mem_nil, or_false] at hg
    rcases hg with rfl | rfl
    · exact ⟨_, roundPt_near _ _, by rw [gridPt0, l1]; exact hle⟩
    · exact ⟨_, roundPt_near _ _, by rw [gridPt0, l2]; exact hle⟩

/-- Specification: how far from a vertex the points of a corner may be, in multiples of the offset: the limit for mitered corners (at least 2), the square root of 2 for squared ones. -/
noncomputable def cornerReach (jt : ℤ) (limit : ℝ) : ℝ := if jt = 2 then max 2 limit else Real.sqrt 2

/-- Specification: the cosine of the turn at a vertex. -/
noncomputable def cosTurn (p v q : ℤ × ℤ) : ℝ := ((v.1 - p.1) * (q.1 - v.1) + (v.2 - p.2) * (q.2 - v.2) : ℤ) / (sideLen p v * sideLen v q)

/-- Specification: the points that stand for the corner at `v` between `p` and `q` when the sides are moved by `d`: cut back where the polygon turns away from the offset; otherwise squared
off, or mitered if the mitered corner is within the limit. -/
structure MovedCorner (jt : ℤ) (limit d : ℝ) (p v q : ℤ × ℤ) (l : List (ℤ × ℤ)) : Prop where
  near : NearVertex (cornerReach jt limit * d) v l
  back : turnOf p v q * d < 0 → CutBack d p v q l
  squared : 0 ≤ turnOf p v q * d → jt = 0 → SquaredOff d p v q l
  mitered : 0 ≤ turnOf p v q * d → jt = 2 → 2 ≤ max 2 limit ^ 2 * (1 + cosTurn p v q) → Mitered d p v q l
  tooFar : 0 ≤ turnOf p v q * d → jt = 2 → max 2 limit ^ 2 * (1 + cosTurn p v q) < 2 → SquaredOff d p v q l

theorem cosTurn_eq {p v q : ℤ × ℤ} (h1 : p ≠ v) (h2 : v ≠ q) :
    (unitNormal v q : P ℝ).x * (unitNormal p v : P ℝ).x + (unitNormal v q : P ℝ).y * (unitNormal p v : P ℝ).y = cosTurn p v q := by
  rw [unitNormal_real h1, unitNormal_real h2]
  have := sideLen_pos h1
  have := sideLen_pos h2
  simp only [cosTurn]
  field_simp
  push_cast
  ring

theorem miterLimit_real (limit : ℝ) : 0 < miterLimit limit ∧ max 2 limit ^ 2 * miterLimit limit = 2 := by
  unfold miterLimit
  simp only [real_lt, real_ofInt, real_div, real_mul, decide_eq_true_eq, Int.cast_ofNat]
  by_cases h : 2 < limit
  · rw [if_pos h, max_eq_right h.le]
    have : 0 < limit := by linarith
    exact ⟨by positivity, by field_simp⟩
  · rw [if_neg h, max_eq_left (not_lt.1 h)]
    norm_num [real_lit]

/-- **C193**, one corner: whatever the two sides, the offset and the limit, squared and mitered corners are as specified, without exceptions. -/
theorem C193_corner (jt : ℤ) (hj : jt = 0 ∨ jt = 2) (limit d : ℝ) {p v q : ℤ × ℤ} (h1 : p ≠ v) (h2 : v ≠ q) :
    ∃ l, cornerPts jt (miterLimit limit) d v (unitNormal p v) (unitNormal v q) = .ok l ∧ l ≠ [] ∧ MovedCorner jt limit d p v q l := by
  have hp : 0 < sideLen p v * sideLen v q := mul_pos (sideLen_pos h1) (sideLen_pos h2)
  have hsin : cornerSin (unitNormal p v : P ℝ) (unitNormal v q) * d = turnOf p v q * d / (sideLen p v * sideLen v q) := by rw [cornerSin_turn h1 h2]; ring
  have hneg : cornerSin (unitNormal p v : P ℝ) (unitNormal v q) * d < 0 ↔ turnOf p v q * d < 0 := by rw [hsin, div_lt_iff₀ hp, zero_mul]
  have hR : 2 ≤ cornerReach jt limit ^ 2 ∧ 1 ≤ cornerReach jt limit ^ 2 := by
    have : 2 ≤ cornerReach jt limit ^ 2 := by
      unfold cornerReach
      split
      · have := le_max_left 2 limit; nlinarith
      · rw [Real.sq_sqrt (by norm_num)]
    exact ⟨this, by linarith⟩
  obtain ⟨s1, s2⟩ := squared_ok h1 h2 d
  obtain ⟨m0, m1⟩ := miterLimit_real limit
  unfold cornerPts
  simp only [real_lt, real_mul, real_zero, decide_eq_true_eq, hneg]
  by_cases hb : turnOf p v q * d < 0
  · rw [if_pos hb]
    obtain ⟨c1, c2⟩ := cutBack_ok h1 h2 d
    refine ⟨_, rfl, by simp, ⟨?_, fun _ => c1, fun h => absurd hb (not_lt.2 h), fun h => absurd hb (not_lt.2 h), fun h => absurd hb (not_lt.2 h)⟩⟩
    intro g hg
    obtain ⟨x, hx1, hx2⟩ := c2 g hg
    refine ⟨x, hx1, hx2.trans ?_⟩
    rw [mul_pow]; nlinarith [sq_nonneg d, hR.2]
  · rw [if_neg hb]
    rcases hj with rfl | rfl
    · rw [if_neg (by decide), if_pos rfl]
      exact ⟨_, rfl, by simp [squareCorner], ⟨s2 _ hR.1, fun h => absurd h hb, fun _ _ => s1, fun _ h => absurd h (by decide), fun _ h => absurd h (by decide)⟩⟩
    · rw [if_pos rfl]
      simp only [real_le, real_add, real_one, cosTurn_eq h1 h2, decide_eq_true_eq]
      have hmax : 0 < max 2 limit ^ 2 := by have := le_max_left 2 limit; positivity
      by_cases hm : miterLimit limit ≤ 1 + cosTurn p v q
      · rw [if_pos hm]
        obtain ⟨t1, t2⟩ := mitered_ok h1 h2 d (1 + cosTurn p v q) (miterLimit limit) m0 hm (by rw [cosTurn_eq h1 h2]) (max 2 limit) m1.ge
        refine ⟨_, rfl, by simp [miterCorner], ⟨?_, fun h => absurd h hb, fun _ h => absurd h (by decide), fun _ _ _ => t1, fun _ _ h => ?_⟩⟩
        · unfold cornerReach; rw [if_pos rfl]; exact t2
        · exfalso
          have := mul_le_mul_of_nonneg_left hm hmax.le
          linarith
      · rw [if_neg hm]
        refine ⟨_, rfl, by simp [squareCorner], ⟨s2 _ hR.1, fun h => absurd h hb, fun _ h => absurd h (by decide), fun _ _ h => ?_, fun _ _ _ => s1⟩⟩
        exfalso
        have := mul_lt_mul_of_pos_left (not_le.1 hm) hmax
        linarith

/-! ## Outlines -/

/-- The corners of the model are those of the specification. -/
theorem zip_triples (l : List (ℤ × ℤ)) : ∀ (v p f : ℤ × ℤ),
    ((v :: l).zip (pairsFrom (unitNormal p v : P ℝ) (List.zipWith unitNormal (v :: l) (l ++ [f])))) =
      (triplesFrom p (v :: l) f).map fun t => (t.2.1, unitNormal t.1 t.2.1, unitNormal t.2.1 t.2.2) := by
  induction l with
  | nil => intro v p f; rfl
  | cons q r ih =>
    intro v p f
    have := ih q v f
    simp only [triplesFrom, List.map_cons, ← this]
    rfl

theorem zipWith_last (l : List (ℤ × ℤ)) : ∀ (v f : ℤ × ℤ),
    (List.zipWith (unitNormal (K := ℝ)) (v :: l) (l ++ [f])).getLast? = some (unitNormal ((v :: l).getLast (by simp)) f) := by
  induction l with
  | nil => intro v f; rfl
  | cons q r ih =>
    intro v f
    have := ih q f
    have e : List.zipWith (unitNormal (K := ℝ)) (v :: q :: r) (q :: r ++ [f]) = unitNormal v q :: List.zipWith unitNormal (q :: r) (r ++ [f]) := rfl
    rw [e, List.getLast?_cons, this]
    simp

theorem corners_eq (pts : List (ℤ × ℤ)) :
    pts.zip (cycPairs (normals pts : List (P ℝ))) = (triples pts).map fun t => (t.2.1, unitNormal t.1 t.2.1, unitNormal t.2.1 t.2.2) := by
  cases pts with
  | nil => rfl
  | cons a l =>
    have e : (normals (a :: l) : List (P ℝ)) = List.zipWith unitNormal (a :: l) (l ++ [a]) := rfl
    unfold cycPairs triples
    rw [e, zipWith_last]
    exact zip_triples l a _ a

theorem triplesFrom_mid (l : List (ℤ × ℤ)) : ∀ (v p f : ℤ × ℤ), (triplesFrom p (v :: l) f).map (fun t => t.2.1) = v :: l := by
  induction l with
  | nil => intro v p f; rfl
  | cons q r ih => intro v p f; simp only [triplesFrom, List.map_cons, ih q v f]

theorem triples_mid (pts : List (ℤ × ℤ)) : (triples pts).map (fun t => t.2.1) = pts := by
  cases pts with
  | nil => rfl
  | cons a l => exact triplesFrom_mid l a _ a

/-- Neighbours are different: both sides of every corner have a length. -/
theorem triplesFrom_sides (l : List (ℤ × ℤ)) : ∀ (v p f : ℤ × ℤ), (∀ e ∈ pairsFrom p (v :: l), e.1 ≠ e.2) → (v :: l).getLast (by simp) ≠ f →
    ∀ t ∈ triplesFrom p (v :: l) f, t.1 ≠ t.2.1 ∧ t.2.1 ≠ t.2.2 := by
  induction l with
  | nil =>
    intro v p f h1 h2 t ht
    simp only [triplesFrom, List.mem_singleton] at ht
    subst ht
    exact ⟨h1 (p, v) (by simp [pairsFrom]), h2⟩
  | cons q r ih =>
    intro v p f h1 h2 t ht
    simp only [triplesFrom, List.mem_cons] at ht
    rcases ht with rfl | ht
    · exact ⟨h1 (p, v) (by simp [pairsFrom]), h1 (v, q) (by simp [pairsFrom])⟩
    · exact ih q v f (fun e he => h1 e (by simp only [pairsFrom, List.mem_cons] at he ⊢; exact .inr he)) (by simpa using h2) t ht

theorem triples_sides (pts : List (ℤ × ℤ)) (h : ∀ e ∈ cycPairs pts, e.1 ≠ e.2) : ∀ t ∈ triples pts, t.1 ≠ t.2.1 ∧ t.2.1 ≠ t.2.2 := by
  cases pts with
  | nil => intro t ht; simp [triples] at ht
  | cons a l =>
    have e : cycPairs (a :: l) = pairsFrom ((a :: l).getLast (by simp)) (a :: l) := by
      unfold cycPairs; rw [List.getLast?_eq_getLast_of_ne_nil (by simp)]
    rw [e] at h
    exact triplesFrom_sides l a _ a h (h (_, a) (by simp [pairsFrom]))

theorem cornersLoop_ok (jt : ℤ) (hj : jt = 0 ∨ jt = 2) (limit d : ℝ) (ts : List ((ℤ × ℤ) × (ℤ × ℤ) × (ℤ × ℤ))) (h : ∀ t ∈ ts, t.1 ≠ t.2.1 ∧ t.2.1 ≠ t.2.2) :
    ∃ cs : List (List (ℤ × ℤ)), cornersLoop jt (miterLimit limit) d (ts.map fun t => (t.2.1, unitNormal t.1 t.2.1, unitNormal t.2.1 t.2.2)) = .ok cs.flatten ∧
      List.Forall₂ (fun t l => l ≠ [] ∧ MovedCorner jt limit d t.1 t.2.1 t.2.2 l) ts cs := by
  induction ts with
  | nil => exact ⟨[], rfl, .nil⟩
  | cons t ts ih =>
    obtain ⟨cs, h1, h2⟩ := ih fun t ht => h t (List.mem_cons_of_mem _ ht)
    obtain ⟨l, h3, h4⟩ := C193_corner jt hj limit d (h t (by simp)).1 (h t (by simp)).2
    refine ⟨l :: cs, ?_, .cons h4 h2⟩
    simp only [List.map_cons, cornersLoop, h3, h1, bind, Except.bind, pure, Except.pure, List.flatten_cons]

/-- **C193**, the outline: for every polygon of at least three vertices, neighbours different, every offset but 0 and every limit, the outline made for squared or mitered corners consists of the corners of the polygon in
their order, each moved as specified: between two of them runs the side, moved by the offset. There are no exceptions. -/
theorem C193_outline (jt : ℤ) (hj : jt = 0 ∨ jt = 2) (limit d : ℝ) (pts : List (ℤ × ℤ)) (h3 : 3 ≤ pts.length) (h : ∀ e ∈ cycPairs pts, e.1 ≠ e.2) :
    ∃ cs : List (List (ℤ × ℤ)), outsetRing jt (miterLimit limit) d pts = .ok (some cs.flatten) ∧
      List.Forall₂ (fun t l => l ≠ [] ∧ MovedCorner jt limit d t.1 t.2.1 t.2.2 l) (triples pts) cs := by
  have hopen : openPts pts = pts := by
    cases pts with
    | nil => rfl
    | cons a l =>
      unfold openPts
      rw [List.getLast?_eq_getLast_of_ne_nil (by simp)]
      simp only [List.head?_cons]
      rw [if_neg]
      have e : cycPairs (a :: l) = pairsFrom ((a :: l).getLast (by simp)) (a :: l) := by
        unfold cycPairs; rw [List.getLast?_eq_getLast_of_ne_nil (by simp)]
      rw [e] at h
      exact fun hc => h (_, a) (by simp [pairsFrom]) hc.symm
  obtain ⟨cs, h1, h2⟩ := cornersLoop_ok jt hj limit d _ (triples_sides pts h)
  refine ⟨cs, ?_, h2⟩
  unfold outsetRing
  rw [if_neg, if_neg (by omega), hopen, corners_eq, h1]
  · rfl
  · simp only [Bool.or_eq_true, decide_eq_true_eq, Bool.and_eq_true, not_or, not_and]
    exact ⟨by omega, fun hh => absurd hh (by omega)⟩

/-! ### The distance from the polygon -/

theorem pairsFrom_concat {α : Type} (l r : List α) : ∀ a : α, pairsFrom a (l ++ r) = pairsFrom a l ++ pairsFrom (l.getLast?.getD a) r := by
  induction l with
  | nil => intro a; rfl
  | cons b l ih =>
    intro a
    simp only [List.cons_append, pairsFrom, ih b, List.getLast?_cons, Option.getD_some]

theorem pairsFrom_mem {α : Type} (l : List α) : ∀ (a : α), ∀ e ∈ pairsFrom a l, e.1 ∈ a :: l ∧ e.2 ∈ l := by
  induction l with
  | nil => intro a e he; simp [pairsFrom] at he
  | cons b l ih =>
    intro a e he
    simp only [pairsFrom, List.mem_cons] at he
    rcases he with rfl | he
    · exact ⟨by simp, by simp⟩
    · have := ih b e he
      exact ⟨List.mem_cons_of_mem _ this.1, List.mem_cons_of_mem _ this.2⟩

/-- The sides of an outline go from points near a vertex to points near the same vertex or the next one. -/
theorem steps_near {W : ℤ × ℤ → ℤ × ℤ → Prop} {pts : List (ℤ × ℤ)} {cs : List (List (ℤ × ℤ))} (h : List.Forall₂ (fun v l => l ≠ [] ∧ ∀ g ∈ l, W g v) pts cs) :
    ∀ (p g0 : ℤ × ℤ), W g0 p → ∀ e ∈ pairsFrom g0 cs.flatten, ∃ u w, ((u = w ∧ w ∈ pts) ∨ (u, w) ∈ pairsFrom p pts) ∧ W e.1 u ∧ W e.2 w := by
  induction h with
  | nil => intro p g0 _ e he; simp [pairsFrom] at he
  | @cons v l pts cs hv _ ih =>
    intro p g0 h0 e he
    obtain ⟨hne, hw⟩ := hv
    rw [List.flatten_cons, pairsFrom_concat, List.mem_append] at he
    rcases he with he | he
    · cases l with
      | nil => exact absurd rfl hne
      | cons b l =>
        simp only [pairsFrom, List.mem_cons] at he
        rcases he with rfl | he
        · exact ⟨p, v, .inr (by simp [pairsFrom]), h0, hw _ (by simp)⟩
        · have := pairsFrom_mem l b e he
          exact ⟨v, v, .inl ⟨rfl, by simp⟩, hw _ this.1, hw _ (List.mem_cons_of_mem _ this.2)⟩
    · have hlast : W (l.getLast?.getD g0) v := by
        rw [List.getLast?_eq_getLast_of_ne_nil hne]
        exact hw _ (List.getLast_mem hne)
      obtain ⟨u, w, h1, h2⟩ := ih v _ hlast e he
      refine ⟨u, w, ?_, h2⟩
      rcases h1 with ⟨h1, h3⟩ | h1
      · exact .inl ⟨h1, List.mem_cons_of_mem _ h3⟩
      · exact .inr (by simp only [pairsFrom, List.mem_cons]; exact .inr h1)

theorem last_near {W : ℤ × ℤ → ℤ × ℤ → Prop} {pts : List (ℤ × ℤ)} {cs : List (List (ℤ × ℤ))} (h : List.Forall₂ (fun v l => l ≠ [] ∧ ∀ g ∈ l, W g v) pts cs) :
    ∀ g, cs.flatten.getLast? = some g → ∃ z, pts.getLast? = some z ∧ W g z := by
  induction h with
  | nil => intro g hg; simp at hg
  | @cons v l pts cs hv ht ih =>
    intro g hg
    obtain ⟨hne, hw⟩ := hv
    rw [List.flatten_cons, List.getLast?_append] at hg
    cases hc : cs.flatten.getLast? with
    | some g' =>
      rw [hc] at hg
      cases hg
      obtain ⟨z, h1, h2⟩ := ih _ hc
      exact ⟨z, by rw [List.getLast?_cons, h1]; rfl, h2⟩
    | none =>
      rw [hc] at hg
      have hcs : cs.flatten = [] := List.getLast?_eq_none_iff.1 hc
      have : pts = [] := by
        cases ht with
        | nil => rfl
        | @cons v' l' pts' cs' hv' _ =>
          rw [List.flatten_cons, List.append_eq_nil_iff] at hcs
          exact absurd hcs.1 hv'.1
      subst this
      refine ⟨v, rfl, hw _ ?_⟩
      have hg' : l.getLast? = some g := by simpa using hg
      exact List.mem_of_getLast? hg'

theorem cycSteps_near {W : ℤ × ℤ → ℤ × ℤ → Prop} {pts : List (ℤ × ℤ)} {cs : List (List (ℤ × ℤ))} (h : List.Forall₂ (fun v l => l ≠ [] ∧ ∀ g ∈ l, W g v) pts cs) :
    ∀ e ∈ cycPairs cs.flatten, ∃ u w, ((u = w ∧ w ∈ pts) ∨ (u, w) ∈ cycPairs pts) ∧ W e.1 u ∧ W e.2 w := by
  intro e he
  unfold cycPairs at he
  cases hg : cs.flatten.getLast? with
  | none => rw [hg] at he; simp at he
  | some g =>
    rw [hg] at he
    obtain ⟨z, h1, h2⟩ := last_near h g hg
    have := steps_near h z g h2 e he
    unfold cycPairs
    rw [h1]
    exact this

theorem vertex_onRing {vs : List (P ℝ)} {v : P ℝ} (h : v ∈ vs) : OnRing vs v := by
  have : ∀ (l : List (P ℝ)) (a : P ℝ), v ∈ l → ∃ e ∈ pairsFrom a l, e.2 = v := by
    intro l
    induction l with
    | nil => intro a h; simp at h
    | cons b l ih =>
      intro a h
      rcases List.mem_cons.mp h with rfl | h
      · exact ⟨(a, v), by simp [pairsFrom], rfl⟩
      · obtain ⟨e, he, h'⟩ := ih b h
        exact ⟨e, by simp [pairsFrom, he], h'⟩
  unfold OnRing cycPairs
  rcases hl : vs.getLast? with _ | z
  · rw [List.getLast?_eq_none_iff] at hl; rw [hl] at h; simp at h
  · obtain ⟨e, he, hev⟩ := this vs z h
    refine ⟨e, he, 1, by norm_num, le_rfl, ?_⟩
    rw [← hev]; unfold segPt
    refine P.ext ?_ ?_ <;> simp

theorem within_comb {c t : ℝ} (h0 : 0 ≤ t) (h1 : t ≤ 1) {a b u w : P ℝ} (ha : Within c a u) (hb : Within c b w) : Within c (segPt ⟨a, b⟩ t) (segPt ⟨u, w⟩ t) := by
  have key : ∀ a b u w : ℝ, |a - u| ≤ c → |b - w| ≤ c → |a + t * (b - a) - (u + t * (w - u))| ≤ c := by
    intro a b u w h2 h3
    have e : a + t * (b - a) - (u + t * (w - u)) = (1 - t) * (a - u) + t * (b - w) := by ring
    rw [e]
    calc _ ≤ |(1 - t) * (a - u)| + |t * (b - w)| := abs_add_le _ _
      _ = (1 - t) * |a - u| + t * |b - w| := by rw [abs_mul, abs_mul, abs_of_nonneg (by linarith : 0 ≤ 1 - t), abs_of_nonneg h0]
      _ ≤ (1 - t) * c + t * c := add_le_add (mul_le_mul_of_nonneg_left h2 (by linarith)) (mul_le_mul_of_nonneg_left h3 h0)
      _ = c := by ring
  exact ⟨by simpa [segPt] using key _ _ _ _ ha.1 hb.1, by simpa [segPt] using key _ _ _ _ ha.2 hb.2⟩

theorem near_within {R : ℝ} {v g : ℤ × ℤ} (h : ∃ x, RoundedTo g x ∧ sqDist x (gridPt 0 v) ≤ R ^ 2) : Within (|R| + 1 / 2) (gridPt 0 g) (gridPt 0 v) := by
  obtain ⟨x, h1, h2⟩ := h
  simp only [sqDist] at h2
  have hx : |x.x - (gridPt 0 v).x| ≤ |R| := sq_le_sq.1 (by nlinarith [sq_nonneg (x.y - (gridPt 0 v).y)])
  have hy : |x.y - (gridPt 0 v).y| ≤ |R| := sq_le_sq.1 (by nlinarith [sq_nonneg (x.x - (gridPt 0 v).x)])
  exact ⟨(abs_sub_le _ x.x _).trans (by linarith [h1.1]), (abs_sub_le _ x.y _).trans (by linarith [h1.2])⟩

/-- **C193**, the distance: every point of the outline is within the reach of the corners (plus half a unit for the rounding) of a point of the polygon. -/
theorem C193_near (jt : ℤ) (hj : jt = 0 ∨ jt = 2) (limit d : ℝ) (pts : List (ℤ × ℤ)) (h3 : 3 ≤ pts.length) (h : ∀ e ∈ cycPairs pts, e.1 ≠ e.2) :
    ∃ out, outsetRing jt (miterLimit limit) d pts = .ok (some out) ∧
      ∀ x, OnRing (out.map (gridPt 0)) x → ∃ p, OnRing (pts.map (gridPt 0)) p ∧ Within (cornerReach jt limit * |d| + 1 / 2) x p := by
  obtain ⟨cs, h1, h2⟩ := C193_outline jt hj limit d pts h3 h
  refine ⟨_, h1, ?_⟩
  have hR : 0 ≤ cornerReach jt limit := by
    unfold cornerReach; split
    · have := le_max_left 2 limit; linarith
    · exact Real.sqrt_nonneg _
  have hW : List.Forall₂ (fun v l => l ≠ [] ∧ ∀ g ∈ l, Within (cornerReach jt limit * |d| + 1 / 2) (gridPt 0 g) (gridPt 0 v)) pts cs := by
    have : List.Forall₂ (fun v l => l ≠ [] ∧ ∀ g ∈ l, Within (cornerReach jt limit * |d| + 1 / 2) (gridPt 0 g) (gridPt 0 v)) ((triples pts).map fun t => t.2.1) cs := by
      rw [List.forall₂_map_left_iff]
      refine h2.imp ?_
      rintro t l ⟨hne, hm⟩
      refine ⟨hne, fun g hg => ?_⟩
      have := near_within (hm.near g hg)
      rwa [abs_mul, abs_of_nonneg hR] at this
    rwa [triples_mid] at this
  rintro x ⟨e, he, t, t0, t1, rfl⟩
  rw [cycPairs_map, List.mem_map] at he
  obtain ⟨e', he', rfl⟩ := he
  obtain ⟨u, w, hu, hw1, hw2⟩ := cycSteps_near hW e' he'
  refine ⟨segPt ⟨gridPt 0 u, gridPt 0 w⟩ t, ?_, within_comb t0 t1 hw1 hw2⟩
  rcases hu with ⟨rfl, hu⟩ | hu
  · have : segPt ⟨gridPt 0 u, gridPt 0 u⟩ t = gridPt 0 u := by unfold segPt; refine P.ext ?_ ?_ <;> simp
    rw [this]
    exact vertex_onRing (List.mem_map_of_mem hu)
  · refine ⟨(gridPt 0 u, gridPt 0 w), ?_, t, t0, t1, rfl⟩
    rw [cycPairs_map]
    exact List.mem_map.2 ⟨(u, w), hu, rfl⟩

/-- Neighbours in the polygon given to the library are different. -/
theorem openRing_sides (g : List (ℤ × ℤ)) (h : g.IsChain (· ≠ ·)) (h2 : 2 ≤ (openRing g).length) : ∀ e ∈ cycPairs (openRing g), e.1 ≠ e.2 := by
  have chainPairs : ∀ (l : List (ℤ × ℤ)) (a : ℤ × ℤ), (a :: l).IsChain (· ≠ ·) → ∀ e ∈ pairsFrom a l, e.1 ≠ e.2 := by
    intro l
    induction l with
    | nil => intro a _ e he; simp [pairsFrom] at he
    | cons b l ih =>
      intro a hc e he
      rw [List.isChain_cons_cons] at hc
      simp only [pairsFrom, List.mem_cons] at he
      rcases he with rfl | he
      · exact hc.1
      · exact ih b hc.2 e he
  cases g with
  | nil => simp [openRing] at h2
  | cons a l =>
    have main : ∀ (o : List (ℤ × ℤ)) (z : ℤ × ℤ), (a :: o).IsChain (· ≠ ·) → (a :: o).getLast? = some z → z ≠ a → ∀ e ∈ cycPairs (a :: o), e.1 ≠ e.2 := by
      intro o z hc hz hza e he
      unfold cycPairs at he
      rw [hz] at he
      simp only [pairsFrom, List.mem_cons] at he
      rcases he with rfl | he
      · exact hza
      · exact chainPairs o a hc e he
    dsimp only [openRing] at h2 ⊢
    split at h2
    · rename_i hc
      rw [if_pos hc]
      obtain ⟨hl, hlast⟩ := hc
      have e0 : (a :: l) = (a :: l).dropLast ++ [a] := by
        have := List.dropLast_append_getLast? a hlast
        exact this.symm
      cases hd : (a :: l).dropLast with
      | nil => rw [hd] at h2; simp at h2
      | cons b o =>
        have hb : b = a := by rw [hd] at e0; simp at e0; exact e0.1.symm
        subst hb
        rw [hd] at e0
        rw [e0] at h
        rw [List.isChain_append] at h
        refine main o _ h.1 (List.getLast?_eq_getLast_of_ne_nil (by simp)) ?_
        exact h.2.2 _ (by rw [List.getLast?_eq_getLast_of_ne_nil (by simp)]; simp) b (by simp)
    · rename_i hc
      rw [if_neg hc]
      refine main l _ h (List.getLast?_eq_getLast_of_ne_nil (by simp)) ?_
      intro hz
      apply hc
      refine ⟨?_, by rw [List.getLast?_eq_getLast_of_ne_nil (by simp), hz]⟩
      rintro rfl
      simp at h2

/-- **C193** (counter-clockwise polygons, squared and mitered corners).  Let no two neighbouring vertices fall on the same point of the grid, let at least three be left, and not in clockwise order; and let every vertex of
the union that the library makes of outlines be within `s` of its units of a point of an outline.  Then `offset_polygons` raises no exception, and every vertex returned is within the reach of the corners
(the square root of 2 times the offset if they are squared) of a point of the polygon, plus `s + 3/2` units of `10⁻ⁿ`.  Missing: that the sides of the union are those of the outlines (`Execute` is not modelled), round corners
(`C193_refuted_round`). -/
theorem C193_offset_partial (union : Union ℝ) (t : Tol ℝ) (poly : List (P ℝ)) (offset : ℝ) (jt : ℤ) (hj : jt = 0 ∨ jt = 2) (limit s : ℝ) (hs : 0 ≤ s)
    (hc : (poly2clipper t.prec poly).IsChain (· ≠ ·)) (h3 : 3 ≤ (openRing (poly2clipper t.prec poly)).length)
    (ha : polyArea ((openRing (poly2clipper t.prec poly)).map (gridPt t.prec)) ≤ 0)
    (hu : ∀ (res : List (List (ℤ × ℤ))) (d : ℝ), ∀ ring ∈ union res d, ∀ v ∈ ring, ∃ o ∈ res, ∃ x, OnRing (o.map (gridPt 0)) x ∧ Within s (gridPt 0 v) x) :
    ∃ res, outsetPolygons union t poly offset jt limit = .ok res ∧
      ∀ ring ∈ res, ∀ v ∈ ring, ∃ p, OnRing poly p ∧ Within (cornerReach jt (limit * 10 ^ t.prec) * |offset| + (s + 3 / 2) / 10 ^ t.prec) v p := by
  set l := openRing (poly2clipper t.prec poly) with hl
  set d := offset * 10 ^ t.prec with hd
  set L := limit * 10 ^ t.prec with hL
  obtain ⟨out, ho, hnear⟩ := C193_near jt hj L d l h3 (openRing_sides _ hc (by rw [← hl]; omega))
  have hrings : outsetRings jt (miterLimit L) d [l] = .ok [out] := by
    simp only [outsetRings, ho, bind, Except.bind, pure, Except.pure, Option.toList]; rfl
  have hround : roundSetup jt L d = .ok () := by
    unfold roundSetup
    rcases hj with rfl | rfl <;> simp
  have hR : 0 ≤ cornerReach jt L := by
    unfold cornerReach; split
    · have := le_max_left 2 L; linarith
    · exact Real.sqrt_nonneg _
  have heq : outsetPolygons union t poly offset jt limit = offsetPolygons (fun _ e _ _ => union [out] e) t poly offset jt limit := by
    unfold outsetPolygons offsetPolygons clipperOffset
    rw [stripDups_chain _ hc, ← hl]
    dsimp only
    split
    · rfl
    · split
      · rfl
      · unfold outsetInternal offsetInternal
        simp only [real_mul, gridMult_real, ← hd, ← hL, hround, hrings, bind, Except.bind, pure, Except.pure]
        split <;> rfl
  rw [heq]
  have := C170_offset_partial (fun _ e _ _ => union [out] e) t poly offset jt limit (cornerReach jt L) (s + 1 / 2) hR (by linarith) hc h3 ha (by
    intro ring hring v hv
    obtain ⟨o, hoo, x, hx1, hx2⟩ := hu _ _ ring hring v hv
    rw [List.mem_singleton] at hoo
    subst hoo
    obtain ⟨p, hp1, hp2⟩ := hnear x hx1
    refine ⟨p, hp1, (abs_sub_le _ x.x _).trans ?_, (abs_sub_le _ x.y _).trans ?_⟩
    · linarith [hx2.1, hp2.1]
    · linarith [hx2.2, hp2.2])
  have e : s + 1 / 2 + 1 = s + 3 / 2 := by ring
  rwa [e] at this

/-! ## Refuted -/

theorem cornersLoop_round (m d : ℝ) (ts : List ((ℤ × ℤ) × (ℤ × ℤ) × (ℤ × ℤ))) (h : ∀ t ∈ ts, t.1 ≠ t.2.1 ∧ t.2.1 ≠ t.2.2) (hx : ∃ t ∈ ts, 0 ≤ turnOf t.1 t.2.1 t.2.2 * d) :
    cornersLoop 1 m d (ts.map fun t => (t.2.1, unitNormal t.1 t.2.1, unitNormal t.2.1 t.2.2)) = .error .typeError := by
  induction ts with
  | nil => simp at hx
  | cons t ts ih =>
    obtain ⟨h1, h2⟩ := h t (by simp)
    have hp : 0 < sideLen t.1 t.2.1 * sideLen t.2.1 t.2.2 := mul_pos (sideLen_pos h1) (sideLen_pos h2)
    have hsin : cornerSin (unitNormal t.1 t.2.1 : P ℝ) (unitNormal t.2.1 t.2.2) * d = turnOf t.1 t.2.1 t.2.2 * d / (sideLen t.1 t.2.1 * sideLen t.2.1 t.2.2) := by
      rw [cornerSin_turn h1 h2]; ring
    have hneg : cornerSin (unitNormal t.1 t.2.1 : P ℝ) (unitNormal t.2.1 t.2.2) * d < 0 ↔ turnOf t.1 t.2.1 t.2.2 * d < 0 := by rw [hsin, div_lt_iff₀ hp, zero_mul]
    simp only [List.map_cons, cornersLoop, cornerPts, real_lt, real_mul, real_zero, decide_eq_true_eq, hneg]
    by_cases hb : turnOf t.1 t.2.1 t.2.2 * d < 0
    · rw [if_pos hb]
      have hx' : ∃ t ∈ ts, 0 ≤ turnOf t.1 t.2.1 t.2.2 * d := by
        obtain ⟨u, hu, hu'⟩ := hx
        rcases List.mem_cons.1 hu with rfl | hu
        · exact absurd hb (not_lt.2 hu')
        · exact ⟨u, hu, hu'⟩
      simp only [bind, Except.bind, ih (fun t ht => h t (List.mem_cons_of_mem _ ht)) hx']
    · rw [if_neg hb, if_neg (by decide), if_neg (by decide), if_pos trivial]
      rfl

/-- **C193, refuted (round corners).**  Let no two neighbouring vertices fall on the same point of the grid, let at least three be left, not in clockwise order, and let there be a corner that is not cut back (for a positive offset, one that
turns to the left, which every convex polygon has). Then `offset_polygons` with round corners fails with a `TypeError`, for every limit that is not positive and every offset of at least an eighth of a unit. -/
theorem C193_refuted_round (union : Union ℝ) (t : Tol ℝ) (poly : List (P ℝ)) (offset limit : ℝ) (hlim : limit ≤ 0) (hoff : 1 / 8 ≤ |offset * 10 ^ t.prec|)
    (hc : (poly2clipper t.prec poly).IsChain (· ≠ ·)) (h3 : 3 ≤ (openRing (poly2clipper t.prec poly)).length)
    (ha : polyArea ((openRing (poly2clipper t.prec poly)).map (gridPt t.prec)) ≤ 0)
    (hx : ∃ c ∈ triples (openRing (poly2clipper t.prec poly)), 0 ≤ turnOf c.1 c.2.1 c.2.2 * offset) :
    outsetPolygons union t poly offset 1 limit = .error .typeError := by
  have hp : (0 : ℝ) < 10 ^ t.prec := by positivity
  set l := openRing (poly2clipper t.prec poly) with hl
  set d := offset * 10 ^ t.prec with hd
  set L := limit * 10 ^ t.prec with hL
  have hside := openRing_sides _ hc (by rw [← hl]; omega)
  rw [← hl] at hside
  have hL0 : L ≤ 0 := mul_nonpos_of_nonpos_of_nonneg hlim hp.le
  have hd0 : d ≠ 0 := by intro h; rw [h] at hoff; norm_num at hoff
  have hopen : openPts l = l := by
    clear_value l
    cases l with
    | nil => rfl
    | cons a l =>
      unfold openPts
      rw [List.getLast?_eq_getLast_of_ne_nil (by simp)]
      simp only [List.head?_cons]
      rw [if_neg]
      have e : cycPairs (a :: l) = pairsFrom ((a :: l).getLast (by simp)) (a :: l) := by
        unfold cycPairs; rw [List.getLast?_eq_getLast_of_ne_nil (by simp)]
      rw [e] at hside
      exact fun hc => hside (_, a) (by simp [pairsFrom]) hc.symm
  have hround : roundSetup 1 L d = .ok () := by
    unfold roundSetup roundLimit
    simp only [real_le, real_zero, hL0, decide_true, if_true, real_sub, real_one, real_div, real_abs, real_lt, real_neg, Bool.true_and, decide_eq_true_eq]
    rw [if_neg]
    have h4 : (lit 25 2 : ℝ) = 1 / 4 := by norm_num [real_lit]
    rw [h4, not_lt]
    have : (1 : ℝ) / 4 / |d| ≤ 2 := by rw [div_le_iff₀ (by linarith)]; linarith
    linarith
  have hrings : outsetRings 1 (miterLimit L) d [l] = .error .typeError := by
    have hr : outsetRing 1 (miterLimit L) d l = .error .typeError := by
      unfold outsetRing
      rw [if_neg, if_neg (by omega), hopen, corners_eq, cornersLoop_round _ _ _ (triples_sides l hside)]
      · rfl
      · obtain ⟨c, hc1, hc2⟩ := hx
        refine ⟨c, hc1, ?_⟩
        rw [hd, ← mul_assoc]; exact mul_nonneg hc2 hp.le
      · simp only [Bool.or_eq_true, decide_eq_true_eq, Bool.and_eq_true, not_or, not_and]
        exact ⟨by omega, fun hh => absurd hh (by omega)⟩
    simp only [outsetRings, hr, bind, Except.bind]
  unfold outsetPolygons
  rw [stripDups_chain _ hc, ← hl]
  dsimp only
  rw [if_neg (by omega), if_neg (fun h => absurd ((clipArea2_neg t.prec l).1 h) (not_lt.2 ha))]
  unfold outsetInternal
  simp only [real_mul, gridMult_real, ← hd, ← hL, hround, hrings, real_beq, real_zero, hd0, decide_false, Bool.false_eq_true, if_false, bind, Except.bind]
  rfl

/-- **C193, refuted (round corners, small offsets).**  Let no two neighbouring vertices fall on the same point of the grid and let at least three be left, not in clockwise order. With round corners and a limit that is not positive, every
offset other than zero of less than an eighth of a unit of the grid makes `offset_polygons` fail with a `ValueError`, whatever the corners. -/
theorem C193_refuted_small (union : Union ℝ) (t : Tol ℝ) (poly : List (P ℝ)) (offset limit : ℝ) (hlim : limit ≤ 0) (h0 : offset ≠ 0) (hoff : |offset * 10 ^ t.prec| < 1 / 8)
    (hc : (poly2clipper t.prec poly).IsChain (· ≠ ·)) (h3 : 3 ≤ (openRing (poly2clipper t.prec poly)).length)
    (ha : polyArea ((openRing (poly2clipper t.prec poly)).map (gridPt t.prec)) ≤ 0) :
    outsetPolygons union t poly offset 1 limit = .error .valueError := by
  have hp : (0 : ℝ) < 10 ^ t.prec := by positivity
  set d := offset * 10 ^ t.prec with hd
  set L := limit * 10 ^ t.prec with hL
  have hL0 : L ≤ 0 := mul_nonpos_of_nonpos_of_nonneg hlim hp.le
  have hd0 : d ≠ 0 := mul_ne_zero h0 hp.ne'
  have hround : roundSetup 1 L d = .error .valueError := by
    unfold roundSetup roundLimit
    simp only [real_le, real_zero, hL0, decide_true, if_true, real_sub, real_one, real_div, real_abs, real_lt, real_neg, Bool.true_and, decide_eq_true_eq]
    rw [if_pos]
    have h4 : (lit 25 2 : ℝ) = 1 / 4 := by norm_num [real_lit]
    rw [h4]
    have : (2 : ℝ) < 1 / 4 / |d| := by rw [lt_div_iff₀ (abs_pos.2 hd0)]; linarith
    linarith
  unfold outsetPolygons
  rw [stripDups_chain _ hc]
  dsimp only
  rw [if_neg (by omega), if_neg (fun h => absurd ((clipArea2_neg t.prec _).1 h) (not_lt.2 ha))]
  unfold outsetInternal
  simp only [real_mul, gridMult_real, ← hd, ← hL, hround, real_beq, real_zero, hd0, decide_false, Bool.false_eq_true, if_false, bind, Except.bind]
  rfl

/-- A triangle with a sharp corner, in tenths of a unit. -/
def spike : List (ℤ × ℤ) := [(0, 0), (99, 20), (0, 40)]

theorem spike_sides : ∀ e ∈ cycPairs spike, e.1 ≠ e.2 := by decide

theorem spike_len : sideLen (0, 0) (99, 20) = 101 ∧ sideLen (99, 20) (0, 40) = 101 := by
  constructor
  · unfold sideLen; rw [show (((99 : ℤ) - 0 : ℤ) : ℝ) ^ 2 + (((20 : ℤ) - 0 : ℤ) : ℝ) ^ 2 = 101 ^ 2 by norm_num]; exact Real.sqrt_sq (by norm_num)
  · unfold sideLen; rw [show (((0 : ℤ) - 99 : ℤ) : ℝ) ^ 2 + (((40 : ℤ) - 20 : ℤ) : ℝ) ^ 2 = 101 ^ 2 by norm_num]; exact Real.sqrt_sq (by norm_num)

/-- **C193, refuted (the limit).**  `offset_polygons` multiplies the limit by `10ⁿ`, although the library takes it as a multiple of the offset: with a grid of tenths, a limit of 3 and an offset of 1 (10 units) the corner of the triangle is not
squared off, but mitered, 5 units of the drawing (50 of the grid) from its vertex `(99, 20)`. -/
theorem C193_refuted_limit : ∃ out, outsetRing 2 (miterLimit (3 * 10 ^ 1 : ℝ)) (1 * 10 ^ 1) spike = .ok (some out) ∧ ∃ g ∈ out, (50 : ℝ) ^ 2 ≤ sqDist (gridPt 0 g) (gridPt 0 (99, 20)) := by
  obtain ⟨cs, h1, h2⟩ := C193_outline 2 (.inr rfl) (3 * 10 ^ 1) (1 * 10 ^ 1) spike (by decide) spike_sides
  refine ⟨_, h1, ?_⟩
  have ht : triples spike = [((0, 40), (0, 0), (99, 20)), ((0, 0), (99, 20), (0, 40)), ((99, 20), (0, 40), (0, 0))] := by decide
  rw [ht] at h2
  obtain ⟨l1, l2, l3, rfl⟩ : ∃ l1 l2 l3, cs = [l1, l2, l3] := by
    have := h2.length_eq
    match cs, this with
    | [l1, l2, l3], _ => exact ⟨l1, l2, l3, rfl⟩
  rw [List.forall₂_cons, List.forall₂_cons] at h2
  obtain ⟨-, ⟨-, hm⟩, -⟩ := h2
  obtain ⟨s1, s2⟩ := spike_len
  obtain ⟨g, x, rfl, hg, hx1, hx2⟩ := hm.mitered (by norm_num [turnOf]) rfl (by rw [max_eq_right (by norm_num), cosTurn, s1, s2]; norm_num)
  unfold RightOf at hx1 hx2
  rw [s1] at hx1
  rw [s2] at hx2
  norm_num at hx1 hx2
  have hxx : x.x = 299 / 2 := by linarith
  obtain ⟨r1, r2⟩ := hg
  rw [hxx, gridPt0] at r1
  simp only at r1
  refine ⟨g, by simp, ?_⟩
  simp only [gridPt0, sqDist]
  have := (abs_le.1 r1).1
  norm_num
  nlinarith [sq_nonneg ((g.2 : ℝ) - 20)]

/-- Non-vacuity of `C193_offset_partial`, `C193_refuted_round` and (with an offset of a hundredth) `C193_refuted_small`: the triangle, on a grid of tenths, and a library that leaves the outlines as they are. -/
example : let poly := spike.map (gridPt 1)
    poly2clipper 1 poly = spike ∧ spike.IsChain (· ≠ ·) ∧ openRing spike = spike ∧ polyArea (spike.map (gridPt 1)) ≤ 0 ∧
      (∃ c ∈ triples spike, (0 : ℝ) ≤ turnOf c.1 c.2.1 c.2.2 * 1) ∧ |(1 / 100 : ℝ) * 10 ^ 1| < 1 / 8 ∧
      (∀ (res : List (List (ℤ × ℤ))) (d : ℝ), ∀ ring ∈ (fun r _ => r : Union ℝ) res d, ∀ v ∈ ring, ∃ o ∈ res, ∃ x, OnRing (o.map (gridPt 0)) x ∧ Within 0 (gridPt 0 v) x) := by
  refine ⟨?_, by decide, by decide, ?_, ⟨((0, 0), (99, 20), (0, 40)), by decide, by norm_num [turnOf]⟩, by rw [abs_of_pos] <;> norm_num, ?_⟩
  · simp only [poly2clipper, List.map_map]
    have : (toGrid 1 ∘ gridPt 1 : ℤ × ℤ → ℤ × ℤ) = id := funext fun p => toGrid_gridPt 1 p
    rw [this, List.map_id]
  · rw [← not_lt, ← clipArea2_neg]; decide
  · intro res d ring hring v hv
    exact ⟨ring, hring, gridPt 0 v, vertex_onRing (List.mem_map_of_mem hv), by simp [Within]⟩

/-- Non-vacuity of `C193_outline`: a corner of a square is mitered, at the corner of the larger square. -/
example : ∃ l, cornerPts 2 (miterLimit (0 : ℝ)) 10 (100, 0) (unitNormal (0, 0) (100, 0)) (unitNormal (100, 0) (100, 100)) = .ok l ∧ Mitered 10 (0, 0) (100, 0) (100, 100) l := by
  obtain ⟨l, h1, -, h2⟩ := C193_corner 2 (.inr rfl) 0 10 (p := (0, 0)) (v := (100, 0)) (q := (100, 100)) (by decide) (by decide)
  exact ⟨l, h1, h2.mitered (by norm_num [turnOf]) rfl (by norm_num [cosTurn])⟩

end Verif.Geom
