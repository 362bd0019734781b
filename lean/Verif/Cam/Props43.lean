import Verif.Cam.Props41
import Verif.Cam.Props3

/-!
# C38, C39: tool angles of offset and filleted paths
-/

set_option linter.unusedSectionVars false

namespace Verif.Cam
open Verif Verif.Geom PyFloat PyTrig

section
variable {K : Type} [Field K] [LinearOrder K] [IsStrictOrderedRing K] [PyTrig K] [ExactFloat K]

/-- Specification: on a segment whose tool angle goes from `a` to `b` (by the rotation that `calc_rotation` gives), the angle at the fraction `m` of it is `x`, up to whole turns and twice the tolerance. -/
def AngleAlong (eps a b m x : K) : Prop := NearDirection (2 * eps) x (a + calcRotation eps a b * m)

theorem near_mono {eps eps' a b : K} (h : eps ≤ eps') (hn : NearDirection eps a b) : NearDirection eps' a b := by
  obtain ⟨n, hn⟩ := hn
  exact ⟨n, lt_of_lt_of_le hn h⟩

/-- **C39**, adjusted tool angles: when a fillet is inserted with its tool angles adjusted, the fillet starts with the tool angle that the first segment has at the fraction `m1` of it where the fillet starts, and ends with the one
that the second segment has where the fillet ends; the segments end and start with the same angles, unless the change is zero (then they keep their own). -/
theorem C39_adjusted {eps r : K} (heps : 0 < eps) {mark : Bool} {s1 s2 n1 f n2 : Seg K} (h : createAdjustedFillet eps s1 s2 r true mark = .ok (some (n1, f, n2))) :
    ∃ m1 m2 x y, shapeMu eps s1.shape f.shape.p1 = .ok m1 ∧ shapeMu eps s2.shape f.shape.p2 = .ok m2 ∧
      f.hints.startA = some x ∧ f.hints.endA = some y ∧
      AngleAlong eps (s1.startAngle eps) (s1.endAngle eps) m1 x ∧ AngleAlong eps (s2.startAngle eps) (s2.endAngle eps) m2 y ∧
      (n1.hints.endA = some x ∨ n1.hints.endA = s1.hints.endA ∧ x = s1.endAngle eps) ∧ n1.hints.startA = s1.hints.startA ∧
      (n2.hints.startA = some y ∨ n2.hints.startA = s2.hints.startA ∧ y = s2.startAngle eps) ∧ n2.hints.endA = s2.hints.endA := by
  unfold createAdjustedFillet at h
  split at h
  · cases h
  · obtain ⟨f?, hf, h⟩ := bind_ok h
    cases f? with
    | none => cases h
    | some fa =>
      dsimp only at h
      simp only [if_true] at h
      obtain ⟨adj, hadj, h⟩ := bind_ok h
      obtain ⟨q, hq, hadj⟩ := bind_ok hadj
      cases hadj
      unfold adjustHints at hq
      obtain ⟨m1, hm1, hq⟩ := bind_ok hq
      obtain ⟨m2, hm2, hq⟩ := bind_ok hq
      dsimp only at hq
      have key1 : ∀ z : K, isZero eps z = true → |z| < eps := fun z hz => by
        unfold isZero at hz; py at hz; rw [abs_lt]; exact hz
      obtain ⟨o1, ho1⟩ : ∃ o1 : K, o1 = calcRotation eps (s1.startAngle eps) (s1.endAngle eps) *. (one -. m1) := ⟨_, rfl⟩
      obtain ⟨o2, ho2⟩ : ∃ o2 : K, o2 = calcRotation eps (s2.startAngle eps) (s2.endAngle eps) *. m2 := ⟨_, rfl⟩
      rw [← ho1, ← ho2] at hq
      have ho1' : o1 = calcRotation eps (s1.startAngle eps) (s1.endAngle eps) * (1 - m1) := by rw [ho1]; py
      have ho2' : o2 = calcRotation eps (s2.startAngle eps) (s2.endAngle eps) * m2 := by rw [ho2]; py
      obtain ⟨n, hn⟩ := rotation_near eps (s1.startAngle eps) (s1.endAngle eps) heps
      have x1 : ∀ z, |z| < eps → AngleAlong eps (s1.startAngle eps) (s1.endAngle eps) m1 (s1.endAngle eps - o1 + z) := fun z hz => by
        refine ⟨-n, ?_⟩
        rw [abs_lt] at hn hz ⊢
        push_cast
        rw [ho1']
        constructor <;> linarith [hn.1, hn.2, hz.1, hz.2]
      have y1 : ∀ z, |z| < eps → AngleAlong eps (s2.startAngle eps) (s2.endAngle eps) m2 (s2.startAngle eps + o2 - z) := fun z hz => by
        refine ⟨0, ?_⟩
        rw [abs_lt] at hz ⊢
        push_cast
        rw [ho2']
        constructor <;> linarith [hz.1, hz.2]
      have p1 : ∃ x, AngleAlong eps (s1.startAngle eps) (s1.endAngle eps) m1 x ∧
          ((if isZero eps o1 then none else some (s1.endAngle eps -. o1) : Option K) = some x ∨
            (if isZero eps o1 then none else some (s1.endAngle eps -. o1) : Option K) = none ∧ x = s1.endAngle eps) := by
        by_cases hz : isZero eps o1 = true
        · exact ⟨_, by simpa using x1 o1 (key1 _ hz), .inr ⟨by rw [if_pos hz], rfl⟩⟩
        · exact ⟨_, x1 0 (by simpa using heps), .inl (by rw [if_neg hz, add_zero]; py)⟩
      have p2 : ∃ y, AngleAlong eps (s2.startAngle eps) (s2.endAngle eps) m2 y ∧
          ((if isZero eps o2 then none else some (s2.startAngle eps +. o2) : Option K) = some y ∨
            (if isZero eps o2 then none else some (s2.startAngle eps +. o2) : Option K) = none ∧ y = s2.startAngle eps) := by
        by_cases hz : isZero eps o2 = true
        · exact ⟨_, by simpa using y1 o2 (key1 _ hz), .inr ⟨by rw [if_pos hz], rfl⟩⟩
        · exact ⟨_, y1 0 (by simpa using heps), .inl (by rw [if_neg hz, sub_zero]; py)⟩
      obtain ⟨x, hx, px⟩ := p1
      obtain ⟨y, hy, py'⟩ := p2
      generalize (if isZero eps o1 then none else some (s1.endAngle eps -. o1) : Option K) = e1 at hq px
      generalize (if isZero eps o2 then none else some (s2.startAngle eps +. o2) : Option K) = e2 at hq py'
      cases hq
      cases h
      refine ⟨m1, m2, x, y, hm1, hm2, ?_, ?_, hx, hy, ?_, ?_, ?_, ?_⟩
      · rcases px with rfl | ⟨rfl, rfl⟩ <;> rfl
      · rcases py' with rfl | ⟨rfl, rfl⟩ <;> rfl
      · rcases px with rfl | ⟨rfl, rfl⟩
        · exact .inl rfl
        · refine .inr ⟨?_, rfl⟩
          show (s1.hints.endA).or none = _
          cases s1.hints.endA <;> rfl
      · rcases px with rfl | ⟨rfl, rfl⟩
        · show (s1.hints.startA).or none = _
          cases s1.hints.startA <;> rfl
        · show (s1.hints.startA).or none = _
          cases s1.hints.startA <;> rfl
      · rcases py' with rfl | ⟨rfl, rfl⟩
        · exact .inl rfl
        · refine .inr ⟨?_, rfl⟩
          show (s2.hints.startA).or none = _
          cases s2.hints.startA <;> rfl
      · rcases py' with rfl | ⟨rfl, rfl⟩
        · show (s2.hints.endA).or none = _
          cases s2.hints.endA <;> rfl
        · show (s2.hints.endA).or none = _
          cases s2.hints.endA <;> rfl

end

/-- **C38**, the start: the first segment of an offset path has a tool angle at its start, which points from the start of the given path to the start of the offset path. -/
theorem C38_start {eps : ℝ} {path : Path ℝ} {off minArc : ℝ} {g1tol : Option ℝ} {res : Path ℝ} (hoff : eps ≤ |off|) (h : offsetPath eps path off minArc g1tol = .ok res) :
    ∃ s ss o os a, path = s :: ss ∧ res = o :: os ∧ o.hints.startA = some a ∧
      o.p1.x = s.p1.x + Real.sqrt (sqDist o.p1 s.p1) * Real.cos a ∧ o.p1.y = s.p1.y + Real.sqrt (sqDist o.p1 s.p1) * Real.sin a := by
  unfold offsetPath at h
  have h0 : ¬ floatEq eps off zero = true := by rw [floatEq_iff]; simpa using hoff
  rw [if_neg h0] at h
  obtain ⟨r, hr, h⟩ := bind_ok h
  cases r with
  | nil => cases h
  | cons o tl =>
    cases path with
    | nil => cases h
    | cons s ss =>
      cases h
      refine ⟨s, ss, _, tl, (o.p1.sub s.p1).angle, rfl, rfl, rfl, ?_⟩
      have hv : (o.p1.sub s.p1).x ^ 2 + (o.p1.sub s.p1).y ^ 2 = Real.sqrt (sqDist o.p1 s.p1) ^ 2 := by
        rw [Real.sq_sqrt (sqDist_nonneg _ _)]; simp [P.sub, sqDist]
      obtain ⟨e1, e2⟩ := polar_atan2 (o.p1.sub s.p1) _ (Real.sqrt_nonneg _) hv
      generalize (o.p1.sub s.p1).angle = A at e1 e2 ⊢
      simp only [P.sub, real_sub] at e1 e2
      exact ⟨by show o.p1.x = s.p1.x + Real.sqrt (sqDist o.p1 s.p1) * Real.cos A; linarith, by show o.p1.y = s.p1.y + Real.sqrt (sqDist o.p1 s.p1) * Real.sin A; linarith⟩

/-- Non-vacuity of `C39_adjusted`: a fillet of radius 2 between two lines of length 10 whose tool angles go from 0 to 1 and from 1 to 2. -/
example : (match createAdjustedFillet (1/1000000 : ℚ) ⟨.line ⟨⟨0, 0⟩, ⟨10, 0⟩⟩, { startA := some 0, endA := some 1 }⟩ ⟨.line ⟨⟨10, 0⟩, ⟨10, 10⟩⟩, { startA := some 1, endA := some 2 }⟩ 2 true true with
    | .ok (some (n1, f, n2)) => some (n1.hints.endA, f.hints.startA, f.hints.endA, n2.hints.startA)
    | _ => none) = some (some (4/5), some (4/5), some (6/5), some (6/5)) := by decide +kernel

/-- Non-vacuity of `C38_start`: a line, moved forward by 1. -/
example : ∃ res, offsetPath (1/1000000) [⟨.line ⟨⟨0, 0⟩, ⟨10, 0⟩⟩, {}⟩] (1 : ℝ) 1 none = .ok res ∧ ∃ o os a, res = o :: os ∧ o.hints.startA = some a := by
  obtain ⟨res, h, -⟩ := C38_offset_partial (eps := 1/1000000) (by norm_num) [⟨.line ⟨⟨0, 0⟩, ⟨10, 0⟩⟩, {}⟩] 1 1 none (by norm_num)
    (by intro s hs; rw [List.mem_singleton] at hs; subst hs; exact .inl ⟨_, rfl⟩) ⟨_, List.mem_singleton_self _, by norm_num [Long, Seg.p1, Seg.p2, Shape.p1, Shape.p2, sqDist]⟩
  obtain ⟨s, ss, o, os, a, -, h2, h3, -⟩ := C38_start (by norm_num) h
  exact ⟨res, h, o, os, a, h2, h3⟩

end Verif.Cam
